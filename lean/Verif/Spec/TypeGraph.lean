import Verif.Model.TypeGraph
/-! # What the recursive type helpers are to decide -/
namespace Tsgolint.TypeGraph
variable {T : Type}

/-- The pairs (sender, receiver) compared when `t` is assigned to `r`: the pair itself and, below a pair of references to the same generic
type, the pairs of type arguments in the same position.  Nothing is below if the value is a plain `new Map()`. -/
inductive Compared (shape : T → Shape T) (newMap : Bool) (t r : T) : T → T → Prop
  | self : Compared shape newMap t r t r
  | arg {a b target as bs x y} (i : Nat) : Compared shape newMap t r a b → newMap = false → shape a = .ref target (some as) →
      shape b = .ref target (some bs) → as[i]? = some x → bs[i]? = some y → Compared shape newMap t r x y

/-- `any` is assigned to something that is neither `any` nor `unknown`. -/
def UnsafeAt (shape : T → Shape T) (a b : T) : Prop := shape a = .any ∧ shape b ≠ .any ∧ shape b ≠ .unknown

/-- Two references to the same generic type of which the sender has more arguments (the type checker never makes such). -/
def Mismatch (shape : T → Shape T) (a b : T) : Prop :=
  ∃ target as bs, shape a = .ref target (some as) ∧ shape b = .ref target (some bs) ∧ bs.length < as.length

/-- A list of types closed under type arguments. -/
def ClosedUnderArgs (shape : T → Shape T) (U : List T) : Prop :=
  ∀ t ∈ U, ∀ target as, shape t = .ref target (some as) → ∀ a ∈ as, a ∈ U

/-- `c` is a constituent of `t`: reached from it through unions and intersections, and itself neither. -/
inductive Constituent (shape : T → Shape T) : T → T → Prop
  | self {t} : (∀ ps, shape t ≠ .union ps) → (∀ ps, shape t ≠ .intersection ps) → Constituent shape t t
  | union {t ps p c} : shape t = .union ps → p ∈ ps → Constituent shape p c → Constituent shape t c
  | intersection {t ps p c} : shape t = .intersection ps → p ∈ ps → Constituent shape p c → Constituent shape t c

/-- A type is like a builtin: an intersection if one of its parts is, a union if all of them are, a type parameter if its constraint is,
any other type if the predicate says so, or leaves it open and a base class or interface is. -/
inductive BuiltinLike (E : BaseEnv T) (predicate : T → Matches) : T → Prop
  | intersection {t ps p} : E.shape t = .intersection ps → p ∈ ps → BuiltinLike E predicate p → BuiltinLike E predicate t
  | union {t ps} : E.shape t = .union ps → (∀ p ∈ ps, BuiltinLike E predicate p) → BuiltinLike E predicate t
  | param {t c} : E.shape t = .param (some c) → BuiltinLike E predicate c → BuiltinLike E predicate t
  | yes {t} : (∀ ps, E.shape t ≠ .intersection ps) → (∀ ps, E.shape t ≠ .union ps) → (∀ c, E.shape t ≠ .param c) →
      predicate t = .yes → BuiltinLike E predicate t
  | base {t bs b} : (∀ ps, E.shape t ≠ .intersection ps) → (∀ ps, E.shape t ≠ .union ps) → (∀ c, E.shape t ≠ .param c) →
      predicate t = .unknown → E.bases t = some bs → b ∈ bs → BuiltinLike E predicate b → BuiltinLike E predicate t

/-- `u` is directly below `t` for the builtin check. -/
def Below (E : BaseEnv T) (u t : T) : Prop :=
  (∃ ps, (E.shape t = .intersection ps ∨ E.shape t = .union ps) ∧ u ∈ ps) ∨ E.shape t = .param (some u) ∨
    ∃ bs, E.bases t = some bs ∧ u ∈ bs

/-- `b` is `t` or one of its base types, transitively. -/
inductive Ancestor (bases : T → List T) : T → T → Prop
  | self {t} : Ancestor bases t t
  | base {t b a} : b ∈ bases t → Ancestor bases b a → Ancestor bases t a

/-- A type all of whose values are strings: string-like, a type parameter declared to extend one, a union of them, or an intersection with
one of them — or a type that is printed as `string`. -/
inductive Stringy (E : NameEnv T) : T → Prop
  | like {t} : E.stringLike t = true → Stringy E t
  | param {t c k} : E.stringLike t = false → E.shape t = .param k → E.declaredConstraint t = some c → Stringy E c → Stringy E t
  | union {t ps} : E.shape t = .union ps → (∀ p ∈ ps, Stringy E p) → Stringy E t
  | intersection {t ps p} : E.shape t = .intersection ps → p ∈ ps → Stringy E p → Stringy E t
  | printed {t} : E.toString t = "string" → (∀ k c, E.shape t = .param k → E.declaredConstraint t ≠ some c) → Stringy E t

/-- `u` is the type one gets from `t` by replacing type parameters by their declared constraints. -/
inductive Resolves (E : NameEnv T) : T → T → Prop
  | self {t} : E.stringLike t = false → (∀ k, E.shape t = .param k → E.declaredConstraint t = none) → Resolves E t t
  | param {t c k u} : E.stringLike t = false → E.shape t = .param k → E.declaredConstraint t = some c → Resolves E c u → Resolves E t u

/-- `p` is a part of `t`: a member if `t` is a union, else `t` itself. -/
def UnionPart (shape : T → Shape T) (t p : T) : Prop :=
  (∃ ps, shape t = .union ps ∧ p ∈ ps) ∨ ((∀ ps, shape t ≠ .union ps) ∧ p = t)

/-- A type is thenable if a part of its apparent type has a property `then` of which some part can be called with a first parameter that
accepts something callable. -/
def Thenable (E : ThenEnv T) (t : T) : Prop :=
  ∃ part, UnionPart E.shape (E.apparent t) part ∧ ∃ th, E.thenOf part = some th ∧ ∃ sub, UnionPart E.shape th sub ∧
    ∃ p, some (some p) ∈ E.calls sub ∧ ∃ q, UnionPart E.shape p q ∧ E.calls q ≠ []

end Tsgolint.TypeGraph

namespace Tsgolint.TypeGraph
variable {T : Type}

/-- `b` is what one gets by awaiting a constituent of `a` that is thenable. -/
def AwaitStep (E : AnyEnv T) (a b : T) : Prop := ∃ c, Constituent E.shape a c ∧ E.isThenable c = true ∧ E.awaited c = some b

/-- Any number of such steps. -/
inductive AwaitReach (E : AnyEnv T) : T → T → Prop
  | refl {a} : AwaitReach E a a
  | step {a b c} : AwaitStep E a b → AwaitReach E b c → AwaitReach E a c

/-- Awaiting is complete: below what has been awaited once (and is not `any`), awaiting again never gives `any`.  In TypeScript an awaited
type is never itself thenable, so there is nothing below it. -/
def AwaitsFully (E : AnyEnv T) (t : T) : Prop :=
  ∀ a, AwaitStep E t a → E.shape a ≠ .any → ∀ b, AwaitReach E a b → E.shape b ≠ .any

/-- The constituents of a list of types and what awaiting them gives stay in the list, and unions are nested at most `D` deep. -/
def FiniteBelow (E : AnyEnv T) (U : List T) (depth : T → Nat) (D : Nat) : Prop :=
  (∀ t ∈ U, ∀ ps, (E.shape t = .union ps ∨ E.shape t = .intersection ps) → ∀ p ∈ ps, p ∈ U ∧ depth p < depth t) ∧
  (∀ t ∈ U, ∀ a, E.awaited t = some a → a ∈ U) ∧ (∀ t ∈ U, depth t ≤ D)

end Tsgolint.TypeGraph
