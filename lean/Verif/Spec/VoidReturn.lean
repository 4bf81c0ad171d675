import Verif.Model.VoidReturn
/-! # Specification of strict-void-return -/
namespace Tsgolint.VoidReturn
variable {T N : Type}

/-- Every part of the type is void, never or undefined, or any if that is allowed. -/
def Nothing (E : Env T) (t : T) : Prop := ∀ p ∈ E.parts t, E.nothing p = true ∨ (E.allowReturnAny = true ∧ E.isAny p = true)

/-- It is called for nothing: it has call signatures, and they all return void. -/
def ForNothing (E : Env T) (t : T) : Prop :=
  (∃ p ∈ E.parts t, ∃ r, r ∈ E.callReturns p) ∧ ∀ p ∈ E.parts t, ∀ r ∈ E.callReturns p, ∀ q ∈ E.parts r, E.isVoid q = true

/-- The return statements that belong to the function itself. -/
inductive Own : Tree T N → N → Option T → Prop
  | here {n v cs} : Own (.ret n v cs) n v
  | ret {m w cs c n v} : c ∈ cs → Own c n v → Own (.ret m w cs) n v
  | other {cs c n v} : c ∈ cs → Own c n v → Own (.other cs) n v

/-- It returns something: some signature does. -/
def Returns (E : Env T) (f : Func T N) : Prop := ∃ t ∈ f.returns, ¬Nothing E t

/-- What there is to say about a function that should return nothing. -/
inductive Complains (E : Env T) (f : Func T N) : N → Message → Prop
  /-- some other expression, or a generator -/
  | value : Returns E f → f.literal = false ∨ f.generator = true → Complains E f f.node .nonVoidFunc
  | async : Returns E f → f.literal = true → f.generator = false → f.async = true → Complains E f f.node .asyncFunc
  | expression {b} : Returns E f → f.literal = true → f.generator = false → f.async = false → f.body = .expression b → Complains E f b .nonVoidReturn
  | annotation {a} : Returns E f → f.literal = true → f.generator = false → f.async = false → (∀ b, f.body ≠ .expression b) → f.annotation = some (a, false) →
      Complains E f a .nonVoidFunc
  | statement {c n t} : Returns E f → f.literal = true → f.generator = false → f.async = false → (∀ b, f.body ≠ .expression b) → (∀ a, f.annotation ≠ some (a, false)) →
      c ∈ f.children → Own c n (some t) → ¬Nothing E t → Complains E f n .nonVoidReturn

/-- A return type expected of a callback. -/
def Expected (E : Env T) (signatures : List (List T)) (i : Nat) (t : T) : Prop :=
  ∃ ps ∈ signatures, ∃ p, ps[i]? = some p ∧ ∃ q ∈ E.parts p, t ∈ E.callReturns q

/-- The context of an argument wants a function that returns nothing. -/
def WantsNothing (E : Env T) (signatures : List (List T)) (i : Nat) (contextual : Option T) : Prop :=
  ((signatures.length = 1 ∨ ∀ t, Expected E signatures i t → E.isVoid t = true ∨ E.nullishOrAny t = true ∨ E.isTypeParameter t = true) ∧
    ∃ t, contextual = some t ∧ ForNothing E t) ∨
  ((∃ t, Expected E signatures i t ∧ E.isVoid t = true) ∧ ∀ t, Expected E signatures i t → E.nullishOrAny t = true)

end Tsgolint.VoidReturn
