import Verif.Model.Condition
/-!
# Values, and what types and expressions mean
-/
namespace Tsgolint.Condition

/-- A JavaScript value.  Numbers and bigints are given by their texts (`-0` is `0`). -/
inductive Value
  | undefined
  | null
  | bool (b : Bool)
  | number (text : String)
  | string (s : String)
  | bigint (text : String)
  | symbol (n : Nat)
  | object (n : Nat)
  deriving DecidableEq

/-- ECMAScript's ToBoolean -/
def Value.truthy : Value → Bool
  | .undefined | .null => false
  | .bool b => b
  | .number t => decide (t ≠ "0" ∧ t ≠ "NaN")
  | .string s => decide (s ≠ "")
  | .bigint t => decide (t ≠ "0" ∧ t ≠ "0n")
  | .symbol _ | .object _ => true

def Value.isNullish : Value → Bool
  | .undefined | .null => true
  | _ => false

/-- What types that the rule does not look into contain -/
structure Meaning where
  object : Nat → Value → Prop
  primitive : Nat → Value → Prop
  typeParameter : Nat → Value → Prop
  indexedAccess : Nat → Value → Prop
  index : Nat → Value → Prop
  deferred : Nat → Value → Prop

mutual
/-- The value is of the type.  `void` stands for `undefined`; intersections have parts. -/
def Has (M : Meaning) : Ty → Value → Prop
  | .never, _ => False
  | .null, v => v = .null
  | .undefined, v => v = .undefined
  | .void, v => v = .undefined
  | .object n, v => M.object n v
  | .nonPrimitive, v => ∃ n, v = .object n
  | .symbol, v => ∃ n, v = .symbol n
  | .boolLit (some b), v => v = .bool b
  | .boolLit none, v => ∃ b, v = .bool b
  | .stringLit s, v => v = .string s
  | .numberLit t, v => v = .number t
  | .bigintLit t, v => v = .bigint t
  | .primitive n, v => M.primitive n v
  | .any, _ => True
  | .unknown, _ => True
  | .typeParameter n, v => M.typeParameter n v
  | .indexedAccess n, v => M.indexedAccess n v
  | .index n, v => M.index n v
  | .deferred n, v => M.deferred n v
  | .union ts, v => HasSome M ts v
  | .intersection ts, v => ts ≠ [] ∧ HasEvery M ts v
def HasSome (M : Meaning) : List Ty → Value → Prop
  | [], _ => False
  | t :: ts, v => Has M t v ∨ HasSome M ts v
def HasEvery (M : Meaning) : List Ty → Value → Prop
  | [], _ => True
  | t :: ts, v => Has M t v ∧ HasEvery M ts v
end

/-- Object types contain only objects (not true of `{}` or `{ length: number }` in TypeScript) -/
def Meaning.ObjectsOnly (M : Meaning) : Prop := ∀ n v, M.object n v → ∃ k, v = .object k

/-- Types that the rule cannot judge have truthy and falsy values -/
structure Meaning.Mixed (M : Meaning) : Prop where
  objects : ∀ n, ∃ v, M.object n v
  primitive : ∀ n, (∃ v, M.primitive n v ∧ v.truthy = true) ∧ ∃ v, M.primitive n v ∧ v.truthy = false
  typeParameter : ∀ n, (∃ v, M.typeParameter n v ∧ v.truthy = true) ∧ ∃ v, M.typeParameter n v ∧ v.truthy = false
  indexedAccess : ∀ n, (∃ v, M.indexedAccess n v ∧ v.truthy = true) ∧ ∃ v, M.indexedAccess n v ∧ v.truthy = false
  index : ∀ n, (∃ v, M.index n v ∧ v.truthy = true) ∧ ∃ v, M.index n v ∧ v.truthy = false
  deferred : ∀ n, (∃ v, M.deferred n v ∧ v.truthy = true) ∧ ∃ v, M.deferred n v ∧ v.truthy = false

mutual
/-- No intersection, no `never`, no empty union in it -/
def Simple : Ty → Prop
  | .union ts => ts ≠ [] ∧ EverySimple ts
  | .intersection _ => False
  | .never => False
  | _ => True
def EverySimple : List Ty → Prop
  | [] => True
  | t :: ts => Simple t ∧ EverySimple ts
end

/-- Of the types that the rule does not look into, those of objects, primitives and keys have no nullish values -/
structure Meaning.NonNull (M : Meaning) : Prop where
  object : ∀ n v, M.object n v → v.isNullish = false
  primitive : ∀ n v, M.primitive n v → v.isNullish = false
  index : ∀ n v, M.index n v → v.isNullish = false

mutual
/-- No `any`, `unknown`, type variables or unresolved conditional types; except in an intersection with a part that is not nullish -/
def Settled : Ty → Prop
  | .any | .unknown | .typeParameter _ | .indexedAccess _ | .deferred _ => False
  | .union ts => EverySettled ts
  | .intersection ts => SomeSettled ts
  | _ => True
def EverySettled : List Ty → Prop
  | [] => True
  | t :: ts => Settled t ∧ EverySettled ts
def SomeSettled : List Ty → Prop
  | [] => False
  | t :: ts => (Settled t ∧ nullish t = false) ∨ SomeSettled ts
end

/-- The links of a chain, from the innermost -/
inductive Link
  | property (optional : Bool)
  | element (optional arrayIndex : Bool)
  | call (optional : Bool)

def Link.optional : Link → Bool
  | .property o | .element o _ | .call o => o

def Link.index : Link → Bool
  | .element _ a => a
  | _ => false

def Link.on (c : Chain) : Link → Chain
  | .property o => .property c o
  | .element o a => .element c o a
  | .call o => .call c o

def build (base : Chain) : List Link → Chain
  | [] => base
  | l :: ls => build (l.on base) ls

/-- What is compared with -/
def Wanted.value : Wanted → Value
  | .undefinedOrVoid => .undefined
  | .null => .null

/-- ECMAScript's evaluation of `!`, `&&`, `||`; `ρ` gives the values of the leaves -/
def Expr.eval (ρ : Nat → Value) : Expr → Value
  | .leaf n => ρ n
  | .paren e => e.eval ρ
  | .not e => .bool (!(e.eval ρ).truthy)
  | .and l r => if (l.eval ρ).truthy then r.eval ρ else l.eval ρ
  | .or l r => if (l.eval ρ).truthy then l.eval ρ else r.eval ρ

def Expr.leaves : Expr → List Nat
  | .leaf n => [n]
  | .paren e => e.leaves
  | .not e => e.leaves
  | .and l r => l.leaves ++ r.leaves
  | .or l r => l.leaves ++ r.leaves

/-- The values of the expression's leaves are of their types -/
def Typed (M : Meaning) (L : Leaves) (ρ : Nat → Value) (e : Expr) : Prop :=
  ∀ n ∈ e.leaves, ∀ t, L.type n = some t → Has M t (ρ n)

/-- `e` is the leaf `n` under parentheses and `!`; an odd number of `!` if `negated` -/
inductive Under : Expr → Nat → Bool → Prop
  | leaf (n : Nat) : Under (.leaf n) n false
  | paren {e n b} : Under e n b → Under (.paren e) n b
  | not {e n b} : Under e n b → Under (.not e) n (!b)

/-- `e` is `… && r` or `… || r` under parentheses and `!` -/
inductive RightOf : Expr → Expr → Prop
  | and (l r : Expr) : RightOf (.and l r) r
  | or (l r : Expr) : RightOf (.or l r) r
  | paren {e r} : RightOf e r → RightOf (.paren e) r
  | not {e r} : RightOf e r → RightOf (.not e) r

/-- What a condition is judged by: the whole if it is a leaf under parentheses and `!`; otherwise the same of the right side of the `&&` or `||` under them -/
inductive Judged : Expr → Expr → Prop
  | whole {e n b} : Under e n b → Judged e e
  | right {e r x} : RightOf e r → Judged r x → Judged e x

/-- `a == b`, of which one is `undefined` or `null` -/
def Value.looseEqual (v w : Value) : Prop := v = w ∨ (v.isNullish = true ∧ w.isNullish = true)

/-- ECMAScript's `<` for numbers and nullish values: `undefined` is NaN, `null` is `0`.  Only integers are given, by `num`. -/
def Value.toInt (num : String → Option Int) : Value → Option Int
  | .null => some 0
  | .number t => num t
  | _ => none

def Value.less (num : String → Option Int) (v w : Value) : Bool :=
  match v.toInt num, w.toInt num with
  | some a, some b => decide (a < b)
  | _, _ => false

end Tsgolint.Condition
