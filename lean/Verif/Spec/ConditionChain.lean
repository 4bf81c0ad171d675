import Verif.Model.ConditionChain
import Verif.Spec.Condition
/-!
# What `?.` does, and when the checker's types are right about it
-/
namespace Tsgolint.Condition

/-- What evaluating an expression gives: a value; `short`, if a `?.` in it stopped the chain; or an exception -/
inductive Outcome
  | value (v : Value)
  | short
  | fails
  deriving DecidableEq

/-- One execution: what the parts of expressions give -/
structure Run where
  root : Nat → Outcome
  /-- the values of keys -/
  key : Nat → Value
  /-- reading a property or an element of a value that is not nullish; `none`: an exception -/
  get : Nat → Value → Option Value
  /-- calling a value that is not nullish -/
  call : Nat → Value → Option Value

/-- ECMAScript: a link of a chain.  After a nullish value `?.` stops the chain; `.`, `[` or `(` fail. -/
def link (optional : Bool) (f : Value → Option Value) : Outcome → Outcome
  | .value v =>
    if v.isNullish then (if optional then .short else .fails)
    else match f v with
      | some w => .value w
      | none => .fails
  | o => o

/-- Parentheses end a chain: it gives `undefined` if it was stopped -/
def endChain : Outcome → Outcome
  | .short => .value .undefined
  | o => o

/-- ECMAScript's evaluation of chains -/
def Run.eval (R : Run) : Node → Outcome
  | .root n => R.root n
  | .paren e => endChain (R.eval e)
  | .property s e _ o => link o (R.get s) (R.eval e)
  | .element s e _ o => link o (R.get s) (R.eval e)
  | .call s e o => link o (R.call s) (R.eval e)

/-- The same with `.` in place of the last `?.` -/
def Node.withoutOptional : Node → Node
  | .property s e name _ => .property s e name false
  | .element s e key _ => .element s e key false
  | .call s e _ => .call s e false
  | e => e

/-- What is before the last `.`, `[` or `(` -/
def Node.operand : Node → Option Node
  | .property _ e _ _ | .element _ e _ _ | .call _ e _ => some e
  | _ => none

/-- The checker's types are right about an execution of a program without type errors -/
structure Agrees (T : Types) (M : Meaning) (R : Run) : Prop where
  /-- values are of the types of the expressions that give them -/
  value : ∀ e v t, R.eval e = .value v → T.at e = some t → Has M t v
  /-- those of `T` are of its constraint -/
  constraint : ∀ n t v, T.checker.constraint n = some t → M.typeParameter n v → Has M t v
  /-- those of `T[K]` are of what it is resolved to -/
  access : ∀ n v, M.indexedAccess n v → Has M (T.checker.resolve (.indexedAccess n)) v
  /-- keys are of their types -/
  key : ∀ n t, T.keyType n = some t → Has M t (R.key n)
  /-- types without type variables, `any` and `unknown` have no unresolved conditional types either -/
  settled : ∀ e t, T.resolved e = some t → alwaysNecessary t = false → Settled t
  /-- unions are flat -/
  flat : ∀ e ts, T.resolved e = some (.union ts) → ∀ t ∈ ts, nullish t = t.nullishLeaf
  /-- `e.name`: every part of the type of `e` that `e` may be of has the property, or a string index; a value that is read there is of its type, which is settled unless the access has an open type -/
  property : ∀ s e name o nt ts t v w, T.resolved (.property s e name o) = some nt → alwaysNecessary nt = false →
    T.resolved e = some (.union ts) → t ∈ ts → R.eval e = .value v → v.isNullish = false → Has M t v → R.get s v = some w →
    name ≠ "" ∧ ((∃ p, T.property t name = some p ∧ Settled p ∧ Has M p w) ∨
      (T.property t name = none ∧ ∃ i ∈ T.indexInfos t, i.1 = "string" ∧ (T.noUnchecked = true ∨ (Settled i.2 ∧ Has M i.2 w))))
  /-- `e[k]` where `k` is a string: the same; an index is one for strings -/
  element : ∀ s e k o nt ts t v w key, T.resolved (.element s e (some k) o) = some nt → alwaysNecessary nt = false →
    T.resolved e = some (.union ts) → t ∈ ts → R.eval e = .value v → v.isNullish = false → Has M t v → R.get s v = some w →
    R.key k.id = .string key →
    (∃ p, T.property t key = some p ∧ Settled p ∧ Has M p w) ∨
      (T.property t key = none ∧ ∃ i ∈ T.indexInfos t, i.1 = T.typeName (.stringLit key))
  /-- `e()`: what is returned is of the return type of one of the signatures -/
  call : ∀ s e o nt ts t v w, T.resolved (.call s e o) = some nt → alwaysNecessary nt = false →
    T.resolved e = some (.union ts) → t ∈ ts → R.eval e = .value v → v.isNullish = false → Has M t v → R.call s v = some w →
    ∃ r ∈ T.signatures t, Settled r ∧ Has M r w
  /-- the type of `e[k]`, where `e` may be nullish, is not just `T[K]`: it has a part `undefined` -/
  element_type : ∀ s e k o ts n, T.resolved e = some (.union ts) → anyNullish ts = true → T.at (.element s e k o) ≠ some (.indexedAccess n)

/-- No part is `any`, `unknown`, a type parameter or `keyof T` -/
def Clear (t : Ty) : Prop := ∀ p ∈ parts t, ¬ (p = .any ∨ p = .unknown ∨ (∃ n, p = .typeParameter n) ∨ ∃ n, p = .index n)

/-- No part is `null`, `undefined` or `void` -/
def NoNullish (t : Ty) : Prop := ∀ p ∈ parts t, p ≠ .null ∧ p ≠ .undefined ∧ p ≠ .void

/-- No part is `any`, `unknown` or a type variable -/
def NoOpen (t : Ty) : Prop := ∀ p ∈ parts t, p ≠ .any ∧ p ≠ .unknown ∧ (∀ n, p ≠ .typeParameter n) ∧ ∀ n, p ≠ .indexedAccess n

/-- Operands that are judged by their own types: anything in parentheses, anything that is not a link of a chain, and `e.name`, `e[k]` where `e` is not a call -/
inductive Direct : Node → Prop
  | root (n : Nat) : Direct (.root n)
  | paren (e : Node) : Direct (.paren e)
  | property (s : Nat) (e : Node) (name : String) : (∀ s' e' o, e ≠ .call s' e' o) → Direct (.property s e name false)
  | element (s : Nat) (e : Node) (key : Option Key) : (∀ s' e' o, e ≠ .call s' e' o) → Direct (.element s e key false)

/-- `x` is `e`, or what `e` is a property, an element or a call of, and so on; parentheses do not count -/
inductive Spine : Node → Node → Prop
  | here (e : Node) : Spine e e
  | paren {x e : Node} : Spine x e → Spine x (.paren e)
  | property {x e : Node} (s : Nat) (name : String) (o : Bool) : Spine x e → Spine x (.property s e name o)
  | element {x e : Node} (s : Nat) (key : Option Key) (o : Bool) : Spine x e → Spine x (.element s e key o)
  | call {x e : Node} (s : Nat) (o : Bool) : Spine x e → Spine x (.call s e o)

/-- `b[k]`, without `?.`; not a numeric literal in a tuple -/
def Unguarded (T : Types) (x : Node) : Prop :=
  ∃ s b key, x = .element s b key false ∧ ¬ ∃ k t, key = some k ∧ k.numeric = true ∧ T.resolved b = some t ∧ T.tuple t = true

/-- The last link of `e`, in parentheses or not, is `?.` -/
inductive EndsOptional : Node → Prop
  | property (s : Nat) (e : Node) (name : String) : EndsOptional (.property s e name true)
  | element (s : Nat) (e : Node) (key : Option Key) : EndsOptional (.element s e key true)
  | call (s : Nat) (e : Node) : EndsOptional (.call s e true)
  | paren {e : Node} : EndsOptional e → EndsOptional (.paren e)

/-- What may be out of bounds is not judged: `b[k]?.…`, and `…b[k]…?.…?.…` -/
def Skipped (T : Types) (e : Node) : Prop :=
  T.noUnchecked = false ∧ (Unguarded T e.skip ∨ (EndsOptional e ∧ ∃ x, Spine x e ∧ Unguarded T x))

/-- No union in a union -/
def Flat (t : Ty) : Prop := ∀ ts, t = .union ts → ∀ p ∈ ts, ∀ us, p ≠ .union us

end Tsgolint.Condition
