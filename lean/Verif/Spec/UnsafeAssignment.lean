import Verif.Model.UnsafeAssignment
import Verif.Spec.TypeGraph
/-! # What no-unsafe-assignment promises -/
namespace Tsgolint.UnsafeAssignment
open Tsgolint.TypeGraph (Shape Outcome isUnsafeAssignment)
variable {T : Type} [DecidableEq T]

/-- The type of the property `key`: the last one listed. -/
def PropertyType (E : Env T) (t : T) (key : String) (t' : T) : Prop := ∃ pre post, E.props t = some (pre ++ (key, t') :: post) ∧ ∀ q ∈ post, q.1 ≠ key

mutual
/-- Destructuring a value of type `t` by a pattern makes this report. -/
inductive Reports (E : Env T) : T → Pat → Report T → Prop
  | array {t id es} : E.isAnyArray t = true → Reports E t (.array id es) ⟨id, t, .array⟩
  | element {t t' ts id es p r} {i : Nat} : E.isAnyArray t = false → E.tuple t = some ts → es[i]? = some (Elem.elem p) → ts[i]? = some t' → Receives E t' p r →
      Reports E t (.array id es) r
  | member {t t' id ms key p r} : Member.member (some key) p ∈ ms → PropertyType E t key t' → Receives E t' p r → Reports E t (.object id ms) r
/-- A target that receives a value of type `t` is reported, or its parts are. -/
inductive Receives (E : Env T) : T → Pat → Report T → Prop
  | any {t p} : E.isAny t = true → Receives E t p ⟨p.id, t, .element⟩
  | parts {t p r} : E.isAny t = false → Reports E t p r → Receives E t p r
end

/- The targets inside a pattern, in source order, the pattern itself first. -/
mutual
def Pat.ids : Pat → List Nat
  | .leaf id => [id]
  | .array id es => id :: idsOfElems es
  | .object id ms => id :: idsOfMembers ms
def idsOfElems : List Elem → List Nat
  | [] => []
  | .hole :: es => idsOfElems es
  | .rest :: es => idsOfElems es
  | .elem p :: es => p.ids ++ idsOfElems es
def idsOfMembers : List Member → List Nat
  | [] => []
  | .rest :: ms => idsOfMembers ms
  | .member _ p :: ms => p.ids ++ idsOfMembers ms
end

/-- What the fast path relies on: literals, functions, classes and object literals without spread are never `any` or type references; array literals without spread are not `any`. -/
structure Honest (E : Env T) (v : Value T) : Prop where
  plain : (∃ n, v.syntax_.skipParens = .literal n) ∨ (∃ o, v.syntax_.skipParens = .unary true o ∧ o.skipParens = .literal true) ∨ v.syntax_.skipParens = .function ∨
    (∃ ms, v.syntax_.skipParens = .object ms ∧ true ∉ ms) → E.isAny v.type = false ∧ E.isRef v.type = false
  array : (∃ es, v.syntax_.skipParens = .array es ∧ true ∉ es) → E.isAny v.type = false

/-- `IsUnsafeAssignment` answers what `TypeGraph.isUnsafeAssignment` computes (`newMap`: the sender is `new Map()`), and no pair of references it compares has different numbers of
arguments. -/
structure Judges (E : Env T) (newMap : Bool) : Prop where
  computes : ∀ t r, ∃ n o, isUnsafeAssignment E.shape newMap n t r = some o ∧ ∀ p, E.unsafe_ t r = some p ↔ o = .bad p.1 p.2
  arity : ∀ t r a b, TypeGraph.Compared E.shape newMap t r a b → ¬ TypeGraph.Mismatch E.shape a b

/-- The type the value is compared with: in object literals and JSX the contextual type of the value, else of the receiver, else the type of the receiver. -/
inductive Target (v : Value T) (r : Receiver T) : Comparison → T → Prop
  | none : Target v r .none r.type
  | basic : Target v r .basic r.type
  | value {t} : v.contextual = some t → Target v r .contextual t
  | receiver {t} : v.contextual = Option.none → r.contextual = some t → Target v r .contextual t
  | own : v.contextual = Option.none → r.contextual = Option.none → Target v r .contextual r.type

/-- `this` is `any` because `noImplicitThis` is off. -/
def ThisToBlame (E : Env T) (noImplicitThis : Bool) (v : Value T) (t : T) : Prop := noImplicitThis = false ∧ v.this = some t ∧ E.isAny t = true

/-- An assignment is unsafe: `any` flows into something other than `unknown`, or, if there is something to compare with, into a type argument other than `any` or `unknown`. -/
inductive Unsafe (E : Env T) (newMap noImplicitThis : Bool) (v : Value T) (r : Receiver T) (c : Comparison) : Diag T → Prop
  | this {target t} : E.isAny v.type = true → Target v r c target → E.isUnknown target = false → ThisToBlame E noImplicitThis v t →
      Unsafe E newMap noImplicitThis v r c ⟨.anyAssignmentThis, t, target, decide (c = .none)⟩
  | any {target} : E.isAny v.type = true → Target v r c target → E.isUnknown target = false → (∀ t, ¬ ThisToBlame E noImplicitThis v t) →
      Unsafe E newMap noImplicitThis v r c ⟨.anyAssignment, v.type, target, decide (c = .none)⟩
  | argument {target a b} : E.isAny v.type = false → c ≠ .none → Target v r c target → TypeGraph.Compared E.shape newMap v.type target a b → TypeGraph.UnsafeAt E.shape a b →
      Unsafe E newMap noImplicitThis v r c ⟨.unsafeAssignment, v.type, target, false⟩

end Tsgolint.UnsafeAssignment
