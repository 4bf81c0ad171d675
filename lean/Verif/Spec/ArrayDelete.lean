import Verif.Model.ArrayDelete
/-! # What no-array-delete promises -/
namespace Tsgolint.ArrayDelete
open Tsgolint.TypeGraph
variable {T : Type}

/-- The operand, parentheses apart, is an element of a value of type `t`. -/
inductive ElementOf : Operand T → T → Prop
  | here (t) : ElementOf (.element t) t
  | paren {x t} : ElementOf x t → ElementOf (.paren x) t

/-- Every value of the type is an array: a union of arrays and tuples, an intersection with one, or one itself. -/
def AllArrays (shape : T → Shape T) (isArray : T → Bool) (t : T) : Prop :=
  (∃ ps, shape t = .union ps ∧ ∀ p ∈ ps, isArray p = true) ∨ (∃ ps, shape t = .intersection ps ∧ ∃ p ∈ ps, isArray p = true) ∨
  ((∀ ps, shape t ≠ .union ps) ∧ (∀ ps, shape t ≠ .intersection ps) ∧ isArray t = true)

end Tsgolint.ArrayDelete
