import Verif.Model.TypeGraph
import Verif.Model.Fixer
/-!
# Model of no-array-delete
(/repo/internal/rules/no_array_delete/no_array_delete.go)
-/
namespace Tsgolint.ArrayDelete
open Tsgolint.TypeGraph Tsgolint.Fixer
variable {T : Type}

/-- `isUnderlyingTypeArray`, lines 27-47; `isArray`: `Checker_isArrayOrTupleType`. -/
def isUnderlyingTypeArray (shape : T → Shape T) (isArray : T → Bool) (t : T) : Bool :=
  match shape t with
  | .union ps => ps.all isArray
  | .intersection ps => ps.any isArray
  | _ => isArray t

/-- The operand of `delete`, as far as the rule looks at it: parentheses, an element access (the constrained type of its object), or something else. -/
inductive Operand (T : Type)
  | paren (x : Operand T)
  | element (objectType : T)
  | other

/-- Lines 51-63 (`ast.SkipParentheses`): whether the expression is reported. -/
def reported (shape : T → Shape T) (isArray : T → Bool) : Operand T → Bool
  | .paren x => reported shape isArray x
  | .element t => isUnderlyingTypeArray shape isArray t
  | .other => false

/-- Lines 75-88; the ranges: the `delete` token, the token that follows the object, the token that follows the index. -/
def fixes (deleteToken left right : Nat × Nat) : List Fix :=
  [⟨[], deleteToken.1, deleteToken.2⟩, ⟨ascii ".splice(", left.1, left.2⟩, ⟨ascii ", 1)", right.1, right.2⟩]

end Tsgolint.ArrayDelete
