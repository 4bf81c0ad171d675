import Verif.Model.Condition

/-!
# no-unnecessary-condition: the type of `o[k]` when the index is a type parameter

Models `resolveIndexedAccessType` and `getResolvedType` (`internal/rules/no_unnecessary_condition/no_unnecessary_condition.go` lines 330-401) from the object type
and the index type; `Model/Condition.lean` has what follows (`Access.type`).

Simplification: object and index types are of a type `τ`; what the checker says of them is a parameter.
-/

namespace Tsgolint.AccessType

open Condition

/-- literal types of an index -/
inductive Key
  | string (s : String)
  /-- with what `LiteralType.String()` gives -/
  | number (text : String)

/-- the checker -/
structure Checker (τ : Type) where
  /-- `getBaseConstraintOfType` (nil: none) -/
  constraint : τ → Option τ
  /-- string and number literal types -/
  literal : τ → Option Key
  /-- `utils.UnionTypeParts` -/
  parts : τ → List τ
  /-- flags `StringLike`, `NumberLike` -/
  stringLike : τ → Bool
  numberLike : τ → Bool
  /-- `getTypeOfPropertyOfType`, `GetStringIndexType`, `GetNumberIndexType` -/
  property : τ → String → Option Ty
  stringIndex : τ → Option Ty
  numberIndex : τ → Option Ty

/-- the constraint, or the type itself (no_unnecessary_condition.go 342-347) -/
def Checker.constrained {τ : Type} (C : Checker τ) (t : τ) : τ := (C.constraint t).getD t

/-- the name of the property a literal stands for (no_unnecessary_condition.go 349-365) -/
def Key.name : Key → String
  | .string s => s
  | .number t => t

/-- what is known of `o[i]` (no_unnecessary_condition.go 335-385): `none` if one of the types is missing -/
def Checker.access {τ : Type} (C : Checker τ) (object index : Option τ) : Option Access :=
  match object, index with
  | some o, some i =>
    let o := C.constrained o
    let i := C.constrained i
    some {
      literal := (C.literal i).map Key.name
      property := C.property o
      stringLike := (C.parts i).any C.stringLike
      numberLike := (C.parts i).any C.numberLike
      stringIndex := C.stringIndex o
      numberIndex := C.numberIndex o }
  | _, _ => none

/-- the type taken for `o[i]`, `none`: it stays as it is (no_unnecessary_condition.go 330-385) -/
def Checker.resolve {τ : Type} (C : Checker τ) (object index : Option τ) : Option Ty := (C.access object index).bind Access.type

end Tsgolint.AccessType
