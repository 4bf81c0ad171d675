import Verif.Model.TypeGraph
import Verif.Model.Fixer
/-!
# Model of no-meaningless-void-operator, require-array-sort-compare, no-for-in-array, no-unsafe-unary-minus and prefer-reduce-type-parameter
(/repo/internal/rules/…/….go of these names)
-/
namespace Tsgolint.SmallRules
open Tsgolint.TypeGraph Tsgolint.Fixer
variable {T : Type} [DecidableEq T]

/-! ## no-meaningless-void-operator (no_meaningless_void_operator.go:26-61) -/

inductive VoidReport | fix | suggestion
deriving DecidableEq, Repr

/-- Lines 37-58; `voidLike`: the flags `TypeFlagsVoidLike`, `isNever`: `TypeFlagsNever`. -/
def reportVoid (shape : T → Shape T) (voidLike isNever : T → Bool) (checkNever : Bool) (t : T) : Option VoidReport :=
  let parts := unionParts shape t
  if parts.all voidLike then some .fix
  else if checkNever && parts.all (fun p => voidLike p || isNever p) then some .suggestion
  else none

/-- Lines 46-48: from the start of the expression to the operand with its leading trivia. -/
def voidFix (nodeStart argPos : Nat) : List Fix := [⟨[], nodeStart, argPos⟩]

/-! ## require-array-sort-compare (require_array_sort_compare.go:19-56) -/

/-- What the rule asks. -/
structure SortEnv (T : Type) where
  shape : T → Shape T
  /-- `Checker_isArrayOrTupleType` -/
  isArray : T → Bool
  /-- `Checker_getTypeArguments` -/
  typeArgs : T → List T
  /-- `TypeFlagsString`, or `GetTypeName(t) == "string"` (C52) -/
  isString : T → Bool

/-- Lines 25-54; `method`: the accessed name if the callee is an access with a known name. -/
def reportSort (E : SortEnv T) (ignoreStringArrays : Bool) (args : Nat) (method : Option String) (object : T) : Bool :=
  if args ≠ 0 then false
  else match method with
    | none => false
    | some m =>
      if m ≠ "sort" ∧ m ≠ "toSorted" then false
      else if ignoreStringArrays && E.isArray object && (E.typeArgs object).all E.isString then false
      else (unionParts E.shape object).all E.isArray

/-! ## no-for-in-array (no_for_in_array.go:18-48) -/

/-- Lines 21-34; `numberIndexed`: there is a number index type; `length`: there is a `length` that is number-like. -/
def arrayLike (numberIndexed length : T → Bool) (t : T) : Bool := numberIndexed t && length t

/-- Lines 30-34 and 38-45. -/
def reportForIn (shape : T → Shape T) (numberIndexed length : T → Bool) (fuel : Nat) (t : T) : Option Bool :=
  (typeRecurser shape (fun t (_ : Unit) => some (arrayLike numberIndexed length t, ())) fuel t ()).map (·.1)

/-! ## no-unsafe-unary-minus (no_unsafe_unary_minus.go:18-41) -/

/-- Lines 22-37: the part named in the report; `fine`: one of the flags any, never, bigint-like, number-like. -/
def reportMinus (shape : T → Shape T) (fine : T → Bool) (isMinus : Bool) (t : T) : Option T :=
  if !isMinus then none else (unionParts shape t).find? fun p => !fine p

/-! ## prefer-reduce-type-parameter (prefer_reduce_type_parameter.go:17-75) -/

/-- The second argument: an `as` or angle-bracket assertion (the types of its operand and of its type), or something else. -/
inductive Second (T : Type)
  | as_ (operand asserted : T)
  | angle (operand asserted : T)
  | other

/-- Lines 23-59; `args`: the arguments after the first. -/
def reportReduce (shape : T → Shape T) (isArray : T → Bool) (assignable : T → T → Bool) (fuel : Nat) (args : List (Second T)) (method : Option String)
    (object : T) : Option Bool :=
  match args with
  | [] => some false
  | .other :: _ => some false
  | .as_ i a :: _ => go i a
  | .angle i a :: _ => go i a
where
  /-- Lines 34-59. -/
  go (i a : T) : Option Bool :=
    if method ≠ some "reduce" then some false
    else if !assignable i a then some false
    else (typeRecurser shape (fun t (_ : Unit) => some (!isArray t, ())) fuel object ()).map fun r => !r.1

/-- Lines 61-70. -/
def reduceFix (isAs hasTypeArgs : Bool) (calleeEnd argPos operandPos operandEnd typeEnd : Nat) (typeText : Bytes) : List Fix :=
  (if isAs then [⟨[], operandEnd, typeEnd⟩] else [⟨[], argPos, operandPos⟩]) ++
  (if hasTypeArgs then [] else [⟨ascii "<" ++ typeText ++ ascii ">", calleeEnd, calleeEnd⟩])

end Tsgolint.SmallRules
