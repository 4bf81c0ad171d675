import Verif.Model.TypeGraph
import Verif.Model.Fixer
/-!
# Model of non-nullable-type-assertion-style
(/repo/internal/rules/non_nullable_type_assertion_style/non_nullable_type_assertion_style.go)
-/
namespace Tsgolint.NonNullable
open Tsgolint.TypeGraph Tsgolint.Fixer
variable {T : Type} [DecidableEq T]

/-- What the rule asks: the shapes of types (with the base constraint of type parameters) and the flag `TypeFlagsNullable`. -/
structure Env (T : Type) where
  shape : T → Shape T
  nullable : T → Bool

/-- `getTypesIfNotLoose`, lines 21-27. -/
def typesIfNotLoose (E : Env T) (t : T) : Option (List T) :=
  match E.shape t with
  | .any => none
  | .unknown => none
  | _ => some (unionParts E.shape t)

/-- `couldBeNullable`, lines 29-42. -/
def couldBeNullable (E : Env T) (t : T) : Bool :=
  match E.shape t with
  | .param none => true
  | .param (some c) => (unionParts E.shape c).any E.nullable
  | _ => (unionParts E.shape t).any E.nullable

/-- `Set.Add` (/repo/internal/utils/set.go): a set is the list of its members. -/
def setAdd (s : List T) (t : T) : List T := if s.contains t then s else s ++ [t]

/-- Lines 61-66. -/
def nonNullableSet (E : Env T) (original : List T) : List T :=
  original.foldl (fun s t => if !E.nullable t then setAdd s t else s) []

/-- The loop of lines 72-77: `none` for the early return. -/
def assertedLoop (E : Env T) (nonNull : List T) : List T → List T → Option (List T)
  | [], s => some s
  | t :: ts, s => if couldBeNullable E t || !nonNull.contains t then none else assertedLoop E nonNull ts (setAdd s t)

/-- Lines 44-84: whether the assertion is reported. -/
def reported (E : Env T) (isConst : Bool) (original asserted : T) : Bool :=
  if isConst then false
  else match typesIfNotLoose E original with
    | none => false
    | some originals => match typesIfNotLoose E asserted with
      | none => false
      | some asserteds =>
        let nonNull := nonNullableSet E originals
        if nonNull.length = originals.length then false
        else match assertedLoop E nonNull asserteds [] with
          | none => false
          | some s => nonNull.all fun t => s.contains t

/-- The two kinds of assertions. -/
inductive Kind | as_ | angle
deriving DecidableEq, Repr

/-- `ast.IsAssertionExpression` of typescript-go (not part of /repo): true of both kinds. -/
def isAssertionExpression : Kind → Bool
  | .as_ => true
  | .angle => true

/-- Lines 86-99; `higher`: the operand binds more tightly than unary operators; `exprPos` with trivia, `exprStart` without. -/
def fixes (k : Kind) (higher : Bool) (nodePos nodeEnd exprPos exprStart exprEnd : Nat) : List Fix :=
  let removed : Fix := if isAssertionExpression k then ⟨[], exprEnd, nodeEnd⟩ else ⟨[], nodePos, exprPos⟩
  removed :: (if higher then [⟨ascii "!", exprEnd, exprEnd⟩] else [⟨ascii "(", exprStart, exprStart⟩, ⟨ascii ")!", exprEnd, exprEnd⟩])

end Tsgolint.NonNullable
