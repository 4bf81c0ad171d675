import Verif.Model.TypeGraph
/-!
# Model of no-unsafe-type-assertion (/repo/internal/rules/no_unsafe_type_assertion/no_unsafe_type_assertion.go)

Types (`T`) are the compiler's; `IsUnsafeAssignment` is modelled in `TypeGraph`.
-/
namespace Tsgolint.TypeAssertion
open Tsgolint.TypeGraph (Shape)
variable {T : Type} [DecidableEq T]

/-- What the rule asks about types. -/
structure Env (T : Type) where
  shape : T → Shape T
  isError : T → Bool
  /-- `isObjectLiteralType` (lines 54-56) -/
  objectLiteral : T → Bool
  widened : T → T
  assignable : T → T → Bool
  /-- `IsUnsafeAssignment` to the asserted type with the expression as its node -/
  flowsIn : T → T → Option (T × T)
  /-- `IsUnsafeAssignment` back with the type node as its node -/
  flowsBack : T → T → Option (T × T)

inductive Msg (T : Type)
  | ofAny (error : Bool)
  | toAny (error : Bool)
  | toUnconstrained (asserted : T)
  | toConstrained (asserted : T)
  | narrower (asserted : T)
deriving DecidableEq, Repr

/-- `IsTypeAnyType` and `IsTypeUnknownType` -/
def isAny (E : Env T) (t : T) : Bool := match E.shape t with
  | .any => true
  | _ => false

def isUnknown (E : Env T) (t : T) : Bool := match E.shape t with
  | .unknown => true
  | _ => false

/-- Lines 144-149 -/
def source (E : Env T) (expr : T) : T := if E.objectLiteral expr then E.widened expr else expr

/-- Lines 155-172: the messages for a type that the expression's is not assignable to. -/
def narrow (E : Env T) (expr asserted : T) : Msg T := match E.shape asserted with
  | .param none => .toUnconstrained asserted
  | .param (some c) => if E.assignable (source E expr) c then .toConstrained asserted else .narrower asserted
  | _ => .narrower asserted

/-- Lines 106-173 `checkExpression` -/
def check (E : Env T) (expr asserted : T) : Option (Msg T) :=
  if expr = asserted then none
  else if isAny E asserted && isUnknown E expr then some (.toAny false)
  else match E.flowsIn expr asserted with
    | some (_, sender) => some (.ofAny (E.isError sender))
    | none => match E.flowsBack asserted expr with
      | some (_, sender) => some (.toAny (E.isError sender))
      | none =>
        if E.assignable (source E expr) asserted then none
        else some (narrow E expr asserted)

end Tsgolint.TypeAssertion
