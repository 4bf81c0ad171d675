import Verif.Model.TypeAssertion
import Verif.Spec.TypeGraph
/-! # What no-unsafe-type-assertion promises -/
namespace Tsgolint.TypeAssertion
open Tsgolint.TypeGraph (Shape Outcome isUnsafeAssignment Compared UnsafeAt)
variable {T : Type} [DecidableEq T]

/-- A flow of `any`: somewhere `any` meets a type argument (or the whole type) that is neither `any` nor `unknown`. -/
def Leaks (E : Env T) (newMap : Bool) (t r : T) : Prop := ∃ a b, Compared E.shape newMap t r a b ∧ UnsafeAt E.shape a b

/-- `IsUnsafeAssignment` answers what `TypeGraph.isUnsafeAssignment` computes (`newMap`: the expression is `new Map()`), and references to the same type have equally many arguments. -/
structure Judges (E : Env T) (newMap : Bool) : Prop where
  inwards : ∀ t r, ∃ n o, isUnsafeAssignment E.shape newMap n t r = some o ∧ ∀ p, E.flowsIn t r = some p ↔ o = .bad p.1 p.2
  back : ∀ t r, ∃ n o, isUnsafeAssignment E.shape false n t r = some o ∧ ∀ p, E.flowsBack t r = some p ↔ o = .bad p.1 p.2
  arity : ∀ a b, ¬ TypeGraph.Mismatch E.shape a b

/-- The expression's type, without the freshness of an object literal. -/
inductive Source (E : Env T) (expr : T) : T → Prop
  | plain : E.objectLiteral expr = false → Source E expr expr
  | widened : E.objectLiteral expr = true → Source E expr (E.widened expr)

/-- The expression's type can be assigned. -/
def Fits (E : Env T) (expr target : T) : Prop := ∃ s, Source E expr s ∧ E.assignable s target = true

/-- The asserted type is another one, no `any` is involved on either side, and the expression does not fit. -/
structure Unfit (E : Env T) (newMap : Bool) (expr asserted : T) : Prop where
  other : expr ≠ asserted
  known : ¬(E.shape asserted = .any ∧ E.shape expr = .unknown)
  clean : ¬ Leaks E newMap expr asserted
  cleanBack : ¬ Leaks E false asserted expr
  unfit : ¬ Fits E expr asserted

/-- The assertion is reported with this message. -/
inductive Reported (E : Env T) (newMap : Bool) (expr asserted : T) : Msg T → Prop
  | unknownToAny : E.shape asserted = .any → E.shape expr = .unknown → Reported E newMap expr asserted (.toAny false)
  | ofAny : expr ≠ asserted → Leaks E newMap expr asserted → Reported E newMap expr asserted (.ofAny (E.isError expr))
  | toAny : expr ≠ asserted → ¬ Leaks E newMap expr asserted → Leaks E false asserted expr → Reported E newMap expr asserted (.toAny (E.isError asserted))
  | unconstrained : Unfit E newMap expr asserted → E.shape asserted = .param none → Reported E newMap expr asserted (.toUnconstrained asserted)
  | constrained {c} : Unfit E newMap expr asserted → E.shape asserted = .param (some c) → Fits E expr c → Reported E newMap expr asserted (.toConstrained asserted)
  | narrower : Unfit E newMap expr asserted → E.shape asserted ≠ .param none → (∀ c, E.shape asserted = .param (some c) → ¬ Fits E expr c) → Reported E newMap expr asserted (.narrower asserted)

end Tsgolint.TypeAssertion
