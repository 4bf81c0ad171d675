import Verif.Model.AwaitThenable
import Verif.Spec.TypeGraph
/-! # What await-thenable promises -/
namespace Tsgolint.AwaitThenable
open Tsgolint.TypeGraph
variable {T : Type} [DecidableEq T]

/-- Values of the type are certainly no promises: the type — of a type parameter: its constraint — is neither `any` nor `unknown`, and not
thenable.  (An unconstrained type parameter may be anything.) -/
def NeverAwaitable (E : Env T) (t : T) : Prop :=
  ∃ c, (E.then_.shape t = .param (some c) ∨ ((∀ k, E.then_.shape t ≠ .param k) ∧ c = t)) ∧
    E.then_.shape c ≠ .any ∧ E.then_.shape c ≠ .unknown ∧ ¬ Thenable E.then_ c

/-- The types of the values the rule takes an iterable to give: the elements of a tuple, else the type at a number index, else the first type
argument. -/
def Gives (E : Env T) (t v : T) : Prop :=
  (E.isTuple t = true ∧ v ∈ E.typeArgs t) ∨
  (E.isTuple t = false ∧ E.numberIndex t = some v) ∨
  (E.isTuple t = false ∧ E.numberIndex t = none ∧ (E.typeArgs t).head? = some v)

/-- No part of the type has the symbol, and the type is not `any`. -/
def Lacks (E : Env T) (name : String) (t : T) : Prop :=
  E.then_.shape t ≠ .any ∧ ∀ p, UnionPart E.then_.shape t p → E.hasSymbol name p = false

/-- The call is `Promise.all`, `.allSettled`, `.any` or `.race`. -/
def Aggregates (c : Callee) : Prop :=
  c.onPromise = true ∧ (c.name = some "all" ∨ c.name = some "allSettled" ∨ c.name = some "any" ∨ c.name = some "race")

end Tsgolint.AwaitThenable
