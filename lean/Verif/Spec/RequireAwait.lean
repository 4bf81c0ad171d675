import Verif.Model.RequireAwait
import Verif.Spec.RuleTree
import Verif.Spec.Fixer
/-! # What require-await is to report -/
namespace Tsgolint.RequireAwait
open Tsgolint.RuleTree

/-- Functions are the scopes. -/
def Label.isFunc : Label → Bool
  | .func _ => true
  | _ => false

/-- A node that waits, or hands on a promise. -/
def Awaits : Label → Prop
  | .await => True
  | .forOf aw => aw = true
  | .varList aw => aw = true
  | .ret hasExpression isThenable => hasExpression = true ∧ isThenable = true
  | _ => False

/-- A `yield` of a promise, or of the values of an async iterable; literals do not count. -/
def YieldsAsync : Label → Prop
  | .yield y => y.hasArgument = true ∧ y.argumentIsLiteral = false ∧
      (if y.delegates then y.argumentIsAsyncIterable = true else y.argumentIsThenable = true)
  | _ => False

/-- An arrow function whose body is an expression that is a promise. -/
def ReturnsPromise (f : Func) : Prop :=
  ∃ a, f.arrow = some a ∧ a.bodyIsBlock = false ∧ a.bodyIsAwait = false ∧ a.bodyIsThenable = true

/-- The function `f` with the nodes `ns` of its own has no reason to be async. -/
def NeedlesslyAsync (f : Func) (ns : List Label) : Prop :=
  f.isAsync = true ∧ f.hasStatements = true ∧ (∀ n ∈ ns, ¬ Awaits n) ∧ ¬ ReturnsPromise f ∧
    (f.isGenerator = true → ∀ n ∈ ns, ¬ YieldsAsync n)

end Tsgolint.RequireAwait
