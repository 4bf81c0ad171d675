import Verif.Model.Visit
/-!
# Model of the listeners of promise-function-async (/repo/internal/rules/promise_function_async/promise_function_async.go:80, 169-192)

Which functions are checked, by the options.  What is decided about a function is in `Verif.Model.PromiseAsync`.
-/
namespace Tsgolint.AsyncPlaces
open Tsgolint.Visit (Node Kinds Ev visitFile)

/-- `CheckArrowFunctions`, `CheckFunctionDeclarations`, `CheckFunctionExpressions`, `CheckMethodDeclarations` -/
structure Options where
  arrowFunctions : Bool
  functionDeclarations : Bool
  functionExpressions : Bool
  methodDeclarations : Bool

/-- The numbers of `KindArrowFunction`, `KindFunctionDeclaration`, `KindFunctionExpression`, `KindMethodDeclaration` -/
structure Codes where
  arrowFunction : Nat
  functionDeclaration : Nat
  functionExpression : Nat
  method : Nat

/-- What a listener does: line 171 or lines 183-189 -/
inductive Action
  | validate | unlessAbstract
deriving DecidableEq

/-- Lines 80, 170-190: the listeners, in the order in which they are set; a later one would replace an earlier one of the same kind. -/
def listeners (o : Options) (C : Codes) : List (Nat × Action) :=
  (if o.arrowFunctions then [(C.arrowFunction, .validate)] else []) ++
  (if o.functionDeclarations then [(C.functionDeclaration, .validate)] else []) ++
  (if o.functionExpressions then [(C.functionExpression, .validate)] else []) ++
  (if o.methodDeclarations then [(C.method, .unlessAbstract)] else [])

/-- The nodes `validateNode` is called for at an event. -/
def listener (o : Options) (C : Codes) (abstract : Nat → Bool) (e : Ev) : List Nat :=
  match (listeners o C).reverse.find? fun l => l.1 == e.1 with
  | none => []
  | some (_, .validate) => [e.2]
  | some (_, .unlessAbstract) => if abstract e.2 then [] else [e.2]

/-- The functions validated in a file. -/
def checks (o : Options) (C : Codes) (abstract : Nat → Bool) (K : Kinds) (topLevel : List Node) : List Nat := (visitFile K topLevel).flatMap (listener o C abstract)

end Tsgolint.AsyncPlaces
