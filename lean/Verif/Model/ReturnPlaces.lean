import Verif.Model.Visit
/-!
# Model of the listeners of no-unsafe-return (/repo/internal/rules/no_unsafe_return/no_unsafe_return.go:232-248)

Which expressions are checked as returned values, and which token is highlighted.  What is decided about them is in `Verif.Model.UnsafeReturn`.
-/
namespace Tsgolint.ReturnPlaces
open Tsgolint.Visit (Node Kinds Ev visitFile)

/-- What is asked about a node: of an arrow function its body and whether that is a block (`ast.IsBlock`); of a return statement its expression, if it has one.
Nodes are given by their ids. -/
structure Info where
  body : Nat
  bodyIsBlock : Bool
  expression : Option Nat

/-- The token highlighted: the `=>` (line 236), or the first token of the node (line 245). -/
inductive Token
  | arrow | first
deriving DecidableEq, Repr

/-- A call of `checkReturn`, and the node that made it -/
structure Check where
  node : Nat
  value : Nat
  token : Token
deriving DecidableEq, Repr

/-- Lines 233-246; `arrow`, `ret` are the numbers of `KindArrowFunction` and `KindReturnStatement`. -/
def listener (arrow ret : Nat) (info : Nat → Info) (e : Ev) : List Check :=
  if e.1 = arrow then
    if !(info e.2).bodyIsBlock then [⟨e.2, (info e.2).body, .arrow⟩] else []
  else if e.1 = ret then
    match (info e.2).expression with
    | none => []
    | some x => [⟨e.2, x, .first⟩]
  else []

/-- The checks made for a file. -/
def checks (K : Kinds) (arrow ret : Nat) (info : Nat → Info) (topLevel : List Node) : List Check := (visitFile K topLevel).flatMap (listener arrow ret info)

end Tsgolint.ReturnPlaces
