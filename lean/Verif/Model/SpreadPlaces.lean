import Verif.Model.Visit
/-!
# Model of the places no-misused-spread looks at (/repo/internal/rules/no_misused_spread/no_misused_spread.go:263-290)

The listeners and the loops over elements, arguments and properties.  What is decided about the type of a spread is in `Verif.Model.MisusedSpread`.
-/
namespace Tsgolint.SpreadPlaces
open Tsgolint.Visit (Node Kinds Ev onNotAllowPattern visitFile)

/-- The values of the kinds the rule tests for: `KindCallExpression`, `KindJsxSpreadAttribute`, `KindSpreadElement`, `KindSpreadAssignment`. -/
structure SpreadKinds where
  call : Nat
  jsx : Nat
  element : Nat
  assignment : Nat

/-- `checkArrayOrCallSpread` (lines 153-158) or `checkObjectSpread` (lines 208-262) -/
inductive Mode
  | arrayOrCall | object
deriving DecidableEq, Repr

/-- One call of a check: for the child of that index (in a JSX spread attribute: for the expression, the only child) of a node. -/
structure Check where
  parent : Nat
  index : Nat
  mode : Mode
deriving DecidableEq, Repr

/-- The children of a node in `ForEachChild` order.  Of a call: the callee, type arguments and arguments; only an argument can be a spread element. -/
def childNodes : Node → List Node
  | .other _ _ cs => cs
  | .arr _ cs => cs
  | .obj _ cs => cs
  | .spread _ _ e => [e]
  | .prop _ ps e => ps ++ [e]
  | .assign _ ms l ty o r => ms ++ [l] ++ ty ++ [o, r]

/-- `ast.IsSpreadElement`, `ast.IsSpreadAssignment` -/
def isSpread (kind : Nat) : Node → Bool
  | .spread k _ _ => k == kind
  | _ => false

/-- The loops of lines 266-270, 273-277 and 283-287: the indices of the spreads, in order. -/
def spreads (kind : Nat) (cs : List Node) : List Nat := (List.range cs.length).filter fun j => (cs[j]?).any (isSpread kind)

/-- The listeners, lines 264-289, called for a kind and a node. -/
def listener (K : Kinds) (S : SpreadKinds) (kind : Nat) (n : Node) : List Check :=
  if kind = onNotAllowPattern K.arr then (spreads S.element (childNodes n)).map (⟨n.id, ·, .arrayOrCall⟩)
  else if kind = S.call then (spreads S.element (childNodes n)).map (⟨n.id, ·, .arrayOrCall⟩)
  else if kind = S.jsx then [⟨n.id, 0, .object⟩]
  else if kind = onNotAllowPattern K.obj then (spreads S.assignment (childNodes n)).map (⟨n.id, ·, .object⟩)
  else []

/-- The checks made for a file: `nodeOf` gives the node for its pointer. -/
def checks (K : Kinds) (S : SpreadKinds) (nodeOf : Nat → Node) (topLevel : List Node) : List Check :=
  (visitFile K topLevel).flatMap fun e => listener K S e.1 (nodeOf e.2)

end Tsgolint.SpreadPlaces
