/-!
# prefer-optional-chain: which expressions are judged

Models `processChain` up to the operands (`internal/rules/prefer_optional_chain/prefer_optional_chain.go` lines 1714-1735), `isChainAlreadySeen` (843-846), `isInsideJSX`
(528-544) and the marks that `collectOperands` makes (1620-1642), during the traversal of a file. Places are counted in characters; simplified: a node with several
children is made of nodes with two, and text between tokens belongs to one of them.
-/

namespace Tsgolint.OptionalVisit

inductive Op
  | and
  | or
  | nullish
  deriving DecidableEq

/-- A syntax tree -/
inductive Tree
  /-- text of some width -/
  | token (width : Nat)
  /-- any other node; `jsx`: one of those of lines 531-538 -/
  | node (jsx : Bool) (a b : Tree)
  | paren (t : Tree)
  /-- the operator and the space around it, of `gap + 2` characters -/
  | logic (op : Op) (gap : Nat) (l r : Tree)
  deriving DecidableEq

def Tree.width : Tree → Nat
  | .token w => w
  | .node _ a b => a.width + b.width
  | .paren t => t.width + 2
  | .logic _ gap l r => l.width + (gap + 2) + r.width

abbrev Range := Nat × Nat

/-- `getNodeRange` -/
def Tree.range (t : Tree) (start : Nat) : Range := (start, start + t.width)

/-- The marks of `collect` (lines 1623-1639) -/
def Tree.marks (op : Op) (start : Nat) : Tree → List Range
  | .paren t => t.marks op (start + 1)
  | .logic op' gap l r =>
    if op' = op then l.marks op start ++ r.marks op (start + l.width + (gap + 2)) ++ [(Tree.logic op' gap l r).range start] else []
  | _ => []

/-- The state of the traversal: the ranges that are seen, the expressions whose operands were looked at -/
structure State where
  seen : List Range
  judged : List (Nat × Tree)

/-- Lines 1714-1735 `processChain`, of a node with the operator `op` -/
def process (s : State) (jsx : Bool) (op : Op) (start : Nat) (t : Tree) : State :=
  if op = .nullish then s
  else if jsx then s
  else if t.range start ∈ s.seen then s
  else { seen := s.seen ++ t.marks op start, judged := s.judged ++ [(start, t)] }

/-- The traversal of the linter: nodes before their children (lines 3728-3740) -/
def visit (s : State) (jsx : Bool) (start : Nat) : Tree → State
  | .token _ => s
  | .node j a b => visit (visit s (jsx || j) start a) (jsx || j) (start + a.width) b
  | .paren t => visit s jsx (start + 1) t
  | .logic op gap l r =>
    visit (visit (process s jsx op start (.logic op gap l r)) jsx start l) jsx (start + l.width + (gap + 2)) r

/-- What is judged of a file -/
def judged (t : Tree) : List (Nat × Tree) := (visit ⟨[], []⟩ false 0 t).judged

end Tsgolint.OptionalVisit
