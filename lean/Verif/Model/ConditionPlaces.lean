/-!
# Model of where no-unnecessary-condition looks (/repo/internal/rules/no_unnecessary_condition/no_unnecessary_condition.go)

The listeners (lines 1797-1843) and the way from a condition down to what is judged (`checkNode`, lines 1441-1471).  How a single expression is judged
is in `Verif.Model.Condition`.  Nodes are a kind and their children, in source order; every node is visited once, from the top (`Verif.Model.Engine`).
Not here: comparisons, optional chains, array predicates.
-/
namespace Tsgolint.ConditionPlaces

/-- Kinds of nodes; the children are: of `&&` and so on the operands; of `?:` and `if` the condition and the branches; of `while` the condition and the body;
of `do` the body and the condition. -/
inductive Kind
  | parens
  | not
  | and | or | coalesce
  | andAssign | orAssign | coalesceAssign
  | ternary
  | ifStatement
  | whileLoop
  | doLoop
  /-- the place of the condition among the children, if there is one -/
  | forLoop (condition : Option Nat)
  /-- a call; `asserted`: the place of the argument that the function asserts to be truthy, if there is one (and the option to look at such functions) -/
  | call (asserted : Option Nat)
  | other
deriving DecidableEq, Repr

inductive Node
  | mk (kind : Kind) (children : List Node)

def Node.kind : Node → Kind
  | .mk k _ => k

def Node.children : Node → List Node
  | .mk _ cs => cs

/-- A place: the indices of the children on the way down. -/
abbrev Path := List Nat

/-- Something judged: where it is, where it is reported, and whether the verdict is turned round. -/
structure Judged where
  place : Path
  report : Path
  negated : Bool
deriving DecidableEq, Repr

/-- `checkNode` up to the judgement, lines 1441-1471 (`ast.SkipParentheses`, `!`, and the right side of `&&` and `||`); the order of the tests is kept. -/
def descend : Node → Path → Path → Bool → Option Judged
  | .mk .parens (c :: _), here, report, negated => descend c (here ++ [0]) report negated
  | .mk .not (c :: _), here, report, negated => descend c (here ++ [0]) report (!negated)
  | .mk .and (_ :: r :: _), here, _, _ => descend r (here ++ [1]) (here ++ [1]) false
  | .mk .or (_ :: r :: _), here, _, _ => descend r (here ++ [1]) (here ++ [1]) false
  | .mk .parens [], _, _, _ => none
  | .mk .not [], _, _, _ => none
  | .mk .and _, _, _, _ => none
  | .mk .or _, _, _, _ => none
  | .mk _ _, here, report, negated => some ⟨here, report, negated⟩

/-- The listeners of lines 1798-1833 and `checkLogicalExpressionForUnnecessaryConditionals`, `checkIfLoopIsNecessaryConditional`,
`checkAssignmentExpression` (lines 1676-1717), line 1757: the child that `checkNode` is called with, and whether it is the test of a loop. -/
def condition : Kind → Option (Nat × Bool)
  | .ifStatement => some (0, false)
  | .ternary => some (0, false)
  | .and => some (0, false)
  | .or => some (0, false)
  | .andAssign => some (0, false)
  | .orAssign => some (0, false)
  | .whileLoop => some (0, true)
  | .doLoop => some (1, true)
  | .forLoop i => i.map (·, true)
  | .call i => i.map (·, false)
  | .parens | .not | .coalesce | .coalesceAssign | .other => none

/-- What `checkNode` judges when the listeners are called with this node; `exempt`: the tests of loops that the option allows (lines 1690-1702). -/
def judgeNode (exempt : Path → Bool) (here : Path) (n : Node) : List Judged :=
  match condition n.kind with
  | none => []
  | some (i, loop) => match n.children[i]? with
    | none => []
    | some c => if loop && exempt (here ++ [i]) then [] else (descend c (here ++ [i]) (here ++ [i]) false).toList

/-- What `checkNodeForNullish` judges, lines 1677-1680 and 1714-1716. -/
def nullishNode (here : Path) (n : Node) : List Path :=
  if n.kind = .coalesce || n.kind = .coalesceAssign then (match n.children[0]? with
    | none => []
    | some _ => [here ++ [0]])
  else []

mutual
/-- The nodes in the order of the visit, with their places below this one. -/
def visits : Node → List (Path × Node)
  | .mk k cs => ([], .mk k cs) :: visitsFrom 0 cs
def visitsFrom : Nat → List Node → List (Path × Node)
  | _, [] => []
  | i, c :: cs => (visits c).map (fun x => (i :: x.1, x.2)) ++ visitsFrom (i + 1) cs
end

/-- Everything judged as a condition in a file. -/
def judged (exempt : Path → Bool) (file : Node) : List Judged := (visits file).flatMap fun x => judgeNode exempt x.1 x.2

/-- Everything judged as the left side of `??` in a file. -/
def judgedNullish (file : Node) : List Path := (visits file).flatMap fun x => nullishNode x.1 x.2

end Tsgolint.ConditionPlaces
