import Verif.Model.Fixer
/-!
# Model of the suggestion of prefer-nullish-coalescing for `||`
(/repo/internal/rules/prefer_nullish_coalescing/prefer_nullish_coalescing.go:520-577)
-/
namespace Tsgolint.NullishFix
open Fixer (Bytes Fix ascii)

/-- `||`, `&&`, `??` (`ast.IsLogicalOrCoalescingBinaryExpression`) -/
inductive LOp
  | or
  | and
  | coalesce
  deriving DecidableEq

def LOp.text : LOp → Bytes
  | .or => ascii "||"
  | .and => ascii "&&"
  | .coalesce => ascii "??"

/-- Logical expressions with their text; gaps are spaces and comments.  An atom is any other expression. -/
inductive Tree
  | atom (id : Nat) (text : Bytes)
  | not (gap : Bytes) (e : Tree)
  | paren (gap1 : Bytes) (e : Tree) (gap2 : Bytes)
  | bin (op : LOp) (left : Tree) (gap1 gap2 : Bytes) (right : Tree)

def Tree.print : Tree → Bytes
  | .atom _ t => t
  | .not g e => ascii "!" ++ g ++ e.print
  | .paren g1 e g2 => ascii "(" ++ g1 ++ e.print ++ g2 ++ ascii ")"
  | .bin op l g1 g2 r => l.print ++ g1 ++ op.text ++ g2 ++ r.print

/-- `ast.IsLogicalExpression`: of what is within parentheses and `!` -/
def Tree.logical : Tree → Bool
  | .atom _ _ => false
  | .not _ e => e.logical
  | .paren _ e _ => e.logical
  | .bin .. => true

/-- `ast.IsParenthesizedExpression` -/
def Tree.isParen : Tree → Bool
  | .paren .. => true
  | _ => false

/-- Lines 60-70 `isLogicalOrOperator` (an assignment `||=` is an atom, or in parentheses) -/
def Tree.isOr : Tree → Bool
  | .bin .or .. => true
  | _ => false

/-- A parent, without the child -/
inductive Frame
  | not (gap : Bytes)
  | paren (gap1 gap2 : Bytes)
  | left (op : LOp) (gap1 gap2 : Bytes) (right : Tree)
  | right (op : LOp) (left : Tree) (gap1 gap2 : Bytes)

def Frame.isParen : Frame → Bool
  | .paren .. => true
  | _ => false

/-- `ast.IsLogicalExpression` of the parent; `child`: of the child -/
def Frame.logical (child : Bool) : Frame → Bool
  | .not _ => child
  | .paren .. => child
  | .left .. => true
  | .right .. => true

/-- Lines 526-532: the first parent that is no parenthesis is a logical expression.  Above the list there is something else. -/
def logicalAbove (child : Bool) (up : List Frame) : Bool :=
  match up.dropWhile (·.isParen) with
  | [] => false
  | f :: _ => f.logical child

/-- Lines 533-534: the parentheses are to be added -/
def wraps (child : Bool) (up : List Frame) : Bool := logicalAbove child up && !up.head?.any (·.isParen)

def insert (pos : Nat) (text : Bytes) : Fix := ⟨text, pos, pos⟩

/-- Lines 540-544: where the left operand is a logical expression without parentheses whose own left operand is no `||`, the offset of its right operand -/
def inner : Tree → Option Nat
  | .bin op a h1 h2 _ => if a.isOr then none else some ((a.print ++ h1 ++ op.text ++ h2).length)
  | _ => none

/-- Lines 550-562: parentheses around an operand at the position -/
def guardOperand (pos : Nat) (t : Tree) : List Fix :=
  if t.logical && !t.isParen then [insert pos (ascii "("), insert (pos + t.print.length) (ascii ")")] else []

/-- Lines 520-577: the edits for `l || r` (`l ||= r` if `assign`), which begins at `start` -/
def edits (start : Nat) (assign : Bool) (up : List Frame) (l : Tree) (g1 g2 : Bytes) (r : Tree) : List Fix :=
  let op := if assign then ascii "||=" else ascii "||"
  let opPos := start + l.print.length + g1.length
  let rPos := opPos + op.length + g2.length
  let rEnd := rPos + r.print.length
  let wrap := wraps (!assign) up
  (if wrap then [insert (start + (inner l).getD 0) (ascii "("), insert rEnd (ascii ")")] else []) ++
  (if assign then [] else
    (if wrap && (inner l).isSome then [] else guardOperand start l) ++ guardOperand rPos r) ++
  [⟨if assign then ascii "??=" else ascii "??", opPos, ((opPos + op.length : Nat) : Int)⟩]

end Tsgolint.NullishFix
