import Verif.Model.NullishFix
import Verif.Spec.StableFix
/-! # Specification: ECMAScript's grammar of logical expressions, and their values -/
namespace Tsgolint.NullishFix
open Fixer (Bytes)

/-- Expressions -/
inductive Ast
  | atom (id : Nat)
  | not (e : Ast)
  | paren (e : Ast)
  | bin (op : LOp) (l r : Ast)
  deriving DecidableEq

/-- Tokens; an atom is taken as one -/
inductive Tok
  | atom (id : Nat)
  | bang
  | lparen
  | rparen
  | op (op : LOp)
  deriving DecidableEq

/-- BitwiseORExpression (and what binds tighter), LogicalANDExpression, LogicalORExpression, CoalesceExpression, ShortCircuitExpression -/
inductive Symbol
  | operand
  | and
  | or
  | coalesce
  | short
  deriving DecidableEq

/-- The grammar (ECMA-262, 13.13) -/
inductive Derives : Symbol → List Tok → Ast → Prop
  | atom {i} : Derives .operand [.atom i] (.atom i)
  | not {ts a} : Derives .operand ts a → Derives .operand (.bang :: ts) (.not a)
  | paren {ts a} : Derives .short ts a → Derives .operand (.lparen :: ts ++ [.rparen]) (.paren a)
  | and1 {ts a} : Derives .operand ts a → Derives .and ts a
  | and {ts us a b} : Derives .and ts a → Derives .operand us b → Derives .and (ts ++ .op .and :: us) (.bin .and a b)
  | or1 {ts a} : Derives .and ts a → Derives .or ts a
  | or {ts us a b} : Derives .or ts a → Derives .and us b → Derives .or (ts ++ .op .or :: us) (.bin .or a b)
  | coalesce1 {ts us a b} : Derives .operand ts a → Derives .operand us b → Derives .coalesce (ts ++ .op .coalesce :: us) (.bin .coalesce a b)
  | coalesce {ts us a b} : Derives .coalesce ts a → Derives .operand us b → Derives .coalesce (ts ++ .op .coalesce :: us) (.bin .coalesce a b)
  | shortOr {ts a} : Derives .or ts a → Derives .short ts a
  | shortCoalesce {ts a} : Derives .coalesce ts a → Derives .short ts a

def Tree.ast : Tree → Ast
  | .atom i _ => .atom i
  | .not _ e => .not e.ast
  | .paren _ e _ => .paren e.ast
  | .bin op l _ _ r => .bin op l.ast r.ast

def Tree.tokens : Tree → List Tok
  | .atom i _ => [.atom i]
  | .not _ e => .bang :: e.tokens
  | .paren _ e _ => .lparen :: e.tokens ++ [.rparen]
  | .bin op l _ _ r => l.tokens ++ .op op :: r.tokens

/-- The tree is how its text is parsed. -/
def Tree.Parsed (t : Tree) : Prop := Derives .short t.tokens t.ast

/-- No atom is empty. -/
def Tree.Real : Tree → Prop
  | .atom _ t => t ≠ []
  | .not _ e => e.Real
  | .paren _ e _ => e.Real
  | .bin _ l _ _ r => l.Real ∧ r.Real

/-- Values -/
structure Values (V : Type) where
  nullish : V → Bool
  truthy : V → Bool
  bool : Bool → V
  /-- evaluating an atom may throw -/
  atom : Nat → Option V
  falsy : ∀ v, nullish v = true → truthy v = false

variable {V : Type}

/-- The value of an expression -/
def Values.eval (W : Values V) : Ast → Option V
  | .atom i => W.atom i
  | .not e => (eval W e).map fun v => W.bool (!W.truthy v)
  | .paren e => eval W e
  | .bin .or l r => (eval W l).bind fun v => if W.truthy v then some v else eval W r
  | .bin .and l r => (eval W l).bind fun v => if W.truthy v then eval W r else some v
  | .bin .coalesce l r => (eval W l).bind fun v => if W.nullish v then eval W r else some v

/-- How often an operator is in it -/
def Ast.count (op : LOp) : Ast → Nat
  | .atom _ => 0
  | .not e => e.count op
  | .paren e => e.count op
  | .bin o l r => l.count op + r.count op + if o = op then 1 else 0

/-- The atoms, in order -/
def Ast.atoms : Ast → List Nat
  | .atom i => [i]
  | .not e => e.atoms
  | .paren e => e.atoms
  | .bin _ l r => l.atoms ++ r.atoms

/-- The node in its place -/
def plug (t : Tree) : List Frame → Tree
  | [] => t
  | .not g :: up => plug (.not g t) up
  | .paren g1 g2 :: up => plug (.paren g1 t g2) up
  | .left op g1 g2 r :: up => plug (.bin op t g1 g2 r) up
  | .right op l g1 g2 :: up => plug (.bin op l g1 g2 t) up

/-- The text before the node -/
def before : List Frame → Bytes
  | [] => []
  | .not g :: up => before up ++ (Fixer.ascii "!" ++ g)
  | .paren g1 _ :: up => before up ++ (Fixer.ascii "(" ++ g1)
  | .left _ _ _ _ :: up => before up
  | .right op l g1 g2 :: up => before up ++ (l.print ++ g1 ++ op.text ++ g2)

/-- `l || r` is itself an operand of `||`, without parentheses: `l || r || s`. -/
def Chained (up : List Frame) : Prop := ∃ g1 g2 s rest, up = .left .or g1 g2 s :: rest

/-- `a && b || r || s`, or `a || b && c || r || s`, where the suggestion goes wrong -/
def Wrong (up : List Frame) (l : Tree) : Prop :=
  Chained up ∧ ((∃ a h1 h2 b, l = .bin .and a h1 h2 b) ∨
    ∃ a h1 h2 c k1 k2 d, l = .bin .or a h1 h2 (.bin .and c k1 k2 d) ∧ ∀ x j1 j2 y, a ≠ .bin .or x j1 j2 y)

/-- `new` is a legal expression with the same atoms as `old`, but `??` for one `||`; its value is that of `old` whenever `l` is nullish or truthy. -/
structure Kept (l old new : Tree) : Prop where
  parsed : new.Parsed
  atoms : new.ast.atoms = old.ast.atoms
  or : new.ast.count .or + 1 = old.ast.count .or
  and : new.ast.count .and = old.ast.count .and
  coalesce : new.ast.count .coalesce = old.ast.count .coalesce + 1
  value : ∀ (V : Type) (W : Values V), (∀ u, W.eval l.ast = some u → W.nullish u = true ∨ W.truthy u = true) → W.eval new.ast = W.eval old.ast

end Tsgolint.NullishFix
