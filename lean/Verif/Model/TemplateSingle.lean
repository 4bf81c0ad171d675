import Verif.Model.Fixer
/-!
# Model of the single interpolation of no-unnecessary-template-expression
(/repo/internal/rules/no_unnecessary_template_expression/no_unnecessary_template_expression.go)

A template that consists of one interpolation, `${e}`, of a string is replaced by `e`.
-/
namespace Tsgolint.TemplateSingle
variable {K T : Type}

/-- What the rule asks the parser about kinds of nodes. -/
structure Grammar (K : Type) where
  /-- `ast.IsExpression` -/
  isExpression : K → Bool
  /-- `ast.GetExpressionPrecedence` -/
  prec : K → Int
  /-- the precedence of names, literals, templates and parentheses -/
  primary : Int
  /-- a binary expression with `??` -/
  isNullish : K → Bool
  /-- a binary expression with `||` or `&&` -/
  isLogical : K → Bool

/-- Syntax, as far as the rule looks at it. -/
inductive Expr (K : Type)
  | atom (id : Nat)
  | node (kind : K) (operands : List (Expr K))
  | paren (e : Expr K)
  /-- `${e}` in backticks -/
  | template (e : Expr K)

/-- A parent without one of its children. -/
inductive Frame (K : Type)
  | node (kind : K) (before after : List (Expr K))
  | paren
  /-- the span of a template, which is no expression -/
  | template

def Frame.plug : Frame K → Expr K → Expr K
  | .node k before after, e => .node k (before ++ e :: after)
  | .paren, e => .paren e
  | .template, e => .template e

/-- The innermost frame is first. -/
def plug : List (Frame K) → Expr K → Expr K
  | [], e => e
  | f :: fs, e => plug fs (f.plug e)

def Expr.prec (G : Grammar K) : Expr K → Int
  | .node k _ => G.prec k
  | _ => G.primary

def Expr.isLogical (G : Grammar K) : Expr K → Bool
  | .node k _ => G.isLogical k
  | _ => false

def Frame.isExpression (G : Grammar K) : Frame K → Bool
  | .node k _ _ => G.isExpression k
  | .paren => true
  | .template => false

def Frame.prec (G : Grammar K) : Frame K → Int
  | .node k _ _ => G.prec k
  | _ => G.primary

def Frame.isNullish (G : Grammar K) : Frame K → Bool
  | .node k _ _ => G.isNullish k
  | _ => false

/-- Lines 113-120 `needsParentheses` -/
def needsParentheses (G : Grammar K) (parent : Frame K) (e : Expr K) : Bool :=
  (parent.isNullish G && e.isLogical G) || (parent.isExpression G && decide (e.prec G ≤ parent.prec G))

/-- Lines 111-125: what replaces the template. -/
def replacement (G : Grammar K) (parent : Frame K) (e : Expr K) : Expr K := if needsParentheses G parent e then .paren e else e

/-- The program after the fix; `parent` and the frames around it. -/
def fixed (G : Grammar K) (parent : Frame K) (outer : List (Frame K)) (e : Expr K) : Expr K := plug (parent :: outer) (replacement G parent e)

/-- Lines 112, 121-125: the edit; the template is at `start`, `stop`, `text` is the text of the interpolation. -/
def singleFix (parens : Bool) (text : Fixer.Bytes) (start stop : Nat) : List Fixer.Fix :=
  [⟨if parens then Fixer.ascii "(" ++ text ++ Fixer.ascii ")" else text, start, stop⟩]

/-! ## Which templates -/

/-- What the rule asks about types. -/
structure Types (T : Type) where
  unionParts : T → List T
  intersectionParts : T → List T
  stringLike : T → Bool
  /-- the types `utils.TypeRecurser` ends at -/
  leaves : T → List T
  /-- its symbol is declared by an enum member -/
  enumMember : T → Bool

/-- Lines 21-27 `isUnderlyingTypeString` -/
def isUnderlyingString (Y : Types T) (t : T) : Bool := (Y.unionParts t).all fun u => (Y.intersectionParts u).any Y.stringLike

/-- Lines 220-225 `isEnumMemberType` -/
def isEnumMember (Y : Types T) (t : T) : Bool := (Y.leaves t).any Y.enumMember

/-- A template, in an expression or a type. -/
structure Site (T : Type) where
  isType : Bool
  /-- its parent is a tagged template -/
  tagged : Bool
  spans : Nat
  /-- the text before the first interpolation, and after it -/
  head : List Char
  tail : List Char
  /-- comments before or after the first interpolation, in its braces -/
  comments : Bool
  /-- `utils.GetConstraintInfo` of the type of the first interpolation -/
  constraint : Option T
  isTypeParameter : Bool

/-- Lines 216-218 `isTrivialInterpolation` -/
def isTrivial (s : Site T) : Bool := decide (s.spans = 1) && decide (s.head = []) && decide (s.tail = []) && !s.comments

inductive Verdict
  | nothing
  /-- `reportSingleInterpolation` -/
  | single
  /-- `checkTemplateSpans` -/
  | spans
deriving DecidableEq, Repr

/-- Lines 327 and 342: the test of the type. -/
def typeTest (Y : Types T) (s : Site T) : Bool :=
  match s.constraint with
  | none => false
  | some t => if s.isType then !s.isTypeParameter && isUnderlyingString Y t && !isEnumMember Y t else isUnderlyingString Y t

/-- Lines 315-351: the listeners (a template type has no tag). -/
def listen (Y : Types T) (s : Site T) : Verdict :=
  if !s.isType && s.tagged then .nothing else if isTrivial s && typeTest Y s then .single else .spans

end Tsgolint.TemplateSingle
