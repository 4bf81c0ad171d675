import Verif.Model.Fixer
/-!
# Model of no-confusing-void-expression (/repo/internal/rules/no_confusing_void_expression/no_confusing_void_expression.go)
-/
namespace Tsgolint.VoidExpression
open Tsgolint.Fixer

/-- options.go:7-18 -/
structure Opts where
  ignoreArrowShorthand : Bool
  ignoreVoidOperator : Bool
  ignoreVoidReturningFunctions : Bool

/-- The kinds of parents lines 82-124 tell apart, with the part of it the node is. -/
inductive Frame
  | parens
  /-- `&&`, `||` and `??` -/
  | logical (isRight : Bool)
  | comma (isLeft : Bool)
  | expressionStatement
  | conditional (isBranch : Bool)
  | arrow
  | voidOperator
  | return_
  | other
deriving DecidableEq, Repr

/-- The result of the climb: no ancestor is invalid, or this one, `n` steps up. -/
inductive Position
  | valid
  | invalid (frame : Frame) (n : Nat)
  /-- beyond the root: the runtime panics (no expression is a root) -/
  | offTree
deriving DecidableEq, Repr

/-- A step of the loop: `none` goes on with the parent. -/
def step (o : Opts) : Frame → Option Bool
  | .parens => none
  | .logical true => none
  | .logical false => some false
  | .comma true => some true
  | .comma false => some false
  | .expressionStatement => some true
  | .conditional true => none
  | .conditional false => some false
  | .arrow => some o.ignoreArrowShorthand
  | .voidOperator => some o.ignoreVoidOperator
  | .return_ => some false
  | .other => some false

/-- `findInvalidAncestor`, lines 74-130. -/
def findInvalidAncestor (o : Opts) : Nat → List Frame → Position
  | _, [] => .offTree
  | n, f :: fs => match step o f with
    | some true => .valid
    | some false => .invalid f n
    | none => findInvalidAncestor o (n + 1) fs

/-- A function around the expression: does the annotation of the return type include `void`; is it an arrow function or function expression; for the contextual
type, if there is one: for each part of the union, for each call signature, for each part of its return type, whether it is `void`. -/
structure Function where
  annotation : Option (List Bool)
  isExpression : Bool
  contextual : Option (List (List (List Bool)))

/-- `isVoidReturningFunction`, lines 132-165. -/
def isVoidReturning (f : Function) : Bool :=
  match f.annotation with
  | some parts => parts.any id
  | none =>
    if !f.isExpression then false
    else match f.contextual with
      | none => false
      | some ts => ts.any fun signatures => signatures.any fun returns => returns.any id

/-- `isFinalReturn`, lines 167-180: the statements of the block around the return statement, if that is a block, and whether the block is the body of a function. -/
def isFinalReturn {α : Type} [DecidableEq α] (block : Option (List α × Bool)) (self : α) : Bool :=
  match block with
  | none => false
  | some (statements, isBody) => isBody && statements.getLast? == some self

/-- The messages and which fix comes with them. -/
inductive Report
  | arrowWrapVoid | arrow | returnWrapVoid | returnLast | return_ | wrapVoid | plain
deriving DecidableEq, Repr

/-- An expression: the frames around it, whether its type includes `void`, the function whose shorthand body or return value it is, whether the return statement is final. -/
structure Expr where
  frames : List Frame
  isVoid : Bool
  function : Option Function
  final : Bool

/-- `checkExpression`, lines 182-291 without the fixes. -/
def check (o : Opts) (e : Expr) : Option Report :=
  match findInvalidAncestor o 0 e.frames with
  | .valid | .offTree => none
  | .invalid f _ =>
    if !e.isVoid then none
    else if f = .arrow then
      if o.ignoreVoidReturningFunctions && e.function.any isVoidReturning then none
      else if o.ignoreVoidOperator then some .arrowWrapVoid
      else some .arrow
    else if f = .return_ then
      if o.ignoreVoidReturningFunctions && e.function.any isVoidReturning then none
      else if o.ignoreVoidOperator then some .returnWrapVoid
      else if e.final then some .returnLast
      else some .return_
    else if o.ignoreVoidOperator then some .wrapVoid
    else some .plain

/-! ## Fixes -/

/-- Lines 194-196. -/
def insertVoid (pos : Nat) : List Fix := [⟨ascii "void ", pos, pos⟩]

/-- Lines 208-220; `bodyPos`, `innerPos`, `innerEnd`, `bodyEnd`: of the body with and without its parentheses. -/
def fixArrow (canFix : Bool) (bodyPos innerPos innerEnd bodyEnd : Nat) : List Fix :=
  if canFix then [⟨ascii "{ ", bodyPos, innerPos⟩, ⟨ascii "; }", innerEnd, bodyEnd⟩] else []

/-- The first token of the returned expression, as lines 243-246 tell tokens apart.  (The token `BacktickToken` of the code is not one the scanner yields for a template.) -/
inductive Token | openParen | openBracket | other
deriving DecidableEq

/-- Lines 242-246 and 260-264. -/
def replacement : Token → Bytes
  | .openParen | .openBracket => ascii ";"
  | .other => []

/-- Lines 238-251: `r` and `r'` are the ends of the word `return`. -/
def fixReturnLast (canFix : Bool) (t : Token) (r r' : Nat) : List Fix :=
  if canFix then [⟨replacement t, r, r'⟩] else []

/-- Lines 256-278: the statement is from `r` to `e`. -/
def fixReturn (inBlock : Bool) (t : Token) (r r' e : Nat) : List Fix :=
  [⟨replacement t, r, r'⟩, ⟨ascii "; return;", e, e⟩] ++ if inBlock then [] else [⟨ascii "{ ", r, r⟩, ⟨ascii " }", e, e⟩]

end Tsgolint.VoidExpression
