import Verif.Spec.Expression

/-!
# Copying expressions into replacements

Models `IsStrongPrecedenceNode` (`internal/utils/ts_eslint.go` lines 585-600), `isWeakPrecedenceParent`, `isNodeParenthesized` and `buildWrappingFix` of prefer-regexp-exec
(`internal/rules/prefer_regexp_exec/prefer_regexp_exec.go` lines 46-104) and of no-unnecessary-type-conversion
(`internal/rules/no_unnecessary_type_conversion/no_unnecessary_type_conversion.go` lines 104-173), and the negation written by no-unnecessary-boolean-literal-compare
(`internal/rules/no_unnecessary_boolean_literal_compare/no_unnecessary_boolean_literal_compare.go` lines 178-184).

Simplifications: texts are lists of tokens; kinds of types (`TypeReference`, `TypeOperator`, `ExpressionWithTypeArguments`) are left out; so is the special case of an object literal
that becomes the body of an arrow function (`Model/TypeConversion.lean` has it).
-/

namespace Tsgolint.Wrapping

open Expression

/-- `IsStrongPrecedenceNode` (ts_eslint.go 585-600); `ast.IsLiteralKind`: numbers, big integers, strings, regular expressions, templates without substitutions -/
def isStrong : Expr → Bool
  | .atom .literal _ | .atom .boolean _ | .atom .identifier _ | .atom .array _ | .atom .object _ => true
  | .paren _ | .dot _ _ | .index _ _ | .call _ _ | .newArgs _ _ | .newBare _ | .tag _ => true
  | _ => false

/-- `isWeakPrecedenceParent` (prefer_regexp_exec.go 50-79, no_unnecessary_type_conversion.go 115-144): the kinds of the parent. Assignments and commas are binary expressions;
`typeof`, `void` and `delete` are kinds of their own and not listed -/
def isWeakParent : Frame → Bool
  | .post | .pre .sign | .pre .await => true
  | .binLeft _ _ | .binRight _ _ | .assignLeft _ | .assignRight _ | .commaLeft _ | .commaRight _ => true
  | .condTest _ _ | .condThen _ _ | .condElse _ _ => true
  | .dot _ | .indexObject _ | .callee _ | .newCallee _ | .newBare | .tag => true
  | _ => false

/-- `isNodeParenthesized` (prefer_regexp_exec.go 46-48) -/
def isParenthesized : Frame → Bool
  | .paren => true
  | _ => false

def inParens (text : List Tok) : List Tok := .lp :: text ++ [.rp]

/-- the code of an operand (prefer_regexp_exec.go 87-93, no_unnecessary_type_conversion.go 152-159) -/
def copied (e : Expr) : List Tok := if !isStrong e then inParens (toks e) else toks e

/-- prefer_regexp_exec.go 99-101, no_unnecessary_type_conversion.go 166-168; the parent is `none` at the top -/
def placed (parent : Option Frame) (code : List Tok) : List Tok :=
  match parent with
  | none => code
  | some f => if isWeakParent f && !isParenthesized f then inParens code else code

/-- prefer_regexp_exec.go 337-340 with 84-103: `argument.exec(object)`; `exec` is the number of the name -/
def execFix (exec : Nat) (parent : Option Frame) (object argument : Expr) : List Tok :=
  placed parent (copied argument ++ [.dot exec, .lp] ++ copied object ++ [.rp])

/-- prefer_regexp_exec.go 341-344: `RegExp(argument).exec(object)` -/
def constructFix (regExp exec : Nat) (parent : Option Frame) (object argument : Expr) : List Tok :=
  placed parent ([.atom .identifier regExp, .lp] ++ copied argument ++ [.rp, .dot exec, .lp] ++ copied object ++ [.rp])

/-- prefer_regexp_exec.go 331-333: `/pattern/.exec(object)` -/
def literalFix (literal exec : Nat) (parent : Option Frame) (object : Expr) : List Tok :=
  placed parent ([.atom .literal literal, .dot exec, .lp] ++ copied object ++ [.rp])

/-- no_unnecessary_type_conversion.go 161-163: the suggestion to remove the conversion -/
def removeFix (inner : Expr) : List Tok := copied inner

/-- no_unnecessary_type_conversion.go 165-170 with 183-189: the suggestion to write `satisfies` -/
def satisfiesFix (parent : Option Frame) (inner : Expr) : List Tok := placed parent (copied inner ++ [.sat])

/-- no_unnecessary_boolean_literal_compare.go 176-184: `!` before the compared expression, which is in parentheses unless it is strong -/
def negateFix (inner : Expr) : List Tok := .pre .sign :: copied inner

end Tsgolint.Wrapping
