import Verif.Model.OptionalOperand

/-!
# prefer-optional-chain: what is replaced

Models the places of the operands (`collectOperands`, `internal/rules/prefer_optional_chain/prefer_optional_chain.go` lines 1620-1642) and the range that is replaced
(lines 3286-3322 for AND chains, 3519-3527 for OR chains). As in `OptionalExpr`, texts are without trivia and places are counted in characters, from the beginning of the
expression that is reported.
-/

namespace Tsgolint.OptionalChain

open Expr

/-- the operands with their places (prefer_optional_chain.go 1620-1642) -/
def operandsAt (isAnd : Bool) (start : Nat) : Expr → List (Nat × Expr)
  | paren e => match operandsAt isAnd (start + 1) e with
    | [_] => [(start, paren e)]
    | es => es
  | binary l .and t r =>
    if isAnd then operandsAt isAnd start l ++ operandsAt isAnd (start + (text l).length + t.length) r else [(start, binary l .and t r)]
  | binary l .or t r =>
    if isAnd then [(start, binary l .or t r)] else operandsAt isAnd start l ++ operandsAt isAnd (start + (text l).length + t.length) r
  | e => [(start, e)]

/-- is the first operand kept in front of the new text? A `typeof` check of a variable that is not declared, if there is another check (prefer_optional_chain.go 3286-3308); 1 or 0 -/
def keptGuards (isAnd undeclared : Bool) (chain : List Operand) : Nat :=
  match chain with
  | first :: second :: rest => if isAnd && first.kind == .typeof && (second :: rest).any (fun x => x.kind != .typeof) && undeclared then 1 else 0
  | _ => 0

/-- the range that is replaced (prefer_optional_chain.go 3310-3318, 3519-3527): the chain is `n` operands from the number `i` on, of which the first `k` are kept -/
def replacedRange (isAnd : Bool) (node : Expr) (i n k : Nat) : Option (Nat × Nat) :=
  let ops := operandsAt isAnd 0 node
  if k == 0 && n == ops.length then some (0, (text node).length)
  else match ops[i + k]?, ops[i + n - 1]? with
    | some a, some b => some (a.1, b.1 + (text b.2).length)
    | _, _ => none

/-- the text with the range replaced -/
def replaceText (t : Text) (range : Nat × Nat) (code : Text) : Text := t.take range.1 ++ code ++ t.drop range.2

end Tsgolint.OptionalChain
