import Verif.Model.Options
/-!
# Model of prefer-nullish-coalescing: what is reported
(/repo/internal/rules/prefer_nullish_coalescing/prefer_nullish_coalescing.go; the suggestion for `||` is in `Model/NullishFix.lean`)
-/
namespace Tsgolint.Nullish

/-- Binary operators other than assignments -/
inductive Op
  | eq
  | notEq
  | strictEq
  | strictNotEq
  | or
  | and
  | coalesce
  | other (n : Nat)
  deriving DecidableEq

/-- Expressions, as far as the rule distinguishes them.  Names of properties are their `Text()` (with `#` for private names). -/
inductive Expr
  | ident (name : String)
  /-- `object.name`; `optional`: `object?.name` -/
  | prop (optional : Bool) (object : Expr) (name : String) (isPrivate : Bool)
  /-- `object[argument]`; `optional`: `object?.[argument]` -/
  | elem (optional : Bool) (object argument : Expr)
  | null
  | this
  /-- string literals and (`template`) templates without expressions -/
  | str (template : Bool) (text : String)
  | num (text : String)
  | big (text : String)
  | paren (e : Expr)
  | nonNull (e : Expr)
  | not (e : Expr)
  | binary (op : Op) (left right : Expr)
  /-- `plain`: `=`; otherwise `+=`, `||=` and so on -/
  | assign (plain : Bool) (left right : Expr)
  | cond (test yes no : Expr)
  /-- anything else; `chain`: `ast.IsOptionalChain` -/
  | other (id : Nat) (chain : Bool)
  deriving DecidableEq

/-- `ast.SkipParentheses` -/
def Expr.skip : Expr → Expr
  | .paren e => e.skip
  | e => e

/-- /repo/internal/utils/ts_api_utils.go:211-213 `IsNullLiteral` -/
def Expr.isNull : Expr → Bool
  | .null => true
  | _ => false

/-- /repo/internal/utils/ts_api_utils.go:215-217 `IsUndefinedIdentifier` -/
def Expr.isUndefined : Expr → Bool
  | .ident n => n == "undefined"
  | _ => false

/-- /repo/internal/utils/ts_api_utils.go:231-233 `IsNullLiteralOrUndefinedIdentifier` -/
def Expr.isNullish (e : Expr) : Bool := e.isNull || e.isUndefined

/-- Lines 72-81 `isMemberAccessLike` -/
def Expr.memberAccess (e : Expr) : Bool :=
  match e.skip with
  | .ident _ | .prop .. | .elem .. => true
  | .other _ chain => chain
  | _ => false

/-- Lines 83-118 `isNodeEqual`; private names are never equal (lines 117, 100). -/
def Expr.same : Expr → Expr → Bool
  | .ident a, .ident b => a == b
  | .prop _ o n p, .prop _ o' n' p' => !p && !p' && n == n' && same o o'
  | .elem _ o a, .elem _ o' a' => same a a' && same o o'
  | .null, .null => true
  | .str t a, .str t' b => t == t' && a == b
  | .num a, .num b => a == b
  | .big a, .big b => a == b
  | .this, .this => true
  | _, _ => false

/-- Lines 131-147: the name in `x['name']`, or nothing -/
def Expr.key : Expr → String
  | .str _ t => t
  | _ => ""

/-- Lines 163-177: without parentheses, and then without one `!` -/
def Expr.unwrap (e : Expr) : Expr :=
  match e.skip with
  | .nonNull e => e
  | e => e

/-- Lines 161-216 `areNodesSimilarMemberAccess`.  The first argument: parentheses and `!` are still skipped; the third is unwrapped already. -/
def Expr.similarTo : Bool → Expr → Expr → Bool
  | true, .paren e, b => similarTo true e b
  | true, .nonNull e, b => similarTo false e b
  | _, .prop o obj n p, b => match b with
    | .prop _ obj' n' _ => n == n' && similarTo true obj obj'.unwrap
    | .elem _ obj' arg' => if n == "" || arg'.key == "" then false else n == arg'.key && similarTo true obj obj'.unwrap
    | b => (Expr.prop o obj n p).same b
  | _, .elem o obj arg, b => match b with
    | .prop _ obj' n' _ => if arg.key == "" || n' == "" then false else arg.key == n' && similarTo true obj obj'.unwrap
    | .elem _ obj' arg' =>
      if arg.key == "" || arg'.key == "" then similarTo true obj obj'.unwrap && arg.same arg'
      else arg.key == arg'.key && similarTo true obj obj'.unwrap
    | b => (Expr.elem o obj arg).same b
  | _, a, b => a.same b

/-- Lines 161-216 -/
def Expr.similar (a b : Expr) : Bool := a.similarTo true b.unwrap

/-! ### The place of an expression -/

/-- What a node is to its parent -/
inductive Role
  | paren
  /-- one of the two branches of `? :` -/
  | branch
  /-- the test of `? :` or of a statement (`if`, `while`, `do`, `for`) -/
  | test
  /-- the right operand of `,` -/
  | commaRight
  | not
  /-- in a call of `Boolean`; `declared`: it is declared in a file that is not a declaration file -/
  | boolean (declared : Bool)
  /-- in another call -/
  | call
  | other
  deriving DecidableEq

/-- `ast.IsCallExpression` of the parent -/
def Role.isCall : Role → Bool
  | .boolean _ | .call => true
  | _ => false

/-- A parent; `logical`: `ast.IsLogicalExpression` of it -/
structure Frame where
  logical : Bool
  role : Role

/-- Lines 218-265 `isConditionalTest`, from the parent up -/
def conditionalTest : List Frame → Bool
  | [] => false
  | f :: up =>
    if f.logical then conditionalTest up
    else match f.role with
      | .paren | .branch | .commaRight | .not => conditionalTest up
      | .test => true
      | _ => false

/-- Lines 267-317 `isBooleanConstructorContext`, from the parent up -/
def booleanContext : List Frame → Bool
  | [] => false
  | f :: up => match f.role with
    | .paren => booleanContext up
    | r =>
      if f.logical then booleanContext up
      else match r with
        | .branch | .commaRight => booleanContext up
        | .boolean declared => !declared
        | _ => false

/-! ### Types -/

structure Primitives where
  bigint : Bool
  boolean : Bool
  number : Bool
  string : Bool

/-- `a & b != 0` -/
def Primitives.meets (a b : Primitives) : Bool := (a.bigint && b.bigint) || (a.boolean && b.boolean) || (a.number && b.number) || (a.string && b.string)

/-- A part of a union: the flags, and those of the parts of an intersection -/
structure Part where
  null : Bool
  undefined : Bool
  intersection : List Primitives

structure Ty where
  /-- `any` or `unknown` -/
  any : Bool
  parts : List Part

structure Options where
  ignoreBooleanCoercion : Bool
  ignoreConditionalTests : Bool
  ignoreIfStatements : Bool
  ignoreMixedLogicalExpressions : Bool
  ignorePrimitives : Options.BoolOr Primitives
  ignoreTernaryTests : Bool

/-- Lines 331-349: `ignorableFlags` -/
def Options.ignorable (o : Options) : Primitives :=
  if o.ignorePrimitives.isTrue then ⟨true, true, true, true⟩
  else match o.ignorePrimitives.objectVal with
    | some p => p
    | none => ⟨false, false, false, false⟩

def Primitives.isZero (p : Primitives) : Bool := !p.bigint && !p.boolean && !p.number && !p.string

/-- Lines 353-365 `isNullableType` -/
def Ty.nullable (t : Ty) : Bool := if t.any then true else t.parts.any fun p => p.null || p.undefined

/-- Lines 369-394 `isTypeEligibleForPreferNullish` -/
def Ty.eligible (ignorable : Primitives) (t : Ty) : Bool :=
  if !t.nullable then false
  else if ignorable.isZero then true
  else if t.any then false
  else !t.parts.any fun p => p.intersection.any fun q => q.meets ignorable

/-- Lines 398-416 `isTruthinessCheckEligibleForPreferNullish`; `conditional`: the node is `? :`; `up`: its parents; `type`: of the tested expression -/
def eligible (o : Options) (conditional : Bool) (up : List Frame) (type : Ty) : Bool :=
  if !type.eligible o.ignorable then false
  else if o.ignoreConditionalTests && conditionalTest up then false
  else if o.ignoreBooleanCoercion && booleanContext up then
    conditional && up.head?.any (·.role.isCall)
  else true

/-! ### Tests -/

/-- Lines 51-58 `NullishCheckOperator` -/
inductive Check
  | truthy
  | negated
  | equal
  | strictEqual
  | notEqual
  | strictNotEqual
  deriving DecidableEq

/-- Lines 640-665: what two comparisons say together -/
def combine (isOr : Bool) (l r : Op) : Option Check :=
  if isOr then
    if l = .strictEq ∧ r = .strictEq then some .strictEqual
    else if (l = .strictEq ∨ l = .eq) ∧ (r = .strictEq ∨ r = .eq) then some .equal
    else none
  else
    if l = .strictNotEq ∧ r = .strictNotEq then some .strictNotEqual
    else if (l = .strictNotEq ∨ l = .notEq) ∧ (r = .strictNotEq ∨ r = .notEq) then some .notEqual
    else none

/-- Lines 616-668: two comparisons -/
def compound (isOr : Bool) : Expr → Expr → Option (Check × List Expr)
  | .binary lo ll lr, .binary ro rl rr =>
    if (ll.skip.isNullish && lr.skip.isNullish) || (rl.skip.isNullish && rr.skip.isNullish) then none
    else (combine isOr lo ro).map fun c => (c, [ll.skip, lr.skip, rl.skip, rr.skip])
  | _, _ => none

/-- Lines 604-669: a comparison or two -/
def comparison : Expr → Option (Check × List Expr)
  | .binary .eq l r => some (.equal, [l.skip, r.skip])
  | .binary .notEq l r => some (.notEqual, [l.skip, r.skip])
  | .binary .strictEq l r => some (.strictEqual, [l.skip, r.skip])
  | .binary .strictNotEq l r => some (.strictNotEqual, [l.skip, r.skip])
  | .binary .or l r => compound true l r
  | .binary .and l r => compound false l r
  | _ => none

/-- Lines 581-672 `getOperatorAndNodesInsideTestExpression` of the test; `none` is `"", nil`. -/
def inspect (test : Expr) : Option (Check × List Expr) :=
  if test.skip.memberAccess then some (.truthy, [])
  else match test.skip with
    | .not e => if e.skip.memberAccess then some (.negated, []) else none
    | t => comparison t

/-- Lines 421-472 `shouldSkipDueToPartialNullishCheck`; `type`: of the compared expression -/
def skipPartial (hasNull hasUndefined : Bool) (check : Check) (type : Ty) (allowNotEqual : Bool) : Bool :=
  if hasNull && hasUndefined then false
  else if !hasNull && !hasUndefined then true
  else if check = .equal then false
  else if allowNotEqual ∧ check = .notEqual then false
  else if type.any then true
  else if hasUndefined && type.parts.any (·.null) then true
  else if hasNull && type.parts.any (·.undefined) then true
  else false

/-- The expression tested in `x` and `!x` (lines 717-724, 846-849) -/
def tested (test : Expr) : Expr :=
  match test.skip with
  | .not e => e.skip
  | e => e

/-- Lines 733-746, 860-872: what the nodes in the test are: `null`, `undefined`, or the expression.  `none`: something else; the first of the expressions -/
def scan (target : Expr) : List Expr → (hasNull hasUndefined : Bool) → Option Expr → Option (Bool × Bool × Option Expr)
  | [], n, u, f => some (n, u, f)
  | t :: ts, n, u, f =>
    if t.isNull then scan target ts true u f
    else if t.isUndefined then scan target ts n true f
    else if t.similar target then scan target ts n u (some (f.getD t))
    else none

/-- Lines 675-681 `getBranchNodes`: the branch for values that are not nullish, and the other -/
def branches (check : Check) (yes no : Expr) : Expr × Expr :=
  if check = .truthy ∨ check = .notEqual ∨ check = .strictNotEqual then (yes, no) else (no, yes)

/-- Lines 698-766: a conditional expression; the operands of the `??` suggested.  `typeOf`: the type at the expression's place -/
def ternary (o : Options) (typeOf : Expr → Ty) (up : List Frame) (test yes no : Expr) : Option (Expr × Expr) :=
  if o.ignoreTernaryTests then none
  else (inspect test).bind fun (check, nodes) =>
    let (nonNullish, nullish) := branches check yes no
    if nodes.isEmpty then
      if (tested test).similar nonNullish.skip && eligible o true up (typeOf (tested test)) then some (tested test, nullish) else none
    else (scan nonNullish.skip nodes false false none).bind fun (n, u, found) => found.bind fun left =>
      if skipPartial n u check (typeOf left) true then none else some (left, nullish)

/-! ### If statements -/

inductive Stmt
  | block (statements : List Stmt)
  | expression (e : Expr)
  | other

/-- Lines 798-815: the one expression in it -/
def Stmt.only : Stmt → Option Expr
  | .block [.expression e] => some e
  | .expression e => some e
  | _ => none

/-- Lines 788-880: an if statement; the operands of the `??=` suggested -/
def ifStatement (o : Options) (typeOf : Expr → Ty) (up : List Frame) (test : Expr) (body : Stmt) (hasElse : Bool) : Option (Expr × Expr) :=
  if o.ignoreIfStatements || hasElse then none
  else body.only.bind fun e => match e.skip with
    | .assign _ left right =>
      if !left.memberAccess then none
      else (inspect test).bind fun (check, nodes) =>
        if check ≠ .negated ∧ check ≠ .equal ∧ check ≠ .strictEqual then none
        else if nodes.isEmpty then
          if (tested test).similar left && eligible o false up (typeOf (tested test)) then some (left, right) else none
        else (scan left nodes false false none).bind fun (n, u, found) =>
          if found.isNone || skipPartial n u check (typeOf left) false then none else some (left, right)
    | _ => none

/-! ### `||` and `||=` -/

/-- What is asked about nodes -/
structure Nodes (N : Type) where
  parent : N → Option N
  /-- `ast.IsLogicalExpression` -/
  logical : N → Bool
  /-- the operator and the operands of the node without parentheses, if it is binary; `none` for the operator: another one -/
  binary : N → Option (Op × N × N)
  /-- it is `=` -/
  isAssign : N → Bool

/-- Lines 479-503; `none`: out of fuel -/
def mixedLoop {N : Type} [DecidableEq N] (E : Nodes N) : Nat → List (Option N) → List N → Option Bool
  | 0, _, _ => none
  | _ + 1, [], _ => some false
  | n + 1, none :: queue, seen => mixedLoop E n queue seen
  | n + 1, some c :: queue, seen =>
    if seen.contains c then mixedLoop E n queue seen
    else if !E.logical c then mixedLoop E n queue (c :: seen)
    else match E.binary c with
      | none => mixedLoop E n queue (c :: seen)
      | some (op, l, r) =>
        if op = .and then some true
        else if op = .or ∨ (E.isAssign c ∧ E.logical l) then mixedLoop E n (queue ++ [E.parent c, some l, some r]) (c :: seen)
        else mixedLoop E n queue (c :: seen)

/-- Lines 475-506 `isMixedLogicalExpression` -/
def mixed {N : Type} [DecidableEq N] (E : Nodes N) (fuel : Nat) (node left right : N) : Option Bool :=
  mixedLoop E fuel [E.parent node, some left, some right] []

/-- Lines 509-519: whether `||` or `||=` is reported; `type`: of the left operand -/
def checkOr {N : Type} [DecidableEq N] (o : Options) (E : Nodes N) (fuel : Nat) (node left right : N) (up : List Frame) (type : Ty) : Option Bool :=
  if !eligible o false up type then some false
  else if o.ignoreMixedLogicalExpressions then (mixed E fuel node left right).map (!·)
  else some true

end Tsgolint.Nullish
