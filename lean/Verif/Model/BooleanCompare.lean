import Verif.Model.Fixer
/-!
# Model of no-unnecessary-boolean-literal-compare
(/repo/internal/rules/no_unnecessary_boolean_literal_compare/no_unnecessary_boolean_literal_compare.go)

The file is unchanged by the rule unless a fix is applied; type flags and syntax are given by the compiler (parameters).
-/
namespace Tsgolint.BooleanCompare
open Fixer (Fix Bytes)

/-- The flags the rule looks at: `TypeFlagsBooleanLike` and `TypeFlagsNullable` (undefined or null). -/
structure Flags where
  booleanLike : Bool
  nullable : Bool
deriving DecidableEq, Repr

/-- A type: its own flags and, if it carries `TypeFlagsUnion`, the flags of its constituents (`t.Types()`).
`boolean` itself is the union of `true` and `false` carrying the boolean flag. -/
structure Ty where
  own : Flags
  union : Option (List Flags)
deriving DecidableEq, Repr

/-- `utils.GetConstraintInfo` (/repo/internal/utils/ts_eslint.go:38-46): for a type parameter its base constraint, if any. -/
structure ExprTy where
  isTypeParameter : Bool
  constraint : Option Ty
deriving DecidableEq, Repr

/-- `isBooleanType`, lines 55-57 (false for nil). -/
def isBooleanType : Option Ty → Bool
  | none => false
  | some t => t.own.booleanLike

/-- `isNullableBoolean`, lines 80-90. -/
def isNullableBoolean : Option Ty → Bool
  | some ⟨_, some parts⟩ =>
    let flags := parts.foldl (fun acc p => (⟨acc.booleanLike || p.booleanLike, acc.nullable || p.nullable⟩ : Flags)) ⟨false, false⟩
    flags.nullable && flags.booleanLike
  | _ => false

/-- Operator of the binary expression: `==`, `===`, `!=`, `!==`, anything else. -/
inductive Op | eq | eqeq | ne | neeq | other
deriving DecidableEq, Repr

/-- An operand after `ast.SkipParentheses`: the keyword `true`, `false`, or anything else. -/
inductive Operand | tru | fls | expr
deriving DecidableEq, Repr

inductive Side | left | right
deriving DecidableEq, Repr

/-- `booleanComparison`, lines 48-53; `side` says which operand `expression` is. -/
structure Comparison where
  side : Side
  literal : Bool
  negated : Bool
  nullable : Bool
deriving DecidableEq, Repr

/-- `deconstruct`, lines 100-107: the literal the expression is compared against. -/
def deconstruct : Operand → Option Bool
  | .tru => some true
  | .fls => some false
  | .expr => none

/-- End of `getBooleanComparison`, lines 114-129: the verdict once literal and expression are known. -/
def judge (t : ExprTy) (side : Side) (lit negated : Bool) : Option Comparison :=
  if t.isTypeParameter && t.constraint.isNone then none
  else if isBooleanType t.constraint then some ⟨side, lit, negated, false⟩
  else if isNullableBoolean t.constraint then some ⟨side, lit, negated, true⟩
  else none

/-- `getBooleanComparison`, lines 92-130. -/
def getBooleanComparison (op : Op) (left right : Operand) (typeOf : Side → ExprTy) : Option Comparison :=
  let negated := op == .ne || op == .neeq
  if !negated && op != .eq && op != .eqeq then none
  else
    let found := match deconstruct right with
      | some b => some (b, Side.left)
      | none => match deconstruct left with
        | some b => some (b, Side.right)
        | none => none
    match found with
    | none => none
    | some (lit, side) => judge (typeOf side) side lit negated

/-- `NoUnnecessaryBooleanLiteralCompareOptions` (options.go:7-15). -/
structure Options where
  allowNullableTrue : Bool
  allowNullableFalse : Bool

inductive Message
  | comparingNullableToTrueNegated | comparingNullableToTrueDirect | comparingNullableToFalse | negated | direct
deriving DecidableEq, Repr

/-- The listener up to the report, lines 133-159. -/
def check (o : Options) (op : Op) (left right : Operand) (typeOf : Side → ExprTy) : Option (Comparison × Message) :=
  match getBooleanComparison op left right typeOf with
  | none => none
  | some c =>
    if c.nullable && ((c.literal && o.allowNullableTrue) || (!c.literal && o.allowNullableFalse)) then none
    else some (c,
      if c.nullable then
        if c.literal then if c.negated then .comparingNullableToTrueNegated else .comparingNullableToTrueDirect
        else .comparingNullableToFalse
      else if c.negated then .negated else .direct)

/-- The edits of the fix, lines 161-191.  `start`/`stop`: the (trimmed) range of the replaced node, i.e. of the enclosing `!`
expression if `isUnaryNegation`; `text`: source of the compared expression; `strong`: `utils.IsStrongPrecedenceNode` of it. -/
def fixes (c : Comparison) (isUnaryNegation strong : Bool) (text : Bytes) (start stop : Nat) : List Fix :=
  let shouldNegate := c.negated != c.literal
  let before (s : Bytes) : Fix := ⟨s, start, start⟩
  let after (s : Bytes) : Fix := ⟨s, stop, stop⟩
  let str (s : String) : Bytes := s.toList.map fun c => c.toNat.toUInt8
  [(⟨text, start, stop⟩ : Fix)] ++
  (if shouldNegate == isUnaryNegation then
    [before (str "!")] ++ (if !strong then [before (str "("), after (str ")")] else [])
  else []) ++
  (if c.nullable && !c.literal then [before (str "("), after (str " ?? true)")] else [])

end Tsgolint.BooleanCompare
