import Verif.Model.Fixer
/-!
# Model of no-unnecessary-type-conversion (/repo/internal/rules/no_unnecessary_type_conversion/no_unnecessary_type_conversion.go)

Types (`T`) are the compiler's.
-/
namespace Tsgolint.TypeConversion
open Tsgolint.Fixer (Fix Bytes ascii)
variable {T : Type}

inductive Prim
  | string
  | number
  | boolean
  | bigint
deriving DecidableEq, Repr

/-- What `strconv.ParseFloat` makes of the text of a number literal type. -/
inductive Float64
  | int (n : Int)
  | fraction
  | infinite
  | nan
deriving DecidableEq, Repr

/-- What the rule asks about types. -/
structure Env (T : Type) where
  /-- `UnionTypeParts` -/
  parts : T → List T
  /-- a flag of the group `StringLike`, `NumberLike`, `BooleanLike` or `BigIntLike` -/
  like : Prim → T → Bool
  /-- flag `EnumLike`, or the symbol is an enum member -/
  enum : T → Bool
  /-- flag `NumberLiteral`; the value of its text (`none`: it does not parse) -/
  literal : T → Option (Option Float64)

/-- Lines 60-64 `doesUnderlyingTypeMatchFlag` -/
def isAll (E : Env T) (p : Prim) (t : T) : Bool := (E.parts t).all (E.like p)

/-- Line 97: `math.Trunc(value) != value` does not hold. -/
def Float64.truncated : Float64 → Bool
  | .int _ => true
  | .fraction => false
  | .infinite => true
  | .nan => false

/-- Lines 79-102 `isAllNumberLiteralIntegers` -/
def integerParts (E : Env T) : List T → Bool
  | [] => true
  | t :: ts => match E.literal t with
    | some (some v) => if v.truncated then integerParts E ts else false
    | _ => false

def allIntegers (E : Env T) (t : T) : Bool := if (E.parts t).isEmpty then false else integerParts E (E.parts t)

/-- An operand: it is the literal `""`; its constrained type. -/
structure Operand (T : Type) where
  empty : Bool
  type : T

inductive UnaryOp
  | plus
  | bang
  | tilde
  | other
deriving DecidableEq, Repr

/-- The expressions the rule listens to. -/
inductive Expr (T : Type)
  | plus (left right : Operand T)
  /-- `left += right` -/
  | plusEquals (leftIdentifier : Bool) (left right : Operand T)
  /-- a call of an identifier: its name, whether it is the builtin of that name; for each argument whether it is a spread, and its type -/
  | call (name : String) (builtin : Bool) (args : List (Bool × T))
  /-- `object.name(args)` -/
  | method (object : T) (name : String) (args : Nat)
  /-- a prefix operator; `parent`: the prefix operator it is the operand of -/
  | unary (op : UnaryOp) (operand : T) (parent : Option UnaryOp)
  | other

inductive Which
  | left
  | right
  | only
deriving DecidableEq, Repr

/-- A report: the type it is already of, and which operand that is. -/
structure Report where
  prim : Prim
  which : Which
deriving DecidableEq, Repr

/-- Lines 192-227 `reportBinaryPlus` -/
def reportPlus (E : Env T) (l r : Operand T) : Option Report :=
  if r.empty then (if isAll E .string l.type then some ⟨.string, .left⟩ else none)
  else if l.empty then (if isAll E .string r.type then some ⟨.string, .right⟩ else none)
  else none

/-- Lines 286-311: the builtin conversion functions. -/
def conversionOf (name : String) : Option Prim :=
  if name = "BigInt" then some .bigint
  else if name = "Boolean" then some .boolean
  else if name = "Number" then some .number
  else if name = "String" then some .string
  else none

/-- Lines 273-333 `reportBuiltInConversionCall` -/
def reportCall (E : Env T) (name : String) (builtin : Bool) (args : List (Bool × T)) : Option Report := match args with
  | [(spread, t)] =>
    if spread then none
    else match conversionOf name with
      | none => none
      | some p => if !builtin then none else if isAll E p t then some ⟨p, .only⟩ else none
  | _ => none

/-- Lines 335-364 `reportStringToStringCall` -/
def reportMethod (E : Env T) (object : T) (name : String) (args : Nat) : Option Report :=
  if args ≠ 0 then none
  else if name ≠ "toString" then none
  else if E.enum object then none
  else if isAll E .string object then some ⟨.string, .only⟩ else none

/-- Lines 366-448 `reportUnaryPlus`, `reportDoubleBang` and `reportDoubleTilde` -/
def reportUnary (E : Env T) (op : UnaryOp) (t : T) (parent : Option UnaryOp) : Option Report := match op with
  | .plus => if isAll E .number t then some ⟨.number, .only⟩ else none
  | .bang => if parent ≠ some .bang then none else if isAll E .boolean t then some ⟨.boolean, .only⟩ else none
  | .tilde => if parent ≠ some .tilde then none else if allIntegers E t then some ⟨.number, .only⟩ else none
  | .other => none

/-- Lines 450-470: the listeners. -/
def report (E : Env T) : Expr T → Option Report
  | .plus l r => reportPlus E l r
  | .plusEquals id l r =>
    if !r.empty then none else if !id then none else if isAll E .string l.type then some ⟨.string, .left⟩ else none
  | .call name builtin args => reportCall E name builtin args
  | .method object name args => reportMethod E object name args
  | .unary op t parent => reportUnary E op t parent
  | .other => none

/-! ## Suggestions -/

/-- What the suggestions need: the source of the converted expression, whether it is of strong precedence, an object literal; whether the conversion is the body of an arrow function;
whether its parent binds tighter than `satisfies` (lines 115-144) and is no parenthesis (which it cannot be then). -/
structure Place where
  inner : Bytes
  strong : Bool
  object : Bool
  arrowBody : Bool
  weakParent : Bool

/-- Lines 152-159: the code of the inner expression. -/
def innerCode (p : Place) : Bytes :=
  if !p.strong || (p.arrowBody && p.object) then ascii "(" ++ p.inner ++ ascii ")" else p.inner

def Prim.text : Prim → Bytes
  | .string => ascii "string"
  | .number => ascii "number"
  | .boolean => ascii "boolean"
  | .bigint => ascii "bigint"

/-- Lines 161-163 and 178-180: the first suggestion's text. -/
def removed (p : Place) : Bytes := innerCode p

/-- Lines 165-170 and 182-188: the second suggestion's text. -/
def satisfied (prim : Prim) (p : Place) : Bytes :=
  let code := innerCode p ++ ascii " satisfies " ++ prim.text
  if p.weakParent then ascii "(" ++ code ++ ascii ")" else code

/-- The fix: replace the conversion, at `r`. -/
def fix (text : Bytes) (r : Nat × Nat) : List Fix := [⟨text, r.1, r.2⟩]

/-- Lines 251-255: the first suggestion for `x += ""`, which is a statement of its own at `statement` if that is given. -/
def plusEqualsRemoval (statement : Option (Nat × Nat)) (p : Place) (r : Nat × Nat) : List Fix := match statement with
  | some s => [⟨[], s.1, s.2⟩]
  | none => fix (removed p) r

end Tsgolint.TypeConversion
