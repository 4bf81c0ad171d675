import Verif.Model.StringLiteral
/-!
# Model of no-unsafe-enum-comparison (/repo/internal/rules/no_unsafe_enum_comparison/)

Types, symbols and constants are the compiler's; numbers (`jsnum`, IEEE doubles) are a parameter.
-/
namespace Tsgolint.EnumComparison

/-! ## The comparison -/

/-- One part of an intersection: its flags. -/
structure Prim where
  numberLike : Bool
  stringLike : Bool
deriving DecidableEq, Repr

/-- One part of a union: its identity, its flags, the enum it belongs to (`getBaseEnumType`, /repo/internal/utils/ts_eslint.go:459-468), its parts as an intersection. -/
structure Part where
  id : Nat
  enumLiteral : Bool
  enumLike : Bool
  numberLiteral : Bool
  base : Nat
  inter : List Prim
deriving DecidableEq, Repr

/-- A type: its union parts. -/
abbrev Ty := List Part

/-- `GetEnumTypes`, /repo/internal/utils/ts_eslint.go:479-502. -/
def enumTypes (t : Ty) : List Nat := (t.filter (·.enumLiteral)).map (·.base)

inductive ValueType
  | number | string | none
deriving DecidableEq, Repr

/-- `getEnumValueType`, no_unsafe_enum_comparison.go:59-67. -/
def enumValueType (p : Part) : ValueType :=
  if p.enumLike then (if p.numberLiteral then .number else .string) else .none

/-- `typeIsPrimitiveLike`, lines 69-75. -/
def primitiveLike (flag : Prim → Bool) (t : Ty) : Bool := t.all fun p => p.inter.any flag

/-- The loop of `typeViolates`, lines 87-95. -/
def violatesLoop (rightNumber rightString : Bool) : List Part → Bool
  | [] => false
  | p :: ps =>
    if enumValueType p = .number ∧ rightNumber = true then true
    else if enumValueType p = .string ∧ rightString = true then true
    else violatesLoop rightNumber rightString ps

/-- `typeViolates`, lines 80-96. -/
def typeViolates (left : List Part) (right : Ty) : Bool :=
  let n := primitiveLike (·.numberLike) right
  let s := primitiveLike (·.stringLike) right
  if !n && !s then false else violatesLoop n s left

/-- The loop of lines 143-147. -/
def shares : List Part → List Part → Bool
  | [], _ => false
  | p :: ps, right => if right.any (fun q => decide (q.id = p.id)) then true else shares ps right

/-- `isMismatchedComparison`, lines 101-152. -/
def mismatched (left right : Ty) : Bool :=
  let l := enumTypes left
  let r := enumTypes right
  if l.isEmpty && r.isEmpty then false
  else if l.any r.contains then false
  else if shares left right then false
  else typeViolates left right || typeViolates right left

/-- Binary operators. -/
inductive Op
  | lt | le | gt | ge | eq | eqq | ne | neq | other
deriving DecidableEq, Repr

/-- Line 159. -/
def compares (op : Op) : Bool :=
  op = .lt || op = .le || op = .gt || op = .ge || op = .eq || op = .eqq || op = .ne || op = .neq

/-- The listener for binary expressions, lines 156-187. -/
def runBinary (op : Op) (left right : Ty) : Bool := if !compares op then false else mismatched left right

/-! ## Static values -/

/-- Arithmetic of `jsnum.Number`. -/
structure Num where
  N : Type
  neg : N → N
  add : N → N → N
  eq : N → N → Bool
  toStr : N → List Char
  ofText : List Char → N

inductive Value (ν : Num)
  | str (s : List Char)
  | num (n : ν.N)

inductive UnOp
  | minus | plus | other
deriving DecidableEq, Repr

inductive BinOp
  | plus | other
deriving DecidableEq, Repr

/-- Expressions as `getStaticValue` tells them apart. `assertion`: `as`, `<T>`, `!`, `satisfies`. -/
inductive Expr
  | paren (e : Expr)
  | string (text : List Char)
  | template (text : List Char)
  | numeric (text : List Char)
  | unary (op : UnOp) (e : Expr)
  | assertion (e : Expr)
  | binary (op : BinOp) (l r : Expr)
  | other
deriving DecidableEq, Repr

/-- `staticValueToString`, static_value.go:66-71. -/
def Value.toStr {ν : Num} : Value ν → List Char
  | .str s => s
  | .num n => ν.toStr n

/-- static_value.go:57-60. -/
def addValues {ν : Num} : Value ν → Value ν → Value ν
  | .num a, .num b => .num (ν.add a b)
  | a, b => .str (a.toStr ++ b.toStr)

/-- `getStaticValue`, static_value.go:21-64. -/
def staticValue (ν : Num) : Expr → Option (Value ν)
  | .paren e => staticValue ν e
  | .string t => some (.str t)
  | .template t => some (.str t)
  | .numeric t => some (.num (ν.ofText t))
  | .unary op e =>
    match staticValue ν e with
    | some (.num n) =>
      match op with
      | .minus => some (.num (ν.neg n))
      | .plus => some (.num n)
      | .other => none
    | _ => none
  | .assertion e => staticValue ν e
  | .binary op l r =>
    if op ≠ .plus then none
    else match staticValue ν l, staticValue ν r with
      | some a, some b => some (addValues a b)
      | _, _ => none
  | .other => none

/-! ## Suggestions -/

/-- The name of an enum member, as written. -/
inductive MemberName
  | identifier (text : List Char)
  | string (text : List Char)
  | template (text : List Char)
  /-- `[expression]`, with the source text of the expression -/
  | computed (source : List Char)
  | other
deriving DecidableEq, Repr

/-- `enumMemberSuffixText`, suggestion.go:35-62; `isIdent`: `scanner.IsIdentifierText`. -/
def suffixText (isIdent : List Char → Bool) : MemberName → List Char
  | .identifier t => '.' :: t
  | .string t => if isIdent t then '.' :: t else ['['] ++ StringLiteral.quote t ++ [']']
  | .template t => if isIdent t then '.' :: t else ['['] ++ StringLiteral.quote t ++ [']']
  | .computed s => ['['] ++ s ++ [']']
  | .other => []

/-- An enum literal type: its member's constant value and name, its enum declaration; `none`: it has no member declaration. -/
structure Member (ν : Num) where
  value : Option (Value ν)
  name : MemberName
  enum : Nat

/-- `enumValueMatchesStaticValue`, suggestion.go:22-33. -/
def matchesValue {ν : Num} : Option (Value ν) → Value ν → Bool
  | some (.str a), .str b => decide (a = b)
  | some (.num a), .num b => ν.eq a b
  | _, _ => false

/-- `getEnumKeyForLiteral`, suggestion.go:178-208.  `access e`: the text of the object, if the other operand accesses a member of enum `e` (else
empty); `fromType e`: the name of the enum if it can be used here (else empty). -/
def enumKey {ν : Num} (isIdent : List Char → Bool) (access fromType : Nat → List Char) : List (Option (Member ν)) → Value ν → List Char
  | [], _ => []
  | m :: ms, v =>
    match m with
    | none => enumKey isIdent access fromType ms v
    | some m =>
      if !matchesValue m.value v then enumKey isIdent access fromType ms v
      else
        let suffix := suffixText isIdent m.name
        if suffix = [] then enumKey isIdent access fromType ms v
        else
          let q := access m.enum
          let q := if q = [] then fromType m.enum else q
          if q = [] then enumKey isIdent access fromType ms v
          else q ++ suffix

inductive Side
  | left | right
deriving DecidableEq, Repr

/-- `enumComparisonSuggestions`, suggestion.go:108-135: which side is replaced, and by what.  `key s v`: `getEnumKeyForLiteral` for the enum literals
of side `s`. -/
def suggest {ν : Num} (left right : Expr) (key : Side → Value ν → List Char) : Option (Side × List Char) :=
  let tryLeft := match staticValue ν left with
    | some v => if key .right v ≠ [] then some (.left, key .right v) else none
    | none => none
  match staticValue ν right with
  | some v => if key .left v ≠ [] then some (.right, key .left v) else tryLeft
  | none => tryLeft

/-- Pieces of `strings.Split(value, ".")`. -/
def splitDots : List Char → List (List Char)
  | [] => [[]]
  | c :: cs => if c = '.' then [] :: splitDots cs else
    match splitDots cs with
    | [] => [[c]]
    | p :: ps => (c :: p) :: ps

/-- `isQualifiedIdentifierText`, suggestion.go:64-72. -/
def isQualified (isIdent : List Char → Bool) (s : List Char) : Bool := (splitDots s).all isIdent

/-- A symbol in scope: its name, and whether it is the enum (`symbolMatchesEnum`, suggestion.go:74-86). -/
structure InScope where
  name : List Char
  isEnum : Bool

/-- `enumQualifierFromType`, suggestion.go:88-106. -/
def qualifierFromType (isIdent : List Char → Bool) (typeText : List Char) (scope : List InScope) : List Char :=
  if !isQualified isIdent typeText then []
  else if typeText.contains '.' then typeText
  else if scope.any (fun s => decide (s.name = typeText) && s.isEnum) then typeText
  else []

end Tsgolint.EnumComparison
