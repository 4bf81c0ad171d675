import Verif.Model.Fixer
import Verif.Model.Switch
/-!
# Model of prefer-find (/repo/internal/rules/prefer_find/prefer_find.go)
-/
namespace Tsgolint.PreferFind
open Tsgolint.Fixer
open Tsgolint.TypeGraph (Shape unionParts)
open Tsgolint.Switch (intersectionParts)

/-- Go's `float64`, up to the sign of zero, which the rule never looks at (`numberToString` writes both zeros as "0", lines 69-71). -/
inductive Num
  | nan
  | inf (negative : Bool)
  | fin (q : Rat)
deriving DecidableEq

def Num.neg : Num → Num
  | .nan => .nan
  | .inf b => .inf !b
  | .fin q => .fin (-q)

/-- Lines 33-50 `staticValue`. -/
inductive Value
  | str (s : String)
  | num (n : Num)
  | bool (b : Bool)
  | null
  | bigint (i : Int)
  | undefined
  | symbol
deriving DecidableEq

inductive Op
  | minus
  | plus
  | other
deriving DecidableEq

/-- Expressions, as far as the rule tells them apart.  Accesses carry a number by which the compiler and the text are asked about them. -/
inductive Expr
  /-- string literals and templates without substitutions -/
  | str (s : String)
  /-- numeric literals: what `strconv.ParseFloat` says of the text without separators (lines 248-253) -/
  | num (v : Option Num)
  | bool (b : Bool)
  | null
  /-- bigint literals: what `parseBigIntLiteral` makes of the text (lines 203-216) -/
  | bigint (v : Option Int)
  | ident (name : String) (symbol : Option Nat)
  | unary (op : Op) (e : Expr)
  /-- `e as T`, `<T>e`, `e!` -/
  | wrap (e : Expr)
  | paren (e : Expr)
  | comma (l r : Expr)
  | cond (c t f : Expr)
  /-- `e.name`, `e?.name` -/
  | prop (id : Nat) (questionDot : Bool) (e : Expr) (name : String)
  /-- `e[i]`, `e?.[i]` -/
  | elem (id : Nat) (questionDot : Bool) (e i : Expr)
  /-- a call with one argument -/
  | call1 (questionDot : Bool) (callee arg : Expr)
  /-- a call with any other number of arguments -/
  | callN (questionDot : Bool) (callee : Expr)
  | other
deriving DecidableEq

/-- What the rule asks of the compiler and of Go's library. -/
structure Env (T : Type) where
  /-- the initialiser of a symbol declared by `const` (lines 217-232 `getConstInitializer`) -/
  init : Nat → Option Expr
  /-- `strings.TrimSpace` -/
  trim : String → String
  /-- `strconv.ParseFloat(s, 64)`; `none` for an error, be it of syntax or of range -/
  parseFloat : String → Option Num
  /-- `new(big.Int).SetString(s, base)`, rounded to a `float64`; `none` if it fails -/
  parseInt : String → Nat → Option Num
  /-- `strconv.FormatFloat(v, 'g', -1, 64)` -/
  format : Rat → String
  shape : T → Shape T
  isNull : T → Bool
  isUndefined : T → Bool
  isArray : T → Bool
  isTuple : T → Bool
  /-- the constrained type of the object of an access -/
  typeOf : Nat → T

variable {T : Type}

/-- `ast.SkipParentheses` -/
def skipParens : Expr → Expr
  | .paren e => skipParens e
  | e => e

/-- Lines 60-76. -/
def numberToString (E : Env T) : Num → String
  | .nan => "NaN"
  | .inf false => "Infinity"
  | .inf true => "-Infinity"
  | .fin q => if q = 0 then "0" else E.format q

/-- Lines 93-99: sign and rest. -/
def splitSign (s : String) : String × String :=
  match s.toList with
  | '+' :: l => ("+", String.ofList l)
  | '-' :: l => ("-", String.ofList l)
  | _ => ("", s)

/-- Lines 100-108: the base named by a prefix, and what follows it. -/
def basePrefix (s : String) : Option (Nat × String) :=
  match s.toList with
  | '0' :: 'x' :: l => some (16, String.ofList l)
  | '0' :: 'X' :: l => some (16, String.ofList l)
  | '0' :: 'b' :: l => some (2, String.ofList l)
  | '0' :: 'B' :: l => some (2, String.ofList l)
  | '0' :: 'o' :: l => some (8, String.ofList l)
  | '0' :: 'O' :: l => some (8, String.ofList l)
  | _ => none

/-- Lines 78-126 `toNumberFromString`, after trimming. -/
def numberOfTrimmed (E : Env T) (s : String) : Num :=
  if s = "" then .fin 0
  else if s = "Infinity" ∨ s = "+Infinity" then .inf false
  else if s = "-Infinity" then .inf true
  else match basePrefix (splitSign s).2 with
    | some (base, digits) => if digits = "" then .nan else (E.parseInt ((splitSign s).1 ++ digits) base).getD .nan
    | none => (E.parseFloat s).getD .nan

def numberOfString (E : Env T) (s : String) : Num := numberOfTrimmed E (E.trim s)

/-- Lines 128-148 `toNumber`. -/
def toNumber (E : Env T) : Value → Option Num
  | .num n => some n
  | .str s => some (numberOfString E s)
  | .bool b => some (.fin (if b then 1 else 0))
  | .null => some (.fin 0)
  | .undefined => some .nan
  | .bigint _ => none
  | .symbol => none

/-- Lines 150-170 `staticValueToPropertyName`. -/
def propertyName (E : Env T) : Value → Option String
  | .str s => some s
  | .num n => some (numberToString E n)
  | .bool b => some (if b then "true" else "false")
  | .null => some "null"
  | .undefined => some "undefined"
  | .bigint i => some (toString i)
  | .symbol => none

/-- `math.Trunc(n) == 0` -/
def truncZero : Num → Bool
  | .nan => false
  | .inf _ => false
  | .fin q => decide (-1 < q) && decide (q < 1)

/-- Lines 172-187 `isTreatedAsZeroByArrayAt`. -/
def zeroForAt (E : Env T) (v : Value) : Bool :=
  match toNumber E v with
  | none => false
  | some n => decide (n = .nan) || truncZero n

/-- Lines 189-200 `isTreatedAsZeroByMemberAccess`. -/
def zeroForMember : Value → Bool
  | .str s => decide (s = "0")
  | .num n => decide (n = .fin 0)
  | .bigint i => decide (i = 0)
  | _ => false

/-- Lines 291-309: a sign before a value. -/
def applyOp (E : Env T) : Op → Value → Option Value
  | .minus, .bigint i => some (.bigint (-i))
  | .minus, v => (toNumber E v).map fun n => .num n.neg
  | .plus, v => (toNumber E v).map .num
  | .other, _ => none

/-- Lines 314-332: `Symbol(…)` and `Symbol.for(…)`. -/
def isSymbolCallee (callee : Expr) : Bool :=
  match skipParens callee with
  | .ident name _ => decide (name = "Symbol")
  | .prop _ _ object name => match skipParens object with
    | .ident o _ => decide (o = "Symbol") && decide (name = "for")
    | _ => false
  | _ => false

/-- Lines 234-335 `getStaticValue` except for constants, whose initialiser is handed to `follow` (line 288).  The outer `none` means out of fuel. -/
def staticWith (E : Env T) (follow : Nat → Expr → Option (Option Value)) (visited : List Nat) : Expr → Option (Option Value)
  | .paren e => staticWith E follow visited e
  | .str s => some (some (.str s))
  | .num v => some (v.map .num)
  | .bool b => some (some (.bool b))
  | .null => some (some .null)
  | .bigint v => some (v.map .bigint)
  | .ident name symbol =>
    if name = "undefined" then some (some .undefined)
    else if name = "NaN" then some (some (.num .nan))
    else if name = "Infinity" then some (some (.num (.inf false)))
    else match symbol with
      | none => some none
      | some s =>
        if visited.contains s then some none
        else match E.init s with
          | none => some none
          | some e => follow s e
  | .unary op e => (staticWith E follow visited e).map fun v => v.bind (applyOp E op)
  | .wrap e => staticWith E follow visited e
  | .call1 q callee _ => some (if !q && isSymbolCallee callee then some .symbol else none)
  | .callN q callee => some (if !q && isSymbolCallee callee then some .symbol else none)
  | .comma .. => some none
  | .cond .. => some none
  | .prop .. => some none
  | .elem .. => some none
  | .other => some none

/-- Lines 234-335 `getStaticValue`.  `fuel` bounds the number of constants followed one inside the other (there is always enough, `C79_terminates`).
The symbols being looked at are passed down, so the deferred `delete` of line 287 needs no model. -/
def getStatic (E : Env T) : Nat → List Nat → Expr → Option (Option Value)
  | 0, visited, e => staticWith E (fun _ _ => none) visited e
  | fuel + 1, visited, e => staticWith E (fun s e => getStatic E fuel (s :: visited) e) visited e

/-- Lines 337-359 `isStaticMemberAccessOfValue`. -/
def isAccessOf (E : Env T) (fuel : Nat) (node : Expr) (value : String) : Option Bool :=
  match skipParens node with
  | .prop _ _ _ name => some (decide (name = value))
  | .elem _ _ _ i => (getStatic E fuel [] i).map fun v => decide (v.bind (propertyName E) = some value)
  | _ => some false

/-- Lines 361-385 `isArrayish`. -/
def arrayPart (E : Env T) (p : T) : Bool := (intersectionParts E.shape p).all fun q => E.isArray q || E.isTuple q
def skipped (E : Env T) (p : T) : Bool := E.isNull p || E.isUndefined p

def arrayishLoop (E : Env T) : List T → Bool → Bool
  | [], found => found
  | p :: ps, found => if skipped E p then arrayishLoop E ps found else if !arrayPart E p then false else arrayishLoop E ps true

def isArrayish (E : Env T) (t : T) : Bool := arrayishLoop E (unionParts E.shape t) false

/-- Lines 52-55 `filterExpressionData`: the access, and whether it is written with brackets. -/
structure Site where
  id : Nat
  bracket : Bool
deriving DecidableEq

/-- Lines 413-445, for a call that is not optional. -/
def callSites (E : Env T) (fuel : Nat) (callee : Expr) : Option (List Site) :=
  match skipParens callee with
  | .prop id q e name => (isAccessOf E fuel (.prop id q e name) "filter").map fun ok => if ok && isArrayish E (E.typeOf id) then [⟨id, false⟩] else []
  | .elem id q e i => (isAccessOf E fuel (.elem id q e i) "filter").map fun ok => if ok && isArrayish E (E.typeOf id) then [⟨id, true⟩] else []
  | _ => some []

/-- Lines 388-448 `parseArrayFilterExpressions`; the empty list is `nil`. -/
def parse (E : Env T) (fuel : Nat) : Expr → Option (List Site)
  | .paren e => parse E fuel e
  | .comma _ r => parse E fuel r
  | .cond _ t f => (parse E fuel t).bind fun a => if a.isEmpty then some [] else
      (parse E fuel f).map fun b => if b.isEmpty then [] else a ++ b
  | .call1 q callee _ => if q then some [] else callSites E fuel callee
  | .callN q callee => if q then some [] else callSites E fuel callee
  | _ => some []

/-- Lines 450-476 `getObjectIfArrayAtZeroExpression`. -/
def objectOfAt (E : Env T) (fuel : Nat) (q : Bool) (callee arg : Expr) : Option (Option Expr) :=
  if q then some none
  else match skipParens callee with
    | .prop id p e name => (isAccessOf E fuel (.prop id p e name) "at").bind fun ok => if !ok then some none else
        (getStatic E fuel [] arg).map fun v => if (v.map (zeroForAt E)).getD false then some e else none
    | .elem id p e i => (isAccessOf E fuel (.elem id p e i) "at").bind fun ok => if !ok then some none else
        (getStatic E fuel [] arg).map fun v => if (v.map (zeroForAt E)).getD false then some e else none
    | _ => some none

/-- Lines 478-490 `isMemberAccessOfZero`. -/
def memberZero (E : Env T) (fuel : Nat) (q : Bool) (i : Expr) : Option Bool :=
  if q then some false else (getStatic E fuel [] i).map fun v => (v.map zeroForMember).getD false

/-- Lines 565-593: the two listeners.  The object whose element is taken and the filters found in it, if there is something to report
(lines 546-550 report nothing if no access is found in the text; it always is). -/
def check (E : Env T) (fuel : Nat) : Expr → Option (Option (Expr × List Site))
  | .call1 q callee arg => (objectOfAt E fuel q callee arg).bind fun o => match o with
    | none => some none
    | some object => (parse E fuel object).map fun l => if l.isEmpty then none else some (object, l)
  | .elem _ q e i => (memberZero E fuel q i).bind fun ok => if !ok then some none else
      (parse E fuel e).map fun l => if l.isEmpty then none else some (e, l)
  | _ => some none

/-! ## The text -/

/-- Lines 492-533 `findArrayElementAccessStart`, on the characters after the array, up to the end of the expression: what is left when the
access is found.  `space` is `unicode.IsSpace`.  The line end after a comment is skipped at once (it is a space). -/
inductive Mode
  | code
  | line
  | block

def scan (space : Char → Bool) : Mode → List Char → Option (List Char)
  | _, [] => none
  | .code, c :: l =>
    if space c then scan space .code l
    else match c, l with
      | '/', '/' :: l' => scan space .line l'
      | '/', '*' :: l' => scan space .block l'
      | c, l => if c = '.' ∨ c = '[' then some (c :: l) else scan space .code l
  | .line, c :: l => if c = '\n' ∨ c = '\r' then scan space .code l else scan space .line l
  | .block, [c] => if c = '.' ∨ c = '[' then some [c] else none
  | .block, c :: d :: l => if c = '*' ∧ d = '/' then scan space .code l else scan space .block (d :: l)

/-- Lines 544-551 `generateFixToReplaceFilterWithFind`: the text put in place of a filter. -/
def replacement (bracket : Bool) : Bytes := if bracket then ascii "\"find\"" else ascii "find"

/-- Lines 559-570: the fixes, given where the names are and where the access begins and ends. -/
def fixes (range : Nat → Nat × Nat) (sites : List Site) (start stop : Nat) : List Fix :=
  (sites.map fun s => ⟨replacement s.bracket, (range s.id).1, (range s.id).2⟩) ++ [⟨[], start, stop⟩]

end Tsgolint.PreferFind
