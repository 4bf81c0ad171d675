import Verif.Model.Fixer
/-!
# Model of prefer-string-starts-ends-with
(/repo/internal/rules/prefer_string_starts_ends_with/prefer_string_starts_ends_with.go)

Texts are sequences of code points (Go's `range` over valid UTF-8).  Syntax and types are given by the compiler.
-/
namespace Tsgolint.StartsEnds

abbrev Text := List Char

/-- The characters the rule treats as special, line 378. -/
def meta' (c : Char) : Bool := "^$.*+?|[](){}".toList.contains c

/-- Escapes the rule does not understand, line 361. -/
def unsupported (c : Char) : Bool := "dDwWsSbBcxukpP".toList.contains c

/-- Loop of `parseRegExpText`, lines 342-383; `escaped` is the loop variable.  `isDigit`: `unicode.IsDigit`. -/
def parseLoop (isDigit : Char → Bool) : Bool → Text → Option Text
  | escaped, [] => if escaped then none else some []
  | true, ch :: rest =>
    let put (c : Char) := (parseLoop isDigit false rest).map (c :: ·)
    if ch = 'n' then put '\n'
    else if ch = 'r' then put '\r'
    else if ch = 't' then put '\t'
    else if ch = 'v' then put (Char.ofNat 11)
    else if ch = 'f' then put (Char.ofNat 12)
    else if ch = '0' then put (Char.ofNat 0)
    else if unsupported ch then none
    else if isDigit ch then none
    else put ch
  | false, ch :: rest =>
    if ch = '\\' then parseLoop isDigit true rest
    else if meta' ch then none
    else (parseLoop isDigit false rest).map (ch :: ·)

/-- `parseRegExpText`, lines 327-388. -/
def parseRegExpText (isDigit : Char → Bool) (pattern : Text) : Option Text :=
  let isStartsWith := pattern.head? == some '^'
  let isEndsWith := pattern.getLast? == some '$'
  if isStartsWith == isEndsWith then none
  else parseLoop isDigit false (if isStartsWith then pattern.drop 1 else pattern.dropLast)

/-- `parsedRegExp`, lines 31-35. -/
structure Parsed where
  isEndsWith : Bool
  isStartsWith : Bool
  text : Text
deriving DecidableEq, Repr

/-- End of `parseRegExp`, lines 438-458: a pattern with flags. -/
def parseRegExp (isDigit : Char → Bool) (pattern flags : Text) : Option Parsed :=
  if flags.any (fun c => "imgy".toList.contains c) then none
  else
    let isStartsWith := pattern.head? == some '^'
    let isEndsWith := pattern.getLast? == some '$'
    if isStartsWith == isEndsWith then none
    else (parseRegExpText isDigit pattern).map fun text => ⟨isEndsWith, isStartsWith, text⟩

/-- Number of backslashes just before position `i`, lines 312-315. -/
def backslashesBefore (text : Text) : Nat → Nat
  | 0 => 0
  | i + 1 => if text[i]? = some '\\' then backslashesBefore text i + 1 else 0

/-- Search for the closing slash from position `i` down to 1, lines 308-320. -/
def closingSlash (text : Text) : Nat → Option Nat
  | 0 => none
  | i + 1 =>
    if text[i + 1]? = some '/' ∧ backslashesBefore text (i + 1) % 2 = 0 then some (i + 1) else closingSlash text i

/-- `splitRegexLiteral`, lines 303-325.  (The Go code works on bytes; slashes and backslashes are single bytes.) -/
def splitRegexLiteral (text : Text) : Option (Text × Text) :=
  if text.length < 2 ∨ text.head? ≠ some '/' then none
  else match closingSlash text (text.length - 1) with
    | none => none
    | some i => some ((text.take i).drop 1, text.drop (i + 1))

/-- One character as written by `strconv.Quote` (standard library, `appendEscapedRune`); `printable`: `strconv.IsPrint`. -/
def lowerHexDigit (n : Nat) : Char := if n < 10 then Char.ofNat (48 + n) else Char.ofNat (87 + n)

def lowerHex (n : Nat) : Nat → Text
  | 0 => []
  | w + 1 => lowerHex (n / 16) w ++ [lowerHexDigit (n % 16)]

def goEscape (printable : Char → Bool) (c : Char) : Text :=
  if c = '"' ∨ c = '\\' then ['\\', c]
  else if printable c then [c]
  else if c.toNat = 7 then ['\\', 'a']
  else if c.toNat = 8 then ['\\', 'b']
  else if c.toNat = 12 then ['\\', 'f']
  else if c.toNat = 10 then ['\\', 'n']
  else if c.toNat = 13 then ['\\', 'r']
  else if c.toNat = 9 then ['\\', 't']
  else if c.toNat = 11 then ['\\', 'v']
  else if c.toNat < 32 ∨ c.toNat = 127 then ['\\', 'x'] ++ lowerHex c.toNat 2
  else if c.toNat < 0x10000 then ['\\', 'u'] ++ lowerHex c.toNat 4
  else ['\\', 'U'] ++ lowerHex c.toNat 8

/-- The characters `strconv.Quote` writes between its double quotes (used in lines 632 and 785). -/
def goQuoteBody (printable : Char → Bool) (text : Text) : Text := text.flatMap (goEscape printable)

/-! ## Comparisons -/

/-- Expressions after `ast.SkipParentheses`, as far as the rule looks into them: numeric literals, `-e`, `l - r`,
string literals, `obj.length`, variables whose declaration has an initialiser, anything else.  Simplification: parentheses around the
right operand of a `lastIndexOf` comparison, which hide it from the rule, are not represented. -/
inductive Expr
  | number (n : Nat)
  | neg (e : Expr)
  | sub (l r : Expr)
  | str (units : List Nat)
  | length (obj : Expr)
  | var (name : Nat) (init : Expr)
  | other (id : Nat)
deriving DecidableEq, Repr

/-- `staticNumber`, lines 160-181.  Simplification: literals are natural numbers (a fraction equals no length, 0 or 1). -/
def staticNumber : Expr → Option Int
  | .number n => some n
  | .neg e => (staticNumber e).map (- ·)
  | _ => none

/-- `staticString`, lines 184-207: literals and variables, through their initialisers. -/
def staticString : Expr → Option (List Nat)
  | .str t => some t
  | .var _ i => staticString i
  | _ => none

/-- `isCharacter`, lines 209-215. -/
def isCharacter (e : Expr) : Bool := match staticString e with
  | some t => t.length == 1
  | none => false

variable (same : Expr → Expr → Bool)

/-- `isLengthExpression`, lines 243-266; `same`: `isSameTokens`, equality of the source texts without white space (lines 50-63). -/
def isLengthExpression (node expected : Expr) : Bool :=
  (match node with | .length obj => same obj expected | _ => false) ||
  (match staticNumber node, staticString expected with
    | some n, some t => n == t.length
    | _, _ => false)

/-- `isLengthAheadOfEnd`, lines 268-287. -/
def isLengthAheadOfEnd (node substring parent : Expr) : Bool :=
  match node with
  | .neg e => isLengthExpression same e substring
  | .sub l r => isLengthExpression same l parent && isLengthExpression same r substring
  | _ => false

/-- `isLastIndexExpression`, lines 289-301. -/
def isLastIndexExpression (node expected : Expr) : Bool :=
  match node with
  | .sub l r => isLengthExpression same l expected && staticNumber r == some 1
  | _ => false

/-- `normalizedNodeText`, lines 50-59: a source text without white space (`unicode.IsSpace`). -/
def normalized (isSpace : Char → Bool) (text : Text) : Text := text.filter fun c => !isSpace c

/-- Equality operators: `==`/`!=` are loose. -/
structure Op where
  negative : Bool
  loose : Bool
deriving DecidableEq, Repr

/-- The left operand of a comparison, `handleBinary`, lines 708-727: what is done with a string-typed object. -/
inductive Left
  | index (obj i : Expr)
  | charAt (obj : Expr) (args : List Expr)
  | indexOf (obj : Expr) (args : List Expr)
  | lastIndexOf (obj : Expr) (args : List Expr)
  | slice (obj : Expr) (args : List Expr)
  | substring (obj : Expr) (args : List Expr)
deriving DecidableEq, Repr

/-- `getPropertyName`-independent part of a report: which method, and the argument of the replacement call if there is a fix. -/
structure Report where
  starts : Bool
  fix : Option Expr
deriving DecidableEq, Repr

/-- `reportStringIndexOrCharAt`, lines 496-537; `allow`: allowSingleElementEquality is "always". -/
def reportIndex (allow : Bool) (obj i right : Expr) : Option Report :=
  let isEndsWith := isLastIndexExpression same i obj
  let startsAtZero := !isEndsWith && staticNumber i == some 0
  if allow && isEndsWith then none
  else if allow && startsAtZero then none
  else if !startsAtZero && !isEndsWith then none
  else some ⟨startsAtZero, if isCharacter right then some right else none⟩

/-- Case "slice", "substring", lines 644-665: start or end. -/
def sliceVerdict (obj : Expr) (args : List Expr) (right : Expr) : Option Bool :=
  match args with
  | [a] => if isLengthAheadOfEnd same a right obj then some false else none
  | [a, b] =>
    if staticNumber a == some 0 && isLengthExpression same b right then some true
    else if (isLengthExpression same b obj || staticNumber b == some 0) && isLengthAheadOfEnd same a right obj then some false
    else none
  | _ => none

def Expr.isLiteral : Expr → Bool
  | .str _ => true
  | _ => false

/-- Lines 686-696: the first argument is where a text of the right length at the end begins. -/
def validStart (isSlice : Bool) (obj right : Expr) : Expr → Bool
  | .sub l r => isLengthExpression same l obj && isLengthExpression same r right
  | .neg e => isSlice && isLengthExpression same e right
  | _ => false

/-- The conditions under which the case has a fix, lines 674-700. -/
def sliceFixable (isSlice : Bool) (op : Op) (obj : Expr) (args : List Expr) (right : Expr) (starts : Bool) : Bool :=
  if op.loose && !right.isLiteral then false
  else if starts then match args with | [_, b] => isLengthExpression same b right | _ => false
  else match args with
    | a :: _ => validStart same isSlice obj right a
    | [] => false

/-- Case "slice", "substring", lines 638-705. -/
def reportSlice (isSlice : Bool) (op : Op) (obj : Expr) (args : List Expr) (right : Expr) : Option Report :=
  match sliceVerdict same obj args right with
  | none => none
  | some starts => some ⟨starts, if sliceFixable same isSlice op obj args right starts then some right else none⟩

/-- `handleBinaryCallExpression` without "match" and `handleBinary`, lines 539-727.  `isString`: `isStringType`. -/
def check (allow : Bool) (isString : Expr → Bool) (op : Op) (left : Left) (right : Expr) : Option Report :=
  match left with
  | .index obj i => if isString obj then reportIndex same allow obj i right else none
  | .charAt obj [i] => if isString obj then reportIndex same allow obj i right else none
  | .indexOf obj [x] => if staticNumber right == some 0 && isString obj then some ⟨true, some x⟩ else none
  | .lastIndexOf obj [x] => match right with
    | .sub l r => if isString obj && isLengthExpression same l obj && isLengthExpression same r x then some ⟨false, some x⟩ else none
    | _ => none
  | .slice obj args => if isString obj then reportSlice same true op obj args right else none
  | .substring obj args => if isString obj then reportSlice same false op obj args right else none
  | _ => none

/-- `getNullishKind`, lines 218-241. -/
inductive Nullish
  | unknown
  | null
  | undefined
deriving DecidableEq, Repr

/-- Case "match", lines 593-634: the parsed pattern and whether a `!` is inserted.  `parsed`: the outcome of `parseRegExp`. -/
def checkMatch (isString : Bool) (op : Op) (right : Nullish) (parsed : Option Parsed) : Option (Parsed × Bool) :=
  if !isString || right == .unknown then none
  else if !op.loose && right != .null then none
  else parsed.map fun p => (p, !op.negative)

/-! ## Edits.  Positions are given by the scanner. -/

open Fixer (Fix ascii Bytes)

/-- `memberOptionalOperator`, lines 107-112, and the method name. -/
def methodText (optional starts : Bool) : Bytes :=
  (if optional then ascii "?." else ascii ".") ++ (if starts then ascii "starts" else ascii "ends") ++ ascii "With"

def bang (negative : Bool) (bin : Nat) : List Fix := if negative then [⟨ascii "!", bin, bin⟩] else []

/-- `fixWithRightOperand`, lines 460-476.  `bin`, `binEnd`: the comparison; `prop`: the token after the object; `right`, `rightEnd`:
the right operand without parentheses. -/
def fixWithRightOperand (negative optional starts : Bool) (bin prop right rightEnd binEnd : Nat) : List Fix :=
  bang negative bin ++ [⟨methodText optional starts ++ ascii "(", prop, right⟩, ⟨ascii ")", rightEnd, binEnd⟩]

/-- `fixWithArgument`, lines 478-494.  `prop`, `propEnd`: from the token after the object to the end of the member expression;
`callEnd`: the end of the call. -/
def fixWithArgument (negative optional starts : Bool) (bin prop propEnd callEnd binEnd : Nat) : List Fix :=
  bang negative bin ++ [⟨methodText optional starts, prop, propEnd⟩, ⟨[], callEnd, binEnd⟩]

/-- The fix of case "match", lines 618-636; `quoted`: `strconv.Quote` of the parsed text. -/
def fixMatch (insertBang optional starts : Bool) (quoted : Bytes) (bin prop propEnd arg argEnd callEnd binEnd : Nat) : List Fix :=
  bang insertBang bin ++ [⟨methodText optional starts, prop, propEnd⟩, ⟨quoted, arg, argEnd⟩, ⟨[], callEnd, binEnd⟩]

/-- The fix of `handleRegexTestCall`, lines 764-788. -/
def fixTest (needsParen optional starts : Bool) (quoted : Bytes) (call arg argEnd : Nat) : List Fix :=
  [⟨[], call, arg⟩] ++ (if needsParen then [⟨ascii "(", arg, arg⟩, ⟨ascii ")", argEnd, argEnd⟩] else [])
    ++ [⟨methodText optional starts ++ ascii "(" ++ quoted, argEnd, argEnd⟩]

end Tsgolint.StartsEnds
