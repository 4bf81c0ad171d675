import Verif.Model.Fixer
/-!
# Model of prefer-includes (/repo/internal/rules/prefer_includes/prefer_includes.go)

Texts are sequences of code points (Go's `range` over valid UTF-8).  Symbols, types and positions are given by the compiler.
-/
namespace Tsgolint.Includes
open Fixer (Fix Bytes ascii)

abbrev Text := List Char

/-- `escapeString`, lines 35-37. -/
def escapeString (s : Text) : Text := s.flatMap fun c => if c = '\'' then ['\\', '\''] else [c]

/-- Unescaped characters that make a pattern special, line 48. -/
def special (c : Char) : Bool := ['.', '*', '+', '?', '|', '^', '$', '[', ']', '(', ')', '{', '}'].contains c

/-- Escapes that make a pattern special, line 54. -/
def specialEscape (c : Char) : Bool := ['d', 'D', 'w', 'W', 's', 'S', 'b', 'B', 'c', 'x', 'u'].contains c

/-- The loop of `isSimpleLiteralPattern`, lines 43-60; the first argument is `prevRune`. -/
def simpleFrom : Char → Text → Bool
  | _, [] => true
  | prev, ch :: rest =>
    if prev ≠ '\\' then if special ch then false else simpleFrom ch rest
    else if specialEscape ch then false else simpleFrom ch rest

/-- `isSimpleLiteralPattern`, lines 42-62. -/
def isSimpleLiteralPattern (pattern : Text) : Bool := simpleFrom (Char.ofNat 0) pattern

/-- The last slash of a text, at a position from `i` down to 1, lines 80-86. -/
def lastSlash (text : Text) : Nat → Option Nat
  | 0 => none
  | i + 1 => if text[i + 1]? = some '/' then some (i + 1) else lastSlash text i

/-- `extractRegexLiteralPattern`, lines 65-108; `compiles`: the pattern is accepted by regexp2.  (`none` for the empty string.) -/
def extractRegexLiteralPattern (compiles : Text → Bool) (text : Text) : Option Text :=
  if text.length < 3 ∨ text.head? ≠ some '/' then none
  else match lastSlash text (text.length - 1) with
    | none => none
    | some i =>
      let pattern := (text.take i).drop 1
      let flags := text.drop (i + 1)
      if flags ≠ [] then none
      else if !compiles pattern then none
      else if !isSimpleLiteralPattern pattern then none
      else if pattern = [] then none
      else some pattern

/-- `extractRegExpConstructorPattern` for `new RegExp('…', …)`, lines 111-145: further arguments are not looked at. -/
def extractRegExpConstructorPattern (compiles : Text → Bool) (pattern : Text) : Option Text :=
  if !compiles pattern then none
  else if !isSimpleLiteralPattern pattern then none
  else if pattern = [] then none
  else some pattern

/-- What a regular expression is resolved to, lines 147-192: a literal, a variable initialised with a literal or a constructor call
(written directly the latter is not considered), or something else.  The flags of a constructor call are in the syntax, but unused. -/
inductive RegexNode
  | literal (text : Text)
  | variableLiteral (text : Text)
  | variableConstructor (pattern flags : Text)
  | other

/-- `resolveRegexPattern`. -/
def resolve (compiles : Text → Bool) : RegexNode → Option Text
  | .literal t => extractRegexLiteralPattern compiles t
  | .variableLiteral t => extractRegexLiteralPattern compiles t
  | .variableConstructor p _ => extractRegExpConstructorPattern compiles p
  | .other => none

/-- Comparison operators. -/
inductive Op
  | eqeq | eq | neeq | ne | lt | le | gt | ge | other
deriving DecidableEq, Repr

/-- `isPositiveCheck`, lines 296-307; `right`: the number literal (possibly with a minus sign) on the right, `isNumberLiteral` in lines
274-292. -/
def isPositiveCheck (op : Op) (right : Option Int) : Bool := match op with
  | .neeq | .ne | .gt => right == some (-1)
  | .ge => right == some 0
  | _ => false

/-- `isNegativeCheck`, lines 311-322. -/
def isNegativeCheck (op : Op) (right : Option Int) : Bool := match op with
  | .eqeq | .eq | .le => right == some (-1)
  | .lt => right == some 0
  | _ => false

/-- A declaration of `indexOf`: the texts of its parameters, and those of the declarations of `includes` on the type it belongs to
(`none`: no such method or no such type). -/
structure Declaration where
  params : List Text
  includes : Option (List (List Text))

/-- `hasSameParameters`, lines 194-225: as many, and the same texts. -/
def hasSameParameters : List Text → List Text → Bool
  | [], [] => true
  | a :: as, b :: bs => if a ≠ b then false else hasSameParameters as bs
  | _, _ => false

/-- `indexOfHasCompatibleIncludes`, lines 230-270. -/
def compatible (decls : List Declaration) : Bool :=
  let rec loop : List Declaration → Bool
    | [] => true
    | d :: rest => match d.includes with
      | none => false
      | some ds => if ds.any (hasSameParameters d.params) then loop rest else false
  if decls.isEmpty then false else loop decls

/-- The listener for comparisons, lines 415-479: whether `indexOf(…) op right` is reported, and if so whether it is negated.
`declarations`: those of the symbol called, `none` if there is no symbol. -/
def check (op : Op) (right : Option Int) (declarations : Option (List Declaration)) : Option Bool :=
  if !isPositiveCheck op right && !isNegativeCheck op right then none
  else match declarations with
    | none => none
    | some ds => if compatible ds then some (isNegativeCheck op right) else none

/-- The edits of a comparison, lines 458-477. -/
def fixCompare (negative : Bool) (call name nameEnd callEnd binEnd : Nat) : List Fix :=
  [⟨ascii "includes", name, nameEnd⟩, ⟨[], callEnd, binEnd⟩] ++ (if negative then [⟨ascii "!", call, call⟩] else [])

/-- The edits of a `test` call, lines 383-411; `argPos`: where the argument begins, including white space before it; `quoted`: the
escaped pattern. -/
def fixTest (needsParens : Bool) (quoted : Bytes) (call argPos argEnd callEnd : Nat) : List Fix :=
  [⟨[], call, argPos⟩, ⟨[], argEnd, callEnd⟩]
    ++ (if needsParens then [⟨ascii "(", argPos, argPos⟩, ⟨ascii ")", argEnd, argEnd⟩] else [])
    ++ [⟨ascii ".includes('" ++ quoted ++ ascii "')", argEnd, argEnd⟩]

end Tsgolint.Includes
