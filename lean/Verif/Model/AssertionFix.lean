import Verif.Model.Fixer
/-!
# Model of the fixes of no-unnecessary-type-assertion
(/repo/internal/rules/no_unnecessary_type_assertion/no_unnecessary_type_assertion.go)

Positions of nodes and tokens come from the compiler's parser and scanner.  They lie within the text (positions are natural numbers, and reading a byte
beyond the end, where Go panics, ends the loops here).
-/
namespace Tsgolint.AssertionFix
open Fixer (Bytes Fix ascii)

/-- `unicode.Is(unicode.Zs, r)` -/
def isSpaceSeparator (r : Nat) : Bool :=
  r == 0x20 || r == 0xA0 || r == 0x1680 || (decide (0x2000 ≤ r) && decide (r ≤ 0x200A)) || r == 0x202F || r == 0x205F || r == 0x3000

/-- /repo/internal/utils/utils.go:168-185 `IsStrWhiteSpace` -/
def isStrWhiteSpace (r : Nat) : Bool :=
  [0x0A, 0x0D, 0x2028, 0x2029].contains r || [0x09, 0x0B, 0x0C, 0xFEFF].contains r || isSpaceSeparator r

/-- /repo/internal/utils/utils.go:187-194 `IsStringWhiteSpace`; `decode` is Go's decoding of UTF-8 into runes -/
def isStringWhiteSpace (decode : Bytes → List Nat) (s : Bytes) : Bool := (decode s).all isStrWhiteSpace

structure Span where
  pos : Nat
  stop : Nat
  deriving DecidableEq

/-- `text[pos:stop]` -/
def slice (code : Bytes) (pos stop : Nat) : Bytes := (code.drop pos).take (stop - pos)

/-- `utils.IsStrWhiteSpace(rune(text[p]))`: of a byte -/
def spaceAt (code : Bytes) (p : Nat) : Bool := (code[p]?).any fun b => isStrWhiteSpace b.toNat

/-- Lines 528-538: the position of the keyword is moved back over white space. -/
def back (code : Bytes) (expressionEnd : Nat) : Nat → Nat
  | 0 => 0
  | p + 1 => if p < expressionEnd then p + 1 else if !spaceAt code p then p + 1 else back code expressionEnd p

/-- Positions in `expression as Type` -/
structure As where
  expressionEnd : Nat
  /-- the token after the expression -/
  keyword : Span
  /-- of the type without what comes before it -/
  typeStart : Nat
  typeEnd : Nat

/-- Lines 520-556 `buildAssertionFixes` of `as`; `RuleFixRemove` removes a node without the white space and comments before it. -/
def asFixes (decode : Bytes → List Nat) (code : Bytes) (a : As) : List Fix :=
  let start := back code a.expressionEnd a.keyword.pos
  if a.keyword.stop > a.typeStart then [⟨[], a.expressionEnd, a.typeEnd⟩]
  else if !isStringWhiteSpace decode (slice code a.keyword.stop a.typeStart) then [⟨[], start, a.keyword.stop⟩, ⟨[], a.typeStart, a.typeEnd⟩]
  else [⟨[], start, a.typeEnd⟩]

/-- Positions in `<Type>expression` -/
structure Angle where
  /-- the first token of the node -/
  opening : Span
  /-- the token after the type -/
  closing : Span

/-- Lines 559-564, 622-637 -/
def angleFixes (a : Angle) : List Fix := [⟨[], a.opening.pos, a.closing.stop⟩]

/-- `strings.LastIndex` -/
def lastIndex (s pattern : Bytes) : Option Nat := (List.range (s.length + 1)).reverse.find? fun k => pattern.isPrefixOf (s.drop k)

/-- Lines 585-587: how many bytes of white space come next -/
def leadingSpaces : Bytes → Nat
  | [] => 0
  | b :: rest => if isStrWhiteSpace b.toNat then leadingSpaces rest + 1 else 0

/-- Lines 572-589: the last `/** … */` in front of the operand, and where the white space after it ends.
`nodePos` and `expressionPos` include the white space and comments before the nodes; `parenPos`: of the parentheses directly around the assertion. -/
def docComment (code : Bytes) (typePos nodePos : Nat) (parenPos : Option Nat) (expressionPos : Nat) : Option (Span × Nat) :=
  if typePos < expressionPos then
    let searchStart := parenPos.getD nodePos
    let before := slice code searchStart expressionPos
    match lastIndex before (ascii "/**"), lastIndex before (ascii "*/") with
    | some s, some e =>
      if e ≥ s then
        let commentEnd := searchStart + e + 2
        some (⟨searchStart + s, commentEnd⟩, commentEnd + leadingSpaces (slice code commentEnd expressionPos))
      else none
    | _, _ => none
  else none

/-- An assertion, by its syntax -/
inductive Form
  | as (a : As)
  | angle (a : Angle)

/-- What is reported for an unnecessary assertion: where, and how it is fixed. -/
structure Report where
  range : Span
  fixes : List Fix

/-- Lines 567-639 `reportUnnecessaryTypeAssertion`.  The labels (the operand, and the range again) are not part of this. -/
def report (decode : Bytes → List Nat) (code : Bytes) (typePos nodePos : Nat) (parenPos : Option Nat) (expressionPos : Nat) (form : Form) : Report :=
  match docComment code typePos nodePos parenPos expressionPos with
  | some (comment, fixEnd) => ⟨comment, [⟨[], comment.pos, fixEnd⟩]⟩
  | none => match form with
    | .as a => ⟨⟨a.keyword.pos, a.typeEnd⟩, asFixes decode code a⟩
    | .angle a => ⟨⟨a.opening.pos, a.closing.stop⟩, angleFixes a⟩

/-- Lines 1135-1138, 520-565: for a contextually unnecessary assertion -/
def contextualFixes (decode : Bytes → List Nat) (code : Bytes) : Form → List Fix
  | .as a => asFixes decode code a
  | .angle a => angleFixes a

/-- Lines 1058-1068: several assertions in a row are replaced by the text of the innermost operand; `node` and `original` are the places of the two,
without white space and comments before them. `object`: it is an object literal; `arrowBody`: the assertion is the body of an arrow function. -/
def doubleFixes (code : Bytes) (node original : Span) (object arrowBody : Bool) : List Fix :=
  let text := slice code original.pos original.stop
  [⟨if object && arrowBody then ascii "(" ++ text ++ ascii ")" else text, node.pos, node.stop⟩]

/-- Lines 1151-1158: `!` is removed. -/
def bangFixes (exclamation : Span) : List Fix := [⟨[], exclamation.pos, exclamation.stop⟩]

end Tsgolint.AssertionFix
