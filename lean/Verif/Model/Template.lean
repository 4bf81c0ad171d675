import Verif.Model.Fixer
/-!
# Model of no-unnecessary-template-expression (/repo/internal/rules/no_unnecessary_template_expression/no_unnecessary_template_expression.go)

Texts are lists of characters; the Go code works on bytes, but all bytes it looks at are ASCII and so never part of another character.
A template is its head text followed by spans: an interpolation and the text after it.
-/
namespace Tsgolint.Template
open Tsgolint.Fixer (Fix Bytes)

abbrev Text := List Char

/-- Number of backslashes at the end of a text given in reverse; the loops of :68-70 and :79-81. -/
def backslashes (before : Text) : Nat := (before.takeWhile (· = '\\')).length

/-- :62-72 `endsWithUnescapedDollarSign` -/
def endsWithUnescapedDollarSign (str : Text) : Bool :=
  match str.reverse with
  | c :: before => c = '$' && backslashes before % 2 == 0
  | [] => false

/-- :76-88 the loop of `escapeTemplateRawText`; `before` is the part of the text already read, in reverse -/
def escapeGo (before : Text) : Text → Text
  | [] => []
  | c :: rest =>
    let needsEscape := c = '`' || (c = '$' && rest.head? = some '{')
    (if needsEscape && backslashes before % 2 == 0 then ['\\'] else []) ++ c :: escapeGo (c :: before) rest

/-- :74-90 `escapeTemplateRawText` -/
def escapeTemplateRawText (text : Text) : Text := escapeGo [] text

/-- A literal in an interpolation. -/
inductive Literal
  /-- a string literal with its quote and the text between the quotes -/
  | str (quote : Char) (raw : Text)
  /-- a template without substitutions -/
  | template (raw : Text)
  /-- a number or bigint with its canonical text (`jsnum`, :92-99) -/
  | number (canonical : Text)
  /-- a regular expression -/
  | regex (text : Text)

/-- :192-207; `strings.ReplaceAll(text, "\\", "\\\\")` for a regular expression -/
def literalText : Literal → Text
  | .str _ raw => raw
  | .template raw => raw
  | .number t => t
  | .regex t => t.flatMap fun c => if c = '\\' then ['\\', '\\'] else [c]

/-- :189-214 `buildLiteralReplacementText`, the text -/
def replacementText (l : Literal) (nextIsBrace : Bool) : Text :=
  let text := escapeTemplateRawText (literalText l)
  if nextIsBrace && endsWithUnescapedDollarSign text then text.dropLast ++ ['\\', '$'] else text

/-- An interpolation, as the rule classifies it. -/
inductive Interp
  /-- `isUnnecessaryValueInterpolation` says no (:134-160); the number stands for the expression -/
  | keep (id : Nat)
  /-- `true`, `null`, `undefined`, … (:29-39) -/
  | word (text : Text)
  | literal (l : Literal)
  /-- a template with substitutions: its head text and its spans -/
  | nested (head : Text) (spans : List (Nat × Text))

structure Span where
  expr : Interp
  raw : Text

/-- The text of a template: characters, and substitutions taken as one symbol each (`H` says what is in them). -/
inductive Sym (H : Type)
  | ch (c : Char)
  | hole (h : H)

def chars {H : Type} (t : Text) : List (Sym H) := t.map .ch

/-- The text between the backticks of a template with substitutions. -/
def nestedText {H : Type} (f : Nat → H) : Text → List (Nat × Text) → List (Sym H)
  | raw, [] => chars raw
  | raw, (h, r) :: rest => chars raw ++ .hole (f h) :: nestedText f r rest

/-- The text after the last substitution. -/
def lastRaw : Text → List (Nat × Text) → Text
  | raw, [] => raw
  | _, (_, r) :: rest => lastRaw r rest

/-- Inserting a backslash before the last character of the text after the last substitution (:273-275). -/
def nestedEscaped {H : Type} (f : Nat → H) : Text → List (Nat × Text) → List (Sym H)
  | raw, [] => chars (raw.dropLast ++ '\\' :: raw.drop (raw.length - 1))
  | raw, (h, r) :: rest => chars raw ++ .hole (f h) :: nestedEscaped f r rest

/-- What one report's fix does: the text it puts in place of the interpolation, and whether it escapes the dollar sign before it. -/
structure Fixed where
  content : List (Sym Interp)
  escapePrev : Bool

/-- `strings.HasPrefix(s, "{")` -/
def startsWithBrace (s : Text) : Bool := s.head? = some '{'

/-- :227-312 `checkTemplateSpans`, the spans from the last to the first: the value of `nextCharacterIsOpeningCurlyBrace` and, for each
span, the fix if it is reported.  `prevRaw` is the text before the first of the spans. -/
def checkSpans (prevRaw : Text) : List Span → Bool × List (Option Fixed)
  | [] => (false, [])
  | sp :: rest =>
    let (next, fixes) := checkSpans sp.raw rest
    -- :256-259
    let next' := if sp.raw ≠ [] then startsWithBrace sp.raw else next
    match sp.expr with
    | .keep _ => (next, none :: fixes)
    | .literal l =>
      -- :267-272
      let text := replacementText l next'
      let next'' := if text ≠ [] then startsWithBrace text else next'
      (next'', some ⟨chars text, next'' && endsWithUnescapedDollarSign prevRaw⟩ :: fixes)
    | .nested head spans =>
      -- :273-287
      let content := if next' && endsWithUnescapedDollarSign (lastRaw head spans) then nestedEscaped .keep head spans else nestedText .keep head spans
      let next'' := if head ≠ [] then startsWithBrace head else next'
      (next'', some ⟨content, next'' && endsWithUnescapedDollarSign prevRaw⟩ :: fixes)
    | .word w => (false, some ⟨chars w, false⟩ :: fixes)

/-! ## Edits (:262-265, :272, :273-287, :301-303) -/

/-- Where the parts of an interpolation are. -/
structure Site where
  /-- end of the previous quasi, after `${` -/
  prevQuasiEnd : Nat
  exprPos : Nat
  exprEnd : Nat
  /-- start of the next quasi, at `}` -/
  literalPos : Nat

/-- The fixes for a literal or a word (`replacement = none`). -/
def literalFixes (s : Site) (replacement : Option Bytes) (escapePrev : Bool) : List Fix :=
  [⟨[], (s.prevQuasiEnd : Int) - 2, s.exprPos⟩, ⟨[], s.exprEnd, (s.literalPos : Int) + 1⟩] ++
  (match replacement with
    | some r => [⟨r, s.exprPos, s.exprEnd⟩]
    | none => []) ++
  (if escapePrev then [⟨[92, 36], (s.prevQuasiEnd : Int) - 3, (s.prevQuasiEnd : Int) - 2⟩] else [])

/-- The fixes for a nested template. -/
def nestedFixes (s : Site) (escapeLast escapePrev : Bool) : List Fix :=
  [⟨[], (s.prevQuasiEnd : Int) - 2, s.exprPos⟩, ⟨[], s.exprEnd, (s.literalPos : Int) + 1⟩] ++
  (if escapeLast then [⟨[92], (s.exprEnd : Int) - 2, (s.exprEnd : Int) - 2⟩] else []) ++
  [⟨[], s.exprPos, (s.exprPos : Int) + 1⟩, ⟨[], (s.exprEnd : Int) - 1, s.exprEnd⟩] ++
  (if escapePrev then [⟨[92, 36], (s.prevQuasiEnd : Int) - 3, (s.prevQuasiEnd : Int) - 2⟩] else [])

/-! ## Which interpolations are unnecessary -/

/-- What `isUnnecessaryValueInterpolation` looks at. -/
structure ExprInfo where
  /-- comments between the previous quasi and the next one (:135-137) -/
  hasComments : Bool
  isFixableIdentifier : Bool
  /-- a string literal or template without substitutions, with its value -/
  stringValue : Option Text
  /-- another literal, boolean, null or template expression -/
  isOtherLiteral : Bool

/-- :41-43 -/
def startsWithNewline (s : Text) : Bool := ['\n'].isPrefixOf s || ['\r', '\n'].isPrefixOf s

/-- :134-160 `isUnnecessaryValueInterpolation`; `isSpace` is `utils.IsStrWhiteSpace`, `raw` the text after the interpolation -/
def isUnnecessary (isSpace : Char → Bool) (e : ExprInfo) (raw : Text) : Bool :=
  if e.hasComments then false
  else if e.isFixableIdentifier then true
  else match e.stringValue with
    | some v => !startsWithNewline raw || !v.all isSpace
    | none => e.isOtherLiteral

end Tsgolint.Template
