import Verif.Model.Template
import Verif.Spec.StringLiteral
import Verif.Spec.Fixer
/-!
# What template and string texts denote

From ECMA-262 §12.9.4 (String Literals) and §12.9.6 (Template Literal Lexical Components), as relations that follow the grammar.  The
values are sequences of UTF-16 code units.
-/
namespace Tsgolint.Template
open Tsgolint.StringLiteral (utf16 hexValue)

/-- A code unit, or the value of a substitution. -/
inductive Val
  | unit (n : Nat)
  | hole (id : Nat)
deriving DecidableEq

def units (ns : List Nat) : List Val := ns.map .unit

/-- UTF16EncodeCodePoint of a number. -/
def utf16Code (n : Nat) : List Nat := if n < 0x10000 then [n] else [0xD800 + (n - 0x10000) / 0x400, 0xDC00 + (n - 0x10000) % 0x400]

/-- MV of HexDigits. -/
def hexNumber : Nat → Text → Option Nat
  | acc, [] => some acc
  | acc, c :: s => match hexValue c with
    | some v => hexNumber (16 * acc + v) s
    | none => none

def isDigit (c : Char) : Bool := '0' ≤ c && c ≤ '9'

/-- EscapeSequence and LineContinuation, what follows the backslash, but for `\0` and a backslash before a carriage return, which look
at the next character. -/
inductive Esc : Text → List Nat → Prop
  | single {c n} : (c, n) ∈ [('b', 8), ('t', 9), ('n', 10), ('v', 11), ('f', 12), ('r', 13)] → Esc [c] [n]
  | hex {a b x} : hexNumber 0 [a, b] = some x → Esc ['x', a, b] [x]
  | unicode {a b c d x} : hexNumber 0 [a, b, c, d] = some x → Esc ['u', a, b, c, d] [x]
  | codePoint {ds x} : ds ≠ [] → hexNumber 0 ds = some x → x ≤ 0x10FFFF → Esc ('u' :: '{' :: (ds ++ ['}'])) (utf16Code x)
  /-- NonEscapeCharacter, and `\\`, `\'`, `\"` -/
  | char {c} : c ∉ ['b', 't', 'n', 'v', 'f', 'r', 'x', 'u', '\n', '\r', '\u2028', '\u2029'] → isDigit c = false → Esc [c] (utf16 c)
  | newline {c} : c ∈ ['\n', '\u2028', '\u2029'] → Esc [c] []
  | crlf : Esc ['\r', '\n'] []

/-- Where a text stands: in a template, or in a string literal with a given quote. -/
inductive Place
  | template
  | str (quote : Char)

/-- Characters that stand for themselves wherever they are. -/
def Plain : Place → Char → Prop
  | .template, c => c ∉ ['`', '\\', '$', '\r']
  | .str q, c => c ≠ q ∧ c ∉ ['\\', '\n', '\r']

/-- The text begins with this character. -/
def Begins {H : Type} (p : Char → Prop) (s : List (Sym H)) : Prop := ∃ c t, s = .ch c :: t ∧ p c

/-- A text denotes a value; `ev` says what substitutions evaluate to. -/
inductive Reads {H : Type} (ev : H → List Val → Prop) (p : Place) : List (Sym H) → List Val → Prop
  | nil : Reads ev p [] []
  | plain {c s v} : Plain p c → Reads ev p s v → Reads ev p (.ch c :: s) (units (utf16 c) ++ v)
  | esc {e u s v} : Esc e u → Reads ev p s v → Reads ev p (.ch '\\' :: (chars e ++ s)) (units u ++ v)
  | null {s v} : ¬ Begins (fun c => isDigit c = true) s → Reads ev p s v → Reads ev p (.ch '\\' :: .ch '0' :: s) (.unit 0 :: v)
  | carriage {s v} : ¬ Begins (· = '\n') s → Reads ev p s v → Reads ev p (.ch '\\' :: .ch '\r' :: s) v
  /-- `$ [lookahead ≠ {]` -/
  | dollar {s v} : p = .template → ¬ Begins (· = '{') s → Reads ev p s v → Reads ev p (.ch '$' :: s) (.unit 36 :: v)
  /-- line ends are normalised in templates -/
  | crlf {s v} : p = .template → Reads ev p s v → Reads ev p (.ch '\r' :: .ch '\n' :: s) (.unit 10 :: v)
  | cr {s v} : p = .template → ¬ Begins (· = '\n') s → Reads ev p s v → Reads ev p (.ch '\r' :: s) (.unit 10 :: v)
  | hole {h w s v} : p = .template → ev h w → Reads ev p s v → Reads ev p (.hole h :: s) (w ++ v)

/-- No substitutions. -/
def noHoles : Empty → List Val → Prop := fun e => e.elim

/-- A substitution that is left alone. -/
def leftAlone : Nat → List Val → Prop := fun h v => v = [.hole h]

/-- The string an interpolation evaluates to. -/
inductive Denotes : Interp → List Val → Prop
  | keep {h} : Denotes (.keep h) [.hole h]
  | word {w} : Denotes (.word w) (units (w.flatMap utf16))
  | str {q raw v} : Reads noHoles (.str q) (chars raw) v → Denotes (.literal (.str q raw)) v
  | template {raw v} : Reads noHoles .template (chars raw) v → Denotes (.literal (.template raw)) v
  | number {t} : Denotes (.literal (.number t)) (units (t.flatMap utf16))
  | regex {t} : Denotes (.literal (.regex t)) (units (t.flatMap utf16))
  | nested {head spans v} : Reads leftAlone .template (nestedText id head spans) v → Denotes (.nested head spans) v

/-- The text of a template after some fixes: `fixes` has an entry for each span, `none` if no fix is applied to it. -/
def render (raw : Text) : List Span → List (Option Fixed) → List (Sym Interp)
  | [], _ => chars raw
  | sp :: rest, fixes => match fixes.head?.join with
    | some f => chars (if f.escapePrev then raw.dropLast ++ ['\\', '$'] else raw) ++ f.content ++ render sp.raw rest fixes.tail
    | none => chars raw ++ .hole sp.expr :: render sp.raw rest fixes.tail

/-- A choice of fixes to apply. -/
def Chosen (fixes all : List (Option Fixed)) : Prop :=
  fixes.length = all.length ∧ ∀ (i : Nat) f, fixes[i]? = some (some f) → all[i]? = some (some f)

/-- The text of a template without fixes. -/
def original (raw : Text) (spans : List Span) : List (Sym Interp) := render raw spans []

/-- What the scanner guarantees about the texts of interpolations: words are letters, numbers have no special characters, regular
expressions are on one line. -/
def WellFormed : Interp → Prop
  | .word w => w ≠ [] ∧ ∀ c ∈ w, c.isAlpha = true
  | .literal (.number t) => t ≠ [] ∧ ∀ c ∈ t, c.isAlphanum = true ∨ c ∈ ['.', '+', '-']
  | .literal (.regex t) => ∀ c ∈ t, c ∉ ['\r', '\n']
  | _ => True

/-- The text ends neither in `\0` nor in a carriage return: what it denotes does not depend on what follows. -/
def Closed (t : Text) : Prop := ¬ ['\\', '0'] <:+ t ∧ ¬ ['\r'] <:+ t

/-- The text a literal or nested template ends in is closed. -/
def ClosedInterp : Interp → Prop
  | .literal l => Closed (literalText l)
  | .nested head spans => Closed (lastRaw head spans)
  | _ => True

/-- What a span must be like for its fix to be safe. -/
structure SpanOK (sp : Span) : Prop where
  wf : WellFormed sp.expr
  interp : ClosedInterp sp.expr
  raw : Closed sp.raw

end Tsgolint.Template
