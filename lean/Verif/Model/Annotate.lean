import Verif.Model.Fixer
/-!
# Model of the source annotations of snapshots (/repo/internal/rule_tester/snapshot.go, lines 268-466)

Lines and columns of positions are the scanner's (`position`).
-/
namespace Tsgolint.Annotate
open Fixer (Bytes ascii)

/-- `strings.Split(code, "\n")`, line 276. -/
def splitLines : Bytes → List Bytes
  | [] => [[]]
  | c :: cs => if c = 10 then [] :: splitLines cs else match splitLines cs with
    | [] => [[c]]
    | l :: ls => (c :: l) :: ls

/-- Line 284: space, tab, line feed or carriage return. -/
def blank (c : UInt8) : Bool := c == 32 || c == 9 || c == 10 || c == 13

/-- Loop of lines 282-289 (and 392-399, 434-441): blanks at the start of the range are skipped; `fuel` bounds the number of steps. -/
def skipBlank (code : Bytes) : Nat → Nat → Nat → Nat
  | 0, start, _ => start
  | fuel + 1, start, stop =>
    if start < stop then match code[start]? with
      | some c => if blank c then skipBlank code fuel (start + 1) stop else start
      | none => start
    else start

/-- Lines 280-289: the range without leading blanks. -/
def trimmed (code : Bytes) (start stop : Nat) : Nat := skipBlank code (stop - start) start stop

/-- Lines 358-368 `adjustForTabs` -/
def adjustForTabs : Bytes → Nat → Nat
  | _, 0 => 0
  | [], _ + 1 => 0
  | c :: cs, n + 1 => (if c = 9 then 4 else 1) + adjustForTabs cs n

/-- Line 310: tabs are shown as four spaces. -/
def expand (line : Bytes) : Bytes := line.flatMap fun c => if c = 9 then [32, 32, 32, 32] else [c]

/-- `strings.TrimRight(s, " ")`, line 343. -/
def trimRight (s : Bytes) : Bytes := (s.reverse.dropWhile (· == 32)).reverse

/-- Lines 330-344: the underline from one column to another. -/
def marks (marker : UInt8) (a b : Nat) : Option Bytes :=
  if b ≤ a then none
  else if trimRight (List.replicate a 32 ++ List.replicate (b - a) marker) = [] then none
  else some (trimRight (List.replicate a 32 ++ List.replicate (b - a) marker))

/-- Lines and columns of the ends of the range. -/
structure Span where
  startLine : Nat
  startColumn : Nat
  endLine : Nat
  endColumn : Nat
deriving DecidableEq

/-- Lines 313-344: the underline of one line. -/
def underline (marker : UInt8) (s : Span) (line : Bytes) (index : Nat) : Option Bytes :=
  if index < s.startLine ∨ s.endLine < index then none
  else marks marker (adjustForTabs line (if index = s.startLine then s.startColumn else 0))
    (adjustForTabs line (if index = s.endLine then s.endColumn else line.length))

/-- A line as shown. -/
structure Row where
  number : Nat
  text : Bytes
  underline : Option Bytes
deriving DecidableEq

/-- Lines 291-292: positions of the ends of the range, without leading blanks. -/
def spanOf (code : Bytes) (position : Nat → Nat × Nat) (start stop : Nat) : Span :=
  ⟨(position (trimmed code start stop)).1, (position (trimmed code start stop)).2, (position stop).1, (position stop).2⟩

/-- Lines 305-352, from line `index` on, `n` lines. -/
def rowsFrom (marker : UInt8) (lines : List Bytes) (s : Span) : Nat → Nat → List Row
  | _, 0 => []
  | index, n + 1 => ⟨index + 1, expand (lines.getD index []), underline marker s (lines.getD index []) index⟩ :: rowsFrom marker lines s (index + 1) n

/-- Lines 295-299: the last line shown. -/
def lastLine (lines : List Bytes) (s : Span) : Nat := if lines.length ≤ s.endLine + 1 then lines.length - 1 else s.endLine + 1

/-- Lines 271-355 `renderSourceAnnotation`, the lines. -/
def rows (code : Bytes) (position : Nat → Nat × Nat) (marker : UInt8) (start stop : Nat) : List Row :=
  rowsFrom marker (splitLines code) (spanOf code position start stop) ((spanOf code position start stop).startLine - 1)
    (lastLine (splitLines code) (spanOf code position start stop) + 1 - ((spanOf code position start stop).startLine - 1))

/-- A number in decimal. -/
def decimal (n : Nat) : Bytes := (Nat.toDigits 10 n).map fun c => UInt8.ofNat c.toNat

/-- `%*d` and `%*s`: padded on the left. -/
def pad (width : Nat) (s : Bytes) : Bytes := List.replicate (width - s.length) 32 ++ s

/-- Lines 311 and 345-350: the text of one line. -/
def Row.print (gutter : Nat) (label : Bytes) (r : Row) : Bytes :=
  ascii "  " ++ pad gutter (decimal r.number) ++ ascii " | " ++ r.text ++ ascii "\n" ++
    match r.underline with
    | none => []
    | some u => ascii "  " ++ pad gutter [] ++ ascii " | " ++ u ++ (if label = [] then [] else ascii " " ++ label) ++ ascii "\n"

/-- Line 302: the width of line numbers. -/
def gutterWidth (last : Nat) : Nat := max (decimal (last + 1)).length 2

/-- Lines 271-355 `renderSourceAnnotation` -/
def render (code : Bytes) (position : Nat → Nat × Nat) (marker : UInt8) (label : Bytes) (start stop : Nat) : Bytes :=
  (rows code position marker start stop).flatMap (Row.print (gutterWidth (lastLine (splitLines code) (spanOf code position start stop))) label)

/-- Lines 400-408 (and 442-450): the first and the last position named in the heading, counted from 1. -/
def heading (code : Bytes) (position : Nat → Nat × Nat) (start stop : Nat) : Span :=
  let s := trimmed code start stop
  let e := if s < stop then stop - 1 else stop
  ⟨(position s).1 + 1, (position s).2 + 1, (position e).1 + 1, (position e).2 + 1⟩

end Tsgolint.Annotate
