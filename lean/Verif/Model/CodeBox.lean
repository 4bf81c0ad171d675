import Verif.Model.Fixer
/-!
# Model of the pretty printer of diagnostics (/repo/cmd/tsgolint/main.go:232-362 `printDiagnostic`)

A file is given by its bytes, by where its lines start, and by the runes that Go's `range` gives for a part of it.
-/
namespace Tsgolint.CodeBox

open Tsgolint.Fixer (Bytes goSlice)

/-- What the loop looks at in a rune: how many bytes it has, `unicode.IsSpace`, whether it is `'\n'` -/
structure Rune where
  width : Nat
  space : Bool
  newline : Bool
  deriving DecidableEq

/-- A source file.  `lineMap`: `ECMALineMap()`; `lineOf`: `GetECMALineAndUTF16CharacterOfPosition`; `contentEnd`:
`GetECMAEndLinePosition`; `runes lo hi`: the runes of `text[lo:hi]`. -/
structure File where
  text : Bytes
  lineMap : List Nat
  lineOf : Nat → Nat
  contentEnd : Nat → Int
  runes : Int → Int → List Rune

/-- `int(lineMap[line])` -/
def File.lineStart (F : File) (line : Nat) : Int := F.lineMap.getD line 0

/-- `math.MaxInt` -/
def maxInt : Int := 9223372036854775807

/-- Addition of Go `int`s of which one may be `MaxInt` -/
def wrap (n : Int) : Int := if n > maxInt then n - 18446744073709551616 else n

/-- Lines 244-248: the first and last line of the box, and its first and last position -/
structure Frame where
  first : Nat
  last : Nat
  start : Int
  stop : Int

/-- Lines 238-248 -/
def frame (F : File) (start stop : Nat) : Frame :=
  let first := F.lineOf start - 1
  let last := min (F.lineOf stop + 1) (F.lineMap.length - 1)
  ⟨first, last, F.lineStart first, F.contentEnd last + 1⟩

/-- What the loop in lines 286-306 keeps.  `line` counts from the first line of the box. -/
structure Scan where
  line : Nat
  /-- `lineIndentCalculated` -/
  calculated : Bool
  /-- `lastNonSpaceIndex` -/
  last : Int
  starts : List Int
  ends : List Int
  /-- `indentSize` -/
  indent : Int

/-- Lines 273-279 -/
def Scan.init : Scan := ⟨0, false, -1, List.replicate 13 0, List.replicate 13 0, maxInt⟩

/-- Lines 290, 308 -/
def Scan.lineEnd (F : File) (B : Frame) (s : Scan) : Int := s.last - F.lineStart (B.first + s.line) + B.start

/-- Lines 297-305: a rune that is not a line feed -/
def Scan.rune (F : File) (B : Frame) (s : Scan) (i : Int) (r : Rune) : Scan :=
  if r.space then s
  else if s.calculated then { s with last := i + 1 }
  else
    { s with
      calculated := true
      starts := s.starts.set s.line (i - F.lineStart (B.first + s.line) + B.start)
      indent := min s.indent (i - F.lineStart (B.first + s.line) + B.start)
      last := i + 1 }

/-- Lines 287-305: one round of the loop -/
def Scan.step (F : File) (B : Frame) (s : Scan) (i : Int) (r : Rune) : Scan :=
  if r.newline then
    if B.first + s.line ≠ B.last then
      { s with calculated := false, ends := s.ends.set s.line (s.lineEnd F B), last := -1, line := s.line + 1 }
    else s
  else s.rune F B i r

/-- Lines 286-306; `i`: the offset from the start of the box -/
def Scan.run (F : File) (B : Frame) : Scan → Int → List Rune → Scan
  | s, _, [] => s
  | s, i, r :: rs => Scan.run F B (s.step F B i r) (i + r.width) rs

/-- Lines 307-309 -/
def Scan.finish (F : File) (B : Frame) (s : Scan) : Scan :=
  if B.first + s.line = B.last then { s with ends := s.ends.set s.line (s.lineEnd F B) } else s

/-- Lines 273-309 -/
def scan (F : File) (B : Frame) : Scan := (Scan.run F B .init 0 (F.runes B.start B.stop)).finish F B

/-- A line of the box: its code, without or with something marked in it -/
inductive Shown
  | plain (code : Bytes)
  | marked (before under after : Bytes)
  deriving DecidableEq

structure Row where
  /-- the line's number -/
  number : Nat
  /-- a space before it -/
  padded : Bool
  shown : Shown
  deriving DecidableEq

/-- Lines 326-329 `lineTextStart`, `underlineStart` and `lineTextEnd` -/
def textStart (F : File) (s : Scan) (line : Nat) : Int := wrap (F.lineStart line + s.indent)
def firstStart (F : File) (B : Frame) (s : Scan) (line : Nat) : Int :=
  max (textStart F s line) (F.lineStart line + s.starts.getD (line - B.first) 0)
def textEnd (F : File) (B : Frame) (s : Scan) (line : Nat) : Int :=
  max (F.lineStart line + s.ends.getD (line - B.first) 0) (textStart F s line)

/-- Lines 333, 338: the position is on the line -/
def File.on (F : File) (line : Nat) (pos : Nat) : Bool :=
  decide (F.lineStart line ≤ pos) && (decide (line + 1 = F.lineMap.length) || decide ((pos : Int) < F.lineStart (line + 1)))

/-- Lines 331-341: `underlineStart`, `underlineEnd`, and `diagnosticHighlightActive` afterwards -/
def underline (F : File) (B : Frame) (s : Scan) (start stop : Nat) (active : Bool) (line : Nat) : Int × Int × Bool :=
  let (a, b, active) :=
    if active then (firstStart F B s line, textEnd F B s line, true)
    else if F.on line start then (min (max (textStart F s line) start) (textEnd F B s line), textEnd F B s line, true)
    else (firstStart F B s line, firstStart F B s line, false)
  if F.on line stop then (a, min (max a stop) (textEnd F B s line), false) else (a, b, active)

/-- Lines 343-357; `none`: a slice out of range -/
def display (F : File) (lo hi a b : Int) : Option Shown :=
  if a ≠ b then do
    let before ← goSlice F.text lo a
    let under ← goSlice F.text a b
    let after ← goSlice F.text b hi
    some (.marked before under after)
  else if lo ≠ hi then (goSlice F.text lo hi).map .plain
  else some (.plain [])

/-- The length of a number in decimal (`len(strconv.Itoa(n))`) -/
def digits (n : Nat) : Nat := (Nat.toDigits 10 n).length

/-- Lines 315-323: a space is put before shorter numbers -/
def padded (B : Frame) (line : Nat) : Bool := decide (line ≠ B.last) && decide (digits (line + 1) < digits (B.last + 1))

/-- Lines 313-360: `count` lines from `line` -/
def rows (F : File) (B : Frame) (s : Scan) (start stop : Nat) : Nat → Nat → Bool → Option (List Row)
  | 0, _, _ => some []
  | count + 1, line, active =>
    match underline F B s start stop active line with
    | (a, b, active) => do
      let shown ← display F (textStart F s line) (textEnd F B s line) a b
      let rest ← rows F B s start stop count (line + 1) active
      some (⟨line + 1, padded B line, shown⟩ :: rest)

/-- What is printed below the message -/
inductive Code
  | tooBig
  | box (rows : List Row)
  deriving DecidableEq

/-- Lines 273-361; `none`: it panics -/
def codeBox (F : File) (start stop : Nat) : Option Code :=
  let B := frame F start stop
  if B.last - B.first ≥ 13 then some .tooBig
  else if ¬ (0 ≤ B.start ∧ B.start ≤ B.stop ∧ B.stop ≤ F.text.length) then none
  else (rows F B (scan F B) start stop (B.last + 1 - B.first) B.first false).map .box

/-! ### The message -/

/-- Lines 253-263: after each line feed of the message the gutter and as many spaces as the name has letters, and one more.
`none`: there are only 100 spaces.  The message is given by its bytes; a line feed is one byte in UTF-8. -/
def message (gutter : Bytes) (name : Nat) : Bytes → Option Bytes
  | [] => some []
  | b :: bs =>
    if b = 10 then
      if name + 1 ≤ 100 then (message gutter name bs).map fun rest => b :: (gutter ++ List.replicate (name + 1) 32 ++ rest) else none
    else (message gutter name bs).map (b :: ·)

end Tsgolint.CodeBox
