import Verif.Model.CodeBox
/-!
# What the code box of a diagnostic shows
-/
namespace Tsgolint.CodeBox

open Tsgolint.Fixer (Bytes)

/-- Number of bytes -/
def width : List Rune → Nat
  | [] => 0
  | r :: rs => r.width + width rs

/-- Where the first rune that is not white space begins in the line -/
def firstOff : List Rune → Option Nat
  | [] => none
  | r :: rs => if r.space then (firstOff rs).map (r.width + ·) else some 0

/-- The position after the first byte of the last rune of the line that is not white space -/
def lastEnd : List Rune → Option Nat
  | [] => none
  | r :: rs =>
    match lastEnd rs with
    | some e => some (r.width + e)
    | none => if r.space then none else some 1

/-- Lines with a line feed between them -/
def joinLines : List (List Rune) → List Rune
  | [] => []
  | [L] => L
  | L :: Ls => L ++ ⟨1, false, true⟩ :: joinLines Ls

/-- Where the `m`-th of lines that are joined with line feeds begins -/
def offset : List (List Rune) → Nat → Nat
  | L :: Ls, m + 1 => width L + 1 + offset Ls m
  | _, _ => 0

/-- The file's line map is one, and lines are found by it -/
structure GoodLines (F : File) : Prop where
  sorted : ∀ k l, k < l → l < F.lineMap.length → F.lineStart k < F.lineStart l
  found : ∀ p, F.lineOf p < F.lineMap.length
  above : ∀ p : Nat, F.lineStart (F.lineOf p) ≤ p
  below : ∀ p : Nat, F.lineOf p + 1 < F.lineMap.length → (p : Int) < F.lineStart (F.lineOf p + 1)

/-- `lines` are the lines from one before `start` to one after `stop`, and line feeds end them (a carriage return before it belongs to the line) -/
structure Box (F : File) (start stop : Nat) (lines : List (List Rune)) : Prop where
  le : start ≤ stop
  count : lines.length + (frame F start stop).first = (frame F start stop).last + 1
  runes : F.runes (frame F start stop).start (frame F start stop).stop = joinLines lines
  plain : ∀ L ∈ lines, ∀ r ∈ L, r.newline = false
  wide : ∀ L ∈ lines, ∀ r ∈ L, 1 ≤ r.width
  starts : ∀ m, m < lines.length → F.lineStart ((frame F start stop).first + m) = F.lineStart (frame F start stop).first + offset lines m
  stops : (frame F start stop).stop = F.lineStart (frame F start stop).first + width (joinLines lines)
  inside : (frame F start stop).stop ≤ F.text.length
  small : F.text.length < 4611686018427387904

/-- The smallest indentation of the lines that are not blank -/
def Indent (lines : List (List Rune)) (n : Nat) : Prop :=
  (∃ L ∈ lines, firstOff L = some n) ∧ ∀ L ∈ lines, ∀ k, firstOff L = some k → n ≤ k

/-- `text[lo:hi]` -/
def between (text : Bytes) (lo hi : Nat) : Bytes := (text.drop lo).take (hi - lo)

/-- What is marked of the line from `line` on, of which the bytes from `lo` to `hi` are shown: the diagnostic's range, without the white space before later lines -/
def Marked (start stop : Nat) (onFirst : Prop) (lo hi text : Nat) (p : Nat) : Prop :=
  lo ≤ p ∧ p < hi ∧ start ≤ p ∧ p < stop ∧ (onFirst ∨ text ≤ p)

/-- How a line is shown: a blank one empty; another from the common indentation to the last rune that is not white space -/
def Shows (F : File) (start stop : Nat) (line : Nat) (begin indent : Nat) (L : List Rune) (shown : Shown) : Prop :=
  match firstOff L, lastEnd L with
  | some n, some e => ∃ a b, begin + indent ≤ a ∧ a ≤ b ∧ b ≤ begin + e ∧
      (∀ p, a ≤ p ∧ p < b ↔ Marked start stop (line = F.lineOf start) (begin + indent) (begin + e) (begin + n) p) ∧
      shown = if a = b then .plain (between F.text (begin + indent) (begin + e))
        else .marked (between F.text (begin + indent) a) (between F.text a b) (between F.text b (begin + e))
  | _, _ => shown = .plain []

/-- The row for the line with the number `line + 1`: numbers are all as wide as the last -/
structure RowSays (F : File) (start stop : Nat) (indent : Nat) (line : Nat) (L : List Rune) (row : Row) : Prop where
  number : row.number = line + 1
  aligned : digits row.number + (if row.padded then 1 else 0) = digits ((frame F start stop).last + 1)
  shows : Shows F start stop line (F.lineMap.getD line 0) indent L row.shown

/-- The code that is shown, marked or not -/
def Shown.code : Shown → Bytes
  | .plain c => c
  | .marked a b c => a ++ b ++ c

/-- The message's lines with the gutter before all but the first -/
def gutterLines (gutter : Bytes) : List Bytes → Bytes
  | [] => []
  | [l] => l
  | l :: ls => l ++ 10 :: (gutter ++ gutterLines gutter ls)

/-- Lines of text with line feeds between them -/
def linesOf : List Bytes → Bytes
  | [] => []
  | [l] => l
  | l :: ls => l ++ 10 :: linesOf ls

end Tsgolint.CodeBox
