import Verif.Model.Annotate
/-! # Specification of source annotations -/
namespace Tsgolint.Annotate
open Fixer (Bytes ascii)

/-- The number of columns the first `i` bytes of a line take: a tab takes four. -/
def columns (line : Bytes) (i : Nat) : Nat := ((line.take i).map fun c => if c = 9 then 4 else 1).sum

/-- Where a line begins in the text whose lines these are. -/
def lineStart (lines : List Bytes) (index : Nat) : Nat := ((lines.take index).map fun l => l.length + 1).sum

/-- The lines of a text: joined by line feeds they are the text. -/
def joinLines : List Bytes → Bytes
  | [] => []
  | [l] => l
  | l :: ls => l ++ 10 :: joinLines ls

/-- These are the lines of the text. -/
structure LinesOf (code : Bytes) (lines : List Bytes) : Prop where
  some : lines ≠ []
  join : joinLines lines = code
  whole : ∀ l ∈ lines, 10 ∉ l

/-- The scanner counts lines by line feeds and columns by bytes, as it does in ASCII text without carriage returns. -/
def Plain (code : Bytes) (lines : List Bytes) (position : Nat → Nat × Nat) : Prop :=
  ∀ p ≤ code.length, ∃ l, lines[(position p).1]? = some l ∧ (position p).2 ≤ l.length ∧ lineStart lines (position p).1 + (position p).2 = p

/-- `s` is the first position of the range that is not blank, or the end of the range. -/
def FirstVisible (code : Bytes) (start stop s : Nat) : Prop :=
  start ≤ s ∧ s ≤ stop ∧ (∀ p c, start ≤ p → p < s → code[p]? = some c → c = 32 ∨ c = 9 ∨ c = 10 ∨ c = 13) ∧
    (s < stop → ∃ c, code[s]? = some c ∧ c ≠ 32 ∧ c ≠ 9 ∧ c ≠ 10 ∧ c ≠ 13)

/-- Column `k` of the underline is marked. -/
def Marked (marker : UInt8) (u : Option Bytes) (k : Nat) : Prop := ∃ s, u = some s ∧ s[k]? = some marker

end Tsgolint.Annotate
