import Verif.Model.AssertionFix
import Verif.Spec.StableFix
/-!
# What removing an assertion means
-/
namespace Tsgolint.AssertionFix
open Fixer (Bytes Fix ascii)

/-- White space and line ends of ECMAScript: tab, vertical tab, form feed, line feed, carriage return, line and paragraph separator, byte order mark, and the
space separators of Unicode. -/
def WhiteRune (r : Nat) : Prop :=
  (9 ≤ r ∧ r ≤ 13) ∨ r = 0x20 ∨ r = 0xA0 ∨ r = 0x1680 ∨ (0x2000 ≤ r ∧ r ≤ 0x200A) ∨ r = 0x2028 ∨ r = 0x2029 ∨ r = 0x202F ∨ r = 0x205F ∨ r = 0x3000 ∨ r = 0xFEFF

/-- A byte that, taken for a character, is white space. -/
def WhiteByte (b : UInt8) : Prop := b = 9 ∨ b = 10 ∨ b = 11 ∨ b = 12 ∨ b = 13 ∨ b = 32 ∨ b = 160

instance (r : Nat) : Decidable (WhiteRune r) := by unfold WhiteRune; exact inferInstance
instance (b : UInt8) : Decidable (WhiteByte b) := by unfold WhiteByte; exact inferInstance

/-- The text without such bytes at its end -/
def Trimmed (text kept : Bytes) : Prop := ∃ ws, text = kept ++ ws ∧ (∀ b ∈ ws, WhiteByte b) ∧ ∀ b, kept.getLast? = some b → ¬ WhiteByte b

/-- The positions of `expression gap as mid type` in a text -/
def asAt (before gap keyword mid type : Bytes) : As :=
  { expressionEnd := before.length
    keyword := ⟨before.length + gap.length, before.length + gap.length + keyword.length⟩
    typeStart := before.length + gap.length + keyword.length + mid.length
    typeEnd := before.length + gap.length + keyword.length + mid.length + type.length }

/-- `pattern` is found at `i`, and nowhere after. -/
def LastAt (s pattern : Bytes) (i : Nat) : Prop := pattern <+: s.drop i ∧ ∀ j, i < j → ¬ pattern <+: s.drop j

/-- A text that does not contain another -/
def Free (pattern s : Bytes) : Prop := ∀ a b, s ≠ a ++ pattern ++ b

end Tsgolint.AssertionFix
