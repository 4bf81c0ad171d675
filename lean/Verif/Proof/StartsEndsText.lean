import Verif.Spec.StartsEnds
import Verif.Proof.StartsEnds
import Verif.Proof.Template
/-! # Splitting literals, quoting -/
namespace Tsgolint.StartsEnds
open Tsgolint.StringLiteral (utf16 hexValue)
open Tsgolint.Template (Reads noHoles units chars Esc hexNumber)

theorem backslashes_append (a b : Text) : backslashesBefore (a ++ b) a.length = endingBackslashes a := by
  suffices h : ∀ (m : Nat) (a b : Text), a.length = m → backslashesBefore (a ++ b) m = endingBackslashes a from h _ a b rfl
  intro m
  induction m with
  | zero =>
    intro a b h
    obtain rfl : a = [] := List.length_eq_zero_iff.1 h
    rfl
  | succ m ih =>
    intro a b h
    obtain ⟨c, x, rfl⟩ : ∃ c x, a = c ++ [x] := ⟨a.dropLast, a.getLast (by intro e; simp [e] at h), (List.dropLast_concat_getLast _).symm⟩
    have hc : c.length = m := by simpa using h
    have hx : (c ++ [x] ++ b)[m]? = some x := by
      rw [List.append_assoc, List.getElem?_append_right (by omega), hc]; simp
    rw [backslashesBefore, hx]
    simp only [Option.some.injEq]
    unfold endingBackslashes
    rw [List.reverse_append]
    simp only [List.reverse_cons, List.reverse_nil, List.nil_append, List.cons_append, List.takeWhile_cons]
    by_cases h : x = '\\'
    · subst h
      simp only [if_true, beq_self_eq_true, List.length_cons]
      rw [List.append_assoc, ih c _ hc]; rfl
    · simp [h]

theorem closing_found (head flags : Text) (hh : head ≠ []) (hf : '/' ∉ flags) (he : endingBackslashes head % 2 = 0) (k : Nat) :
    closingSlash (head ++ '/' :: flags) (head.length + k) = some head.length := by
  induction k with
  | zero =>
    obtain ⟨n, hn⟩ : ∃ n, head.length = n + 1 := ⟨head.length - 1, by have := List.length_pos_iff.2 hh; omega⟩
    rw [Nat.add_zero]
    conv => lhs; rw [hn, closingSlash]
    rw [← hn]
    rw [if_pos ⟨by rw [List.getElem?_append_right (Nat.le_refl _)]; simp, by rw [backslashes_append]; exact he⟩]
  | succ k ih =>
    rw [show head.length + (k + 1) = (head.length + k) + 1 by omega, closingSlash]
    rw [if_neg]
    · exact ih
    · rintro ⟨h, -⟩
      rw [List.getElem?_append_right (by omega)] at h
      rw [show head.length + k + 1 - head.length = k + 1 by omega, List.getElem?_cons_succ] at h
      exact hf (List.mem_of_getElem? h)

theorem hexValue_lower (n : Nat) (h : n < 16) : hexValue (lowerHexDigit n) = some n := by
  match n, h with
  | 0, _ | 1, _ | 2, _ | 3, _ | 4, _ | 5, _ | 6, _ | 7, _ | 8, _ | 9, _ | 10, _ | 11, _ | 12, _ | 13, _ | 14, _ | 15, _ => decide
  | n + 16, h => omega

theorem hexNumber_append (a b : Text) (acc : Nat) : hexNumber acc (a ++ b) = (hexNumber acc a).bind fun v => hexNumber v b := by
  induction a generalizing acc with
  | nil => rfl
  | cons c a ih =>
    simp only [List.cons_append, hexNumber]
    cases hexValue c with
    | none => rfl
    | some v => exact ih _

theorem hexNumber_lower (w : Nat) : ∀ (n acc : Nat), n < 16 ^ w → hexNumber acc (lowerHex n w) = some (acc * 16 ^ w + n) := by
  induction w with
  | zero => intro n acc h; simp at h; simp [lowerHex, hexNumber, h]
  | succ w ih =>
    intro n acc h
    have h' : n < 16 ^ w * 16 := by rwa [Nat.pow_succ] at h
    rw [lowerHex, hexNumber_append, ih (n / 16) acc (by omega)]
    simp only [Option.bind_some, hexNumber, hexValue_lower (n % 16) (Nat.mod_lt _ (by omega))]
    congr 1
    rw [Nat.pow_succ, ← Nat.mul_assoc]
    generalize acc * 16 ^ w = q
    omega

theorem lowerHex_two (n : Nat) : lowerHex n 2 = [lowerHexDigit (n / 16 % 16), lowerHexDigit (n % 16)] := rfl
theorem lowerHex_four (n : Nat) : lowerHex n 4 =
    [lowerHexDigit (n / 16 / 16 / 16 % 16), lowerHexDigit (n / 16 / 16 % 16), lowerHexDigit (n / 16 % 16), lowerHexDigit (n % 16)] := rfl

theorem utf16_small {c : Char} (h : c.toNat < 0x10000) : utf16 c = [c.toNat] := by simp [utf16, h]

theorem chars_append' {H : Type} (a b : Text) : (chars (a ++ b) : List (Template.Sym H)) = chars a ++ chars b := by
  simp [chars]

theorem quote_char (printable : Char → Bool) (hp : ∀ c, printable c = true → 32 ≤ c.toNat)
    (c : Char) (hb : printable c = false → c.toNat ≠ 7) (ha : printable c = false → c.toNat < 0x10000)
    (s : Text) (v : List Template.Val) (hr : Reads noHoles (.str '"') (chars s) v) :
    Reads noHoles (.str '"') (chars (goEscape printable c ++ s)) (units (utf16 c) ++ v) := by
  have esc : ∀ (e : Text) (u : List Nat), Esc e u → goEscape printable c = '\\' :: e → u = utf16 c →
      Reads noHoles (.str '"') (chars (goEscape printable c ++ s)) (units (utf16 c) ++ v) := by
    intro e u he h hu
    rw [h, ← hu]
    have := Reads.esc (ev := noHoles) (p := .str '"') he hr
    simpa [chars] using this
  by_cases h1 : c = '"' ∨ c = '\\'
  · refine esc [c] _ (.char ?_ ?_) (by simp [goEscape, h1]) rfl
    · rcases h1 with rfl | rfl <;> decide
    · rcases h1 with rfl | rfl <;> decide
  · cases h2 : printable c with
    | true =>
      have h32 := hp c h2
      have : goEscape printable c = [c] := by simp only [goEscape, h1, if_false, h2, if_true]
      rw [this]
      have hpl : Template.Plain (.str '"') c := by
        refine ⟨fun e => h1 (.inl e), ?_⟩
        simp only [List.mem_cons, List.not_mem_nil, or_false, not_or]
        refine ⟨fun e => h1 (.inr e), ?_, ?_⟩
        · rintro rfl; exact absurd h32 (by decide)
        · rintro rfl; exact absurd h32 (by decide)
      have := Reads.plain (ev := noHoles) hpl hr
      simpa [chars] using this
    | false =>
      have hlt := ha h2
      have hne := hb h2
      have hu : utf16 c = [c.toNat] := utf16_small hlt
      have g : goEscape printable c = (if c.toNat = 7 then ['\\', 'a']
        else if c.toNat = 8 then ['\\', 'b']
        else if c.toNat = 12 then ['\\', 'f']
        else if c.toNat = 10 then ['\\', 'n']
        else if c.toNat = 13 then ['\\', 'r']
        else if c.toNat = 9 then ['\\', 't']
        else if c.toNat = 11 then ['\\', 'v']
        else if c.toNat < 32 ∨ c.toNat = 127 then ['\\', 'x'] ++ lowerHex c.toNat 2
        else if c.toNat < 0x10000 then ['\\', 'u'] ++ lowerHex c.toNat 4
        else ['\\', 'U'] ++ lowerHex c.toNat 8) := by
        simp only [goEscape, h1, if_false, h2, Bool.false_eq_true]
      rw [if_neg hne] at g
      have one : ∀ (x : Char) (n : Nat), (x, n) ∈ [('b', 8), ('t', 9), ('n', 10), ('v', 11), ('f', 12), ('r', 13)] → c.toNat = n →
          goEscape printable c = ['\\', x] → Reads noHoles (.str '"') (chars (goEscape printable c ++ s)) (units (utf16 c) ++ v) := by
        intro x n hx hn hg
        exact esc [x] [n] (.single hx) hg (by rw [hu, hn])
      by_cases e1 : c.toNat = 8
      · exact one 'b' 8 (by decide) e1 (by rw [g]; simp [e1])
      by_cases e2 : c.toNat = 12
      · exact one 'f' 12 (by decide) e2 (by rw [g]; simp [e2])
      by_cases e3 : c.toNat = 10
      · exact one 'n' 10 (by decide) e3 (by rw [g]; simp [e3])
      by_cases e4 : c.toNat = 13
      · exact one 'r' 13 (by decide) e4 (by rw [g]; simp [e4])
      by_cases e5 : c.toNat = 9
      · exact one 't' 9 (by decide) e5 (by rw [g]; simp [e5])
      by_cases e6 : c.toNat = 11
      · exact one 'v' 11 (by decide) e6 (by rw [g]; simp [e6])
      simp only [e1, e2, e3, e4, e5, e6, if_false, hlt, if_true] at g
      by_cases e7 : c.toNat < 32 ∨ c.toNat = 127
      · simp only [e7, if_true] at g
        refine esc ('x' :: lowerHex c.toNat 2) [c.toNat] ?_ (by rw [g]; rfl) hu.symm
        have := hexNumber_lower 2 c.toNat 0 (by omega)
        rw [lowerHex_two] at this ⊢
        exact .hex (by rw [this]; simp)
      · simp only [e7, if_false] at g
        refine esc ('u' :: lowerHex c.toNat 4) [c.toNat] ?_ (by rw [g]; rfl) hu.symm
        have := hexNumber_lower 4 c.toNat 0 (by omega)
        rw [lowerHex_four] at this ⊢
        exact .unicode (by rw [this]; simp)

end Tsgolint.StartsEnds
