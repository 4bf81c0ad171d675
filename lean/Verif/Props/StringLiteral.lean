import Verif.Spec.StringLiteral
/-! # C34: quoted string literals denote the original text -/
namespace Tsgolint.StringLiteral

theorem hexValue_hexDigit {n : Nat} (h : n < 16) : hexValue (hexDigit n) = some n := by
  have : n = 0 ∨ n = 1 ∨ n = 2 ∨ n = 3 ∨ n = 4 ∨ n = 5 ∨ n = 6 ∨ n = 7 ∨ n = 8 ∨ n = 9 ∨ n = 10 ∨ n = 11 ∨ n = 12 ∨ n = 13 ∨ n = 14 ∨
    n = 15 := by omega
  rcases this with h | h | h | h | h | h | h | h | h | h | h | h | h | h | h | h <;> subst h <;> rfl

theorem hex_eq (n : Nat) : hex n = if n < 16 then [hexDigit n] else hex (n / 16) ++ [hexDigit (n % 16)] := by
  conv => lhs; unfold hex

/-- Four hexadecimal digits read back. -/
theorem read_escape (c : Char) (h : c.toNat < 0x10000) (r : List Char) :
    escape ((unicodeEscape c).tail ++ r) = some ([c.toNat], r) := by
  have key : ∀ a b d e : Nat, a < 16 → b < 16 → d < 16 → e < 16 → ∀ s : List Char,
      hexDigits 4 0 (hexDigit a :: hexDigit b :: hexDigit d :: hexDigit e :: s) = some (16 * (16 * (16 * a + b) + d) + e, s) := by
    intro a b d e ha hb hd he s
    simp [hexDigits, hexValue_hexDigit ha, hexValue_hexDigit hb, hexValue_hexDigit hd, hexValue_hexDigit he]
  have z : hexDigit 0 = ('0' : Char) := rfl
  generalize hn : c.toNat = n at h
  have four : List.replicate (4 - (hex n).length) '0' ++ hex n =
      [hexDigit (n / 4096), hexDigit (n / 256 % 16), hexDigit (n / 16 % 16), hexDigit (n % 16)] := by
    rw [hex_eq]
    split
    · have h1 : n / 4096 = 0 := by omega
      have h2 : n / 256 % 16 = 0 := by omega
      have h3 : n / 16 % 16 = 0 := by omega
      have h4 : n % 16 = n := by omega
      simp [h1, h2, h3, h4, z, List.replicate]
    · rw [hex_eq]
      split
      · have h1 : n / 4096 = 0 := by omega
        have h2 : n / 256 % 16 = 0 := by omega
        have h3 : n / 16 % 16 = n / 16 := by omega
        simp [h1, h2, h3, z, List.replicate]
      · rw [hex_eq]
        split
        · have h1 : n / 4096 = 0 := by omega
          have h2 : n / 16 / 16 = n / 256 := by omega
          have h3 : n / 256 % 16 = n / 256 := by omega
          simp [h1, h2, h3, z, List.replicate]
        · rw [hex_eq]
          have h0 : n / 16 / 16 / 16 = n / 4096 := by omega
          have h2 : n / 16 / 16 % 16 = n / 256 % 16 := by omega
          have h1 : n / 16 / 16 / 16 < 16 := by omega
          simp [h0] at h1 ⊢
          simp [h1, h2, List.replicate]
  have e1 : (unicodeEscape c).tail = 'u' :: (List.replicate (4 - (hex n).length) '0' ++ hex n) := by
    simp [unicodeEscape, hn]
  rw [e1, four]
  have hh := key (n / 4096) (n / 256 % 16) (n / 16 % 16) (n % 16) (by omega) (by omega) (by omega) (by omega) r
  have hv : 16 * (16 * (16 * (n / 4096) + n / 256 % 16) + n / 16 % 16) + n % 16 = n := by omega
  simp [escape, hh, hv]

/-- The printed form of one code point is read back as its code units. -/
theorem body_quoteChar (c : Char) (n : Nat) (r : List Char) :
    body (n + 1) (quoteChar c ++ r) = (body n r).map fun p => (utf16 c ++ p.1, p.2) := by
  have hbs : ∀ k : Nat, c.toNat = k → k < 0x10000 → utf16 c = [k] := by
    intro k hk hlt; unfold utf16; rw [hk]; simp [hlt]
  have opt : ∀ u : List Nat, (match body n r with | none => none | some (us, r) => some (u ++ us, r)) =
      (body n r).map fun p => (u ++ p.1, p.2) := by
    intro u; cases body n r <;> rfl
  have esc : ∀ (u : List Nat) (s : List Char), escape s = some (u, r) →
      body (n + 1) ('\\' :: s) = (body n r).map fun p => (u ++ p.1, p.2) := by
    intro u s hs
    simp [body, hs]; exact opt u
  have uni : c.toNat < 0x10000 → body (n + 1) (unicodeEscape c ++ r) = (body n r).map fun p => (utf16 c ++ p.1, p.2) := by
    intro hlt
    have h := read_escape c hlt r
    have e : unicodeEscape c ++ r = '\\' :: ((unicodeEscape c).tail ++ r) := rfl
    rw [e, esc _ _ h, hbs _ rfl hlt]
  unfold quoteChar
  split
  · rename_i h; rw [hbs _ h (by omega)]; exact esc _ _ (by simp [escape])
  split
  · rename_i h; rw [hbs _ h (by omega)]; exact esc _ _ (by simp [escape])
  split
  · rename_i h; rw [hbs _ h (by omega)]; exact esc _ _ (by simp [escape])
  split
  · rename_i h; rw [hbs _ h (by omega)]; exact esc _ _ (by simp [escape])
  split
  · rename_i h; rw [hbs _ h (by omega)]; exact esc _ _ (by simp [escape])
  split
  · rename_i h; rw [hbs _ h (by omega)]; exact esc _ _ (by simp [escape])
  split
  · rename_i h; subst h; exact esc _ _ rfl
  split
  · rename_i h; subst h; exact esc _ _ rfl
  split
  · rename_i h; exact uni (by omega)
  split
  · exact uni (by omega)
  · rename_i h1 h2 h3 h4 h5 h6 h7 h8 h9 h10
    simp [body, h7, h8, show ¬ (c.toNat = 10 ∨ c.toNat = 13) by omega]
    exact opt _

theorem body_mono (s : List Char) (n m : Nat) (h : n ≤ m) (v : List Nat × List Char) (hb : body n s = some v) : body m s = some v := by
  induction n generalizing s m v with
  | zero => simp [body] at hb
  | succ n ih =>
    obtain ⟨m, rfl⟩ : ∃ k, m = k + 1 := ⟨m - 1, by omega⟩
    cases s with
    | nil => simp [body] at hb
    | cons c s =>
      simp only [body] at hb ⊢
      split
      · rename_i h'; simpa [h'] using hb
      rename_i h1
      simp only [h1, ↓reduceIte] at hb
      split
      · rename_i h2
        simp only [h2, ↓reduceIte] at hb
        cases he : escape s with
        | none => simp [he] at hb
        | some p =>
          obtain ⟨u, s'⟩ := p
          simp only [he] at hb ⊢
          cases hb' : body n s' with
          | none => simp [hb'] at hb
          | some q => rw [hb'] at hb; rw [ih s' m (by omega) q hb']; exact hb
      · rename_i h2
        simp only [h2, ↓reduceIte] at hb
        split
        · rename_i h3; simp [h3] at hb
        · rename_i h3
          simp only [h3, ↓reduceIte] at hb
          cases hb' : body n s with
          | none => simp [hb'] at hb
          | some q => rw [hb'] at hb; rw [ih s m (by omega) q hb']; exact hb

theorem body_quoted (value : List Char) (r : List Char) :
    body (value.length + 1) (value.flatMap quoteChar ++ '\'' :: r) = some (value.flatMap utf16, r) := by
  induction value with
  | nil => simp [body]
  | cons c t ih =>
    simp only [List.flatMap_cons, List.length_cons, List.append_assoc]
    rw [body_quoteChar, ih]
    simp

theorem quoteChar_length (c : Char) : 1 ≤ (quoteChar c).length := by
  unfold quoteChar unicodeEscape
  repeat' split
  all_goals simp

theorem flatMap_quote_length (v : List Char) : v.length ≤ (v.flatMap quoteChar).length := by
  induction v with
  | nil => simp
  | cons c t ih => have := quoteChar_length c; simp only [List.flatMap_cons, List.length_append, List.length_cons]; omega

/-- C34.  Whatever text follows it, the printed literal is read by a JavaScript reader as one literal that ends exactly where it was
printed and whose value is the original string. -/
theorem C34_denotes (value rest : List Char) : readLiteral (quote value ++ rest) = some (value.flatMap utf16, rest) := by
  unfold quote readLiteral
  simp only [List.cons_append, List.nil_append, ↓reduceIte, List.append_assoc]
  refine body_mono _ (value.length + 1) _ ?_ _ (body_quoted value rest)
  have := flatMap_quote_length value
  simp only [List.length_append]; omega

theorem utf16_high {c : Char} : c.toNat < 0x110000 := by
  have := c.valid
  unfold Char.toNat
  rcases this with h | ⟨_, h⟩
  · simp only [UInt32.toNat] at *; omega
  · simp only [UInt32.toNat] at *; omega

theorem utf16_not_surrogate {c : Char} : ¬ (0xD800 ≤ c.toNat ∧ c.toNat < 0xE000) := by
  have := c.valid
  unfold Char.toNat
  rcases this with h | ⟨h, _⟩
  · simp only [UInt32.toNat] at *; omega
  · simp only [UInt32.toNat] at *; omega

theorem char_eq {c d : Char} (h : c.toNat = d.toNat) : c = d := by
  apply Char.ext
  exact UInt32.toNat_inj.1 h

/-- Different strings have different code unit sequences. -/
theorem utf16_injective (a b : List Char) (h : a.flatMap utf16 = b.flatMap utf16) : a = b := by
  induction a generalizing b with
  | nil =>
    cases b with
    | nil => rfl
    | cons d t =>
      simp only [List.flatMap_nil, List.flatMap_cons] at h
      unfold utf16 at h
      split at h <;> simp at h
  | cons c s ih =>
    cases b with
    | nil =>
      simp only [List.flatMap_nil, List.flatMap_cons] at h
      unfold utf16 at h
      split at h <;> simp at h
    | cons d t =>
      simp only [List.flatMap_cons] at h
      have hc := @utf16_high c
      have hd := @utf16_high d
      have hc' := @utf16_not_surrogate c
      have hd' := @utf16_not_surrogate d
      have : c = d ∧ s.flatMap utf16 = t.flatMap utf16 := by
        generalize s.flatMap utf16 = S at *
        generalize t.flatMap utf16 = T at *
        unfold utf16 at h
        split at h <;> split at h <;> simp only [List.cons_append, List.nil_append, List.cons.injEq] at h
        · exact ⟨char_eq h.1, h.2⟩
        · omega
        · omega
        · exact ⟨char_eq (by omega), h.2.2⟩
      rw [this.1, ih t this.2]

/-- C34.  Different strings are printed differently. -/
theorem C34_injective (a b : List Char) (h : quote a = quote b) : a = b := by
  have ha := C34_denotes a []
  rw [h, C34_denotes b []] at ha
  simp only [Option.some.injEq, Prod.mk.injEq, and_true] at ha
  exact (utf16_injective _ _ ha).symm

theorem hexDigit_plain (n : Nat) (h : n < 16) : 0x20 < (hexDigit n).toNat ∧ (hexDigit n).toNat < 0x7F := by
  have : n = 0 ∨ n = 1 ∨ n = 2 ∨ n = 3 ∨ n = 4 ∨ n = 5 ∨ n = 6 ∨ n = 7 ∨ n = 8 ∨ n = 9 ∨ n = 10 ∨ n = 11 ∨ n = 12 ∨ n = 13 ∨ n = 14 ∨
    n = 15 := by omega
  rcases this with h | h | h | h | h | h | h | h | h | h | h | h | h | h | h | h <;> subst h <;> decide

theorem hex_plain (n : Nat) : ∀ c ∈ hex n, 0x20 < c.toNat ∧ c.toNat < 0x7F := by
  induction n using Nat.strongRecOn with
  | ind n ih =>
    rw [hex_eq]
    split
    · intro c hc
      simp only [List.mem_singleton] at hc; subst hc; exact hexDigit_plain n (by assumption)
    · intro c hc
      simp only [List.mem_append, List.mem_singleton] at hc
      rcases hc with hc | rfl
      · exact ih (n / 16) (by omega) c hc
      · exact hexDigit_plain _ (by omega)

theorem unicodeEscape_plain (ch : Char) : ∀ c ∈ unicodeEscape ch, 0x20 < c.toNat ∧ c.toNat < 0x7F := by
  intro c hc
  unfold unicodeEscape at hc
  simp only [List.mem_append, List.mem_cons, List.not_mem_nil, or_false, List.mem_replicate] at hc
  rcases hc with ((rfl | rfl) | ⟨_, rfl⟩) | hc
  · decide
  · decide
  · decide
  · exact hex_plain _ c hc

/-- C34.  The printed literal stays on one line and has no control characters: nothing below U+0020, no U+0085, U+2028, U+2029. -/
theorem C34_one_line (value : List Char) (c : Char) (h : c ∈ quote value) :
    0x20 ≤ c.toNat ∧ c.toNat ≠ 0x85 ∧ c.toNat ≠ 0x2028 ∧ c.toNat ≠ 0x2029 := by
  have plain : ∀ d : Char, (0x20 < d.toNat ∧ d.toNat < 0x7F) → 0x20 ≤ d.toNat ∧ d.toNat ≠ 0x85 ∧ d.toNat ≠ 0x2028 ∧ d.toNat ≠ 0x2029 := by
    intro d h; omega
  unfold quote at h
  simp only [List.cons_append, List.nil_append, List.mem_cons, List.mem_append, List.mem_flatMap, List.not_mem_nil, or_false] at h
  rcases h with rfl | ⟨a, _, h⟩ | rfl
  · decide
  · unfold quoteChar at h
    repeat' split at h
    all_goals first
      | exact plain c (unicodeEscape_plain a c h)
      | (simp only [List.mem_cons, List.not_mem_nil, or_false] at h; rcases h with rfl | rfl <;> decide)
      | (simp only [List.mem_cons, List.not_mem_nil, or_false] at h; subst h; omega)
  · decide

/-- C34.  Text of ordinary characters is copied unchanged between the quotes. -/
theorem C34_plain_unchanged (value : List Char)
    (h : ∀ c ∈ value, 0x20 ≤ c.toNat ∧ c.toNat ≠ 0x85 ∧ c.toNat ≠ 0x2028 ∧ c.toNat ≠ 0x2029 ∧ c ≠ '\\' ∧ c ≠ '\'') :
    quote value = '\'' :: value ++ ['\''] := by
  have : value.flatMap quoteChar = value := by
    induction value with
    | nil => rfl
    | cons c t ih =>
      rw [List.flatMap_cons, ih (fun d hd => h d (List.mem_cons_of_mem _ hd))]
      obtain ⟨h1, h2, h3, h4, h5, h6⟩ := h c List.mem_cons_self
      have : quoteChar c = [c] := by
        unfold quoteChar
        simp only [h2, h3, h4, h5, h6, or_self, ↓reduceIte]
        repeat' split
        all_goals first | rfl | omega
      rw [this]; rfl
  simp [quote, this]

/-- A string with a quote, a backslash, a line break, U+2028, U+0001 and a character outside the BMP. -/
example : readLiteral (quote ['a', '\'', '\\', '\n', '\u2028', '\x01', '😀'] ++ [';']) =
    some ([97, 39, 92, 10, 0x2028, 1, 0xD83D, 0xDE00], [';']) := by decide +kernel

end Tsgolint.StringLiteral
