import Verif.Spec.Snapshot
/-!
# Snapshot files: the natural order of keys
-/
namespace Tsgolint.Snapshot

theorem isDigit_iff (b : UInt8) : isDigit b = true ↔ 48 ≤ b.toNat ∧ b.toNat ≤ 57 := by
  unfold isDigit; simp

theorem value_lt : ∀ (s : Bytes), Digits s → value s < 10 ^ s.length
  | [], _ => by simp [value]
  | b :: rest, h => by
    have ih := value_lt rest (fun x hx => h x (List.mem_cons_of_mem _ hx))
    have hb := (isDigit_iff b).1 (h b (by simp))
    have hd : digitValue b ≤ 9 := by unfold digitValue; omega
    rw [value, List.length_cons, Nat.pow_succ]
    have := Nat.mul_le_mul_right (10 ^ rest.length) hd
    omega

theorem toNat_inj {a b : UInt8} (h : a.toNat = b.toNat) : a = b := UInt8.toNat_inj.1 h

theorem digit_inj {a b : UInt8} (ha : isDigit a = true) (hb : isDigit b = true) (h : digitValue a = digitValue b) : a = b := by
  have h1 := (isDigit_iff a).1 ha
  have h2 := (isDigit_iff b).1 hb
  unfold digitValue at h
  exact toNat_inj (by omega)

theorem scale_lt {d e v w p : Nat} (hv : v < p) (h : d < e) : d * p + v < e * p + w := by
  have := Nat.mul_le_mul_right p (Nat.succ_le_of_lt h)
  rw [Nat.succ_mul] at this
  omega

/-- for as many digits, the order of bytes is that of the numbers -/
theorem less_value : ∀ (a b : Bytes), Digits a → Digits b → a.length = b.length → (less a b = true ↔ value a < value b) ∧ (value a = value b → a = b)
  | [], [], _, _, _ => by simp [less, value]
  | [], _ :: _, _, _, h => by simp at h
  | _ :: _, [], _, _, h => by simp at h
  | x :: xs, y :: ys, ha, hb, h => by
    have hl : xs.length = ys.length := by simpa using h
    have hxs : Digits xs := fun b hb => ha b (List.mem_cons_of_mem _ hb)
    have hys : Digits ys := fun b hb' => hb b (List.mem_cons_of_mem _ hb')
    obtain ⟨ih1, ih2⟩ := less_value xs ys hxs hys hl
    have vx := value_lt xs hxs
    have vy := value_lt ys hys
    have hx := (isDigit_iff x).1 (ha x (by simp))
    have hy := (isDigit_iff y).1 (hb y (by simp))
    rw [hl] at vx
    rw [value, value, hl]
    rcases Nat.lt_trichotomy (digitValue x) (digitValue y) with hd | hd | hd
    · have := scale_lt (w := value ys) vx hd
      have hlt : x.toNat < y.toNat := by unfold digitValue at hd; omega
      simp only [less, hlt, decide_true, Bool.true_or, true_iff]
      exact ⟨this, fun he => by omega⟩
    · have hxy := digit_inj (ha x (by simp)) (hb y (by simp)) hd
      subst hxy
      simp only [less, Nat.lt_irrefl, decide_false, Bool.false_or, beq_self_eq_true, Bool.true_and]
      exact ⟨by rw [ih1]; omega, fun he => by rw [ih2 (by omega)]⟩
    · have := scale_lt (w := value xs) vy hd
      have hlt : ¬ x.toNat < y.toNat := by unfold digitValue at hd; omega
      have hne : (x == y) = false := by rw [beq_eq_false_iff_ne]; intro h; subst h; omega
      simp only [less, hlt, decide_false, hne, Bool.false_and, Bool.or_self, Bool.false_eq_true, false_iff]
      exact ⟨by omega, fun he => by omega⟩

theorem value_dropZeros : ∀ (a : Bytes), value (a.dropWhile (fun b => b == 48)) = value a
  | [] => rfl
  | b :: rest => by
    rw [List.dropWhile_cons]
    by_cases h : (b == 48) = true
    · rw [if_pos h, value_dropZeros rest, value]
      have : b = 48 := by simpa using h
      subst this
      have : digitValue 48 = 0 := by decide
      rw [this]; omega
    · rw [if_neg h]

theorem digits_drop {a : Bytes} (h : Digits a) (p : UInt8 → Bool) : Digits (a.dropWhile p) :=
  fun b hb => h b ((List.dropWhile_sublist p).subset hb)

theorem trimZeros_spec (a : Bytes) (h : Digits a) :
    value (trimZeros a) = value a ∧ Digits (trimZeros a) ∧ (2 ≤ (trimZeros a).length → 10 ^ ((trimZeros a).length - 1) ≤ value (trimZeros a)) ∧ 1 ≤ (trimZeros a).length := by
  have hv := value_dropZeros a
  have hd := digits_drop h (fun b => b == 48)
  unfold trimZeros
  cases hc : a.dropWhile (fun b => b == 48) with
  | nil =>
    rw [hc] at hv
    simp only [value] at hv
    refine ⟨?_, ?_, by simp, by simp⟩
    · rw [← hv]; decide
    · intro b hb; simp at hb; subst hb; decide
  | cons x xs =>
    rw [hc] at hv hd
    refine ⟨hv, hd, fun _ => ?_, by simp⟩
    have hx : ¬ (x == 48) = true := by
      have := List.head_dropWhile_not (fun b : UInt8 => b == 48) (l := a) (by rw [hc]; simp)
      simp only [hc, List.head_cons] at this
      simpa using this
    have hx' := (isDigit_iff x).1 (hd x (by simp))
    have hne : x.toNat ≠ 48 := fun h => hx (by rw [beq_iff_eq]; exact toNat_inj h)
    have : 1 ≤ digitValue x := by unfold digitValue; omega
    have := Nat.mul_le_mul_right (10 ^ xs.length) this
    simp only [List.length_cons, value, Nat.add_sub_cancel]
    omega

/-- the order of two runs of digits: by value, then by length -/
def RunBefore (a b : Bytes) : Prop := value a < value b ∨ (value a = value b ∧ a.length < b.length)

theorem shorter_less {a b : Bytes} (ha : Digits a) (h1 : 1 ≤ a.length) (hl : a.length < b.length) (hb : 2 ≤ b.length → 10 ^ (b.length - 1) ≤ value b) : value a < value b := by
  have := value_lt a ha
  have h2 := hb (by omega)
  have h3 : 10 ^ a.length ≤ 10 ^ (b.length - 1) := Nat.pow_le_pow_right (by omega) (by omega)
  omega

theorem compareRuns_spec (a b : Bytes) (ha : Digits a) (hb : Digits b) :
    (compareRuns a b = -1 ∧ RunBefore a b) ∨ (compareRuns a b = 0 ∧ a = b) ∨ (compareRuns a b = 1 ∧ RunBefore b a) := by
  obtain ⟨va, da, la, pa⟩ := trimZeros_spec a ha
  obtain ⟨vb, db, lb, pb⟩ := trimZeros_spec b hb
  unfold compareRuns RunBefore
  simp only
  by_cases h1 : (trimZeros a).length ≠ (trimZeros b).length
  · rw [if_pos h1]
    by_cases h2 : (trimZeros a).length < (trimZeros b).length
    · rw [if_pos h2]
      exact .inl ⟨rfl, .inl (by have := shorter_less da pa h2 lb; omega)⟩
    · rw [if_neg h2]
      exact .inr (.inr ⟨rfl, .inl (by have := shorter_less db pb (by omega) la; omega)⟩)
  · rw [if_neg h1]
    have h1 : (trimZeros a).length = (trimZeros b).length := by omega
    have hlv := less_value _ _ da db h1
    by_cases h2 : trimZeros a ≠ trimZeros b
    · rw [if_pos h2]
      have hne : value (trimZeros a) ≠ value (trimZeros b) := fun h => h2 (hlv.2 h)
      by_cases h3 : less (trimZeros a) (trimZeros b) = true
      · rw [if_pos h3]
        have := hlv.1.1 h3
        exact .inl ⟨rfl, .inl (by omega)⟩
      · rw [if_neg h3]
        have : ¬ value (trimZeros a) < value (trimZeros b) := fun h => h3 (hlv.1.2 h)
        exact .inr (.inr ⟨rfl, .inl (by omega)⟩)
    · rw [if_neg h2]
      have h2 : trimZeros a = trimZeros b := by simpa using h2
      have hv : value a = value b := by rw [← va, ← vb, h2]
      by_cases h3 : a.length ≠ b.length
      · rw [if_pos h3]
        by_cases h4 : a.length < b.length
        · rw [if_pos h4]; exact .inl ⟨rfl, .inr ⟨hv, h4⟩⟩
        · rw [if_neg h4]; exact .inr (.inr ⟨rfl, .inr ⟨hv.symm, by omega⟩⟩)
      · rw [if_neg h3]
        exact .inr (.inl ⟨rfl, (less_value a b ha hb (by omega)).2 hv⟩)

/-! ### Tokens -/

theorem tokens_other (b : UInt8) (rest : Bytes) (h : isDigit b = false) : tokens (b :: rest) = (if b.toNat < 48 then 0 else 2, b.toNat, 0) :: tokens rest := by
  have : ¬ (48 ≤ b.toNat ∧ b.toNat ≤ 57) := fun h' => by rw [(isDigit_iff b).2 h'] at h; cases h
  rw [tokens]
  by_cases h1 : b.toNat < 48
  · rw [if_pos h1, if_pos h1]
  · rw [if_neg h1, if_neg h1, if_pos (by omega)]

theorem tokens_digit (b : UInt8) (rest : Bytes) (h : isDigit b = true) :
    tokens (b :: rest) = match tokens rest with
      | (1, v, n) :: ts => (1, digitValue b * 10 ^ n + v, n + 1) :: ts
      | ts => (1, digitValue b, 1) :: ts := by
  have := (isDigit_iff b).1 h
  rw [tokens, if_neg (by omega), if_neg (by omega)]
  rfl

theorem tokens_not_number : ∀ (s : Bytes), (∀ b, s.head? = some b → isDigit b = false) → ∀ v n ts, tokens s ≠ (1, v, n) :: ts
  | [], _, _, _, _ => by simp [tokens]
  | b :: rest, h, v, n, ts => by
    rw [tokens_other b rest (h b rfl)]
    intro he
    simp only [List.cons.injEq, Prod.mk.injEq] at he
    have := he.1.1
    by_cases h1 : b.toNat < 48
    · rw [if_pos h1] at this; cases this
    · rw [if_neg h1] at this; cases this

theorem tokens_run : ∀ (ds s : Bytes), Digits ds → ds ≠ [] → (∀ b, s.head? = some b → isDigit b = false) → tokens (ds ++ s) = (1, value ds, ds.length) :: tokens s
  | [], _, _, h, _ => absurd rfl h
  | [b], s, hd, _, hs => by
    rw [List.singleton_append, tokens_digit b s (hd b (by simp))]
    have := tokens_not_number s hs
    cases ht : tokens s with
    | nil => simp [value]
    | cons t ts =>
      obtain ⟨c, v, n⟩ := t
      by_cases hc : c = 1
      · subst hc; exact absurd ht (this v n ts)
      · simp [value, hc]
  | b :: c :: ds, s, hd, _, hs => by
    rw [List.cons_append, tokens_digit b _ (hd b (by simp)), tokens_run (c :: ds) s (fun x hx => hd x (List.mem_cons_of_mem _ hx)) (by simp) hs]
    simp [value]

theorem run_split (x : UInt8) (xs : Bytes) (h : isDigit x = true) :
    tokens (x :: xs) = (1, value ((x :: xs).takeWhile isDigit), ((x :: xs).takeWhile isDigit).length) :: tokens ((x :: xs).dropWhile isDigit) := by
  have h1 : (x :: xs).takeWhile isDigit ++ (x :: xs).dropWhile isDigit = x :: xs := List.takeWhile_append_dropWhile
  rw [← tokens_run _ _ _ _ _, h1]
  · intro b hb
    exact (List.all_eq_true.1 List.all_takeWhile) b hb
  · rw [List.takeWhile_cons, if_pos h]; simp
  · intro b hb
    have := List.head?_dropWhile_not isDigit (x :: xs)
    rw [hb] at this
    simpa using this

theorem tokens_nonempty (x : UInt8) (xs : Bytes) : ∃ t ts, tokens (x :: xs) = t :: ts := by
  by_cases h : isDigit x = true
  · exact ⟨_, _, run_split x xs h⟩
  · exact ⟨_, _, tokens_other x xs (by simpa using h)⟩

theorem digits_take (s : Bytes) : Digits (s.takeWhile isDigit) := fun b hb => (List.all_eq_true.1 List.all_takeWhile) b hb

theorem compareLoop_spec (la lb : Nat) : ∀ (fuel : Nat) (a b : Bytes) (p : Nat), a.length ≤ fuel → la = p + a.length → lb = p + b.length →
    (compareLoop la lb fuel a b = -1 ∧ Before (tokens a) (tokens b)) ∨ (compareLoop la lb fuel a b = 0 ∧ a = b) ∨
      (compareLoop la lb fuel a b = 1 ∧ Before (tokens b) (tokens a))
  | _, [], [], p, _, ha, hb => by
    rw [compareLoop.eq_def]
    simp only [compareLengths, ha, hb]
    simp
  | _, [], y :: ys, p, _, ha, hb => by
    obtain ⟨t, ts, ht⟩ := tokens_nonempty y ys
    rw [compareLoop.eq_def]
    simp only [List.length_cons, List.length_nil] at ha hb
    refine .inl ⟨?_, by rw [ht]; simp [tokens, Before]⟩
    simp only [compareLengths]
    rw [if_pos (by omega)]
  | _, x :: xs, [], p, _, ha, hb => by
    obtain ⟨t, ts, ht⟩ := tokens_nonempty x xs
    rw [compareLoop.eq_def]
    simp only [List.length_cons, List.length_nil] at ha hb
    refine .inr (.inr ⟨?_, by rw [ht]; simp [tokens, Before]⟩)
    simp only [compareLengths]
    rw [if_neg (by omega), if_pos (by omega)]
  | 0, x :: xs, y :: ys, p, h, _, _ => by simp at h
  | fuel + 1, x :: xs, y :: ys, p, h, ha, hb => by
    rw [compareLoop]
    by_cases hd : (isDigit x && isDigit y) = true
    · rw [if_pos hd]
      simp only [Bool.and_eq_true] at hd
      have ea : (x :: xs).takeWhile isDigit ++ (x :: xs).dropWhile isDigit = x :: xs := List.takeWhile_append_dropWhile
      have eb : (y :: ys).takeWhile isDigit ++ (y :: ys).dropWhile isDigit = y :: ys := List.takeWhile_append_dropWhile
      have hpos : 1 ≤ ((x :: xs).takeWhile isDigit).length := by rw [List.takeWhile_cons, if_pos hd.1]; simp
      have la' := congrArg List.length ea
      have lb' := congrArg List.length eb
      rw [List.length_append] at la' lb'
      simp only
      rcases compareRuns_spec _ _ (digits_take (x :: xs)) (digits_take (y :: ys)) with ⟨hc, hr⟩ | ⟨hc, hr⟩ | ⟨hc, hr⟩
      · rw [hc, if_pos (by decide), run_split x xs hd.1, run_split y ys hd.2]
        refine .inl ⟨rfl, .inl ?_⟩
        rcases hr with hr | hr
        · exact .inr ⟨rfl, .inl hr⟩
        · exact .inr ⟨rfl, .inr hr⟩
      · rw [hc, if_neg (by decide), run_split x xs hd.1, run_split y ys hd.2]
        rw [← hr] at lb' eb ⊢
        have ih := compareLoop_spec la lb fuel ((x :: xs).dropWhile isDigit) ((y :: ys).dropWhile isDigit) (p + ((x :: xs).takeWhile isDigit).length)
          (by omega) (by omega) (by omega)
        rcases ih with ⟨h1, h2⟩ | ⟨h1, h2⟩ | ⟨h1, h2⟩
        · exact .inl ⟨h1, .inr ⟨rfl, h2⟩⟩
        · exact .inr (.inl ⟨h1, by rw [← ea, ← eb, h2]⟩)
        · exact .inr (.inr ⟨h1, .inr ⟨rfl, h2⟩⟩)
      · rw [hc, if_pos (by decide), run_split x xs hd.1, run_split y ys hd.2]
        refine .inr (.inr ⟨rfl, .inl ?_⟩)
        rcases hr with hr | hr
        · exact .inr ⟨rfl, .inl hr⟩
        · exact .inr ⟨rfl, .inr hr⟩
    · rw [if_neg hd]
      by_cases hxy : x ≠ y
      · rw [if_pos hxy]
        have hne : x.toNat ≠ y.toNat := fun h => hxy (toNat_inj h)
        -- the first tokens are not the same and in the order of the bytes
        have key : ∃ t ts u us, tokens (x :: xs) = t :: ts ∧ tokens (y :: ys) = u :: us ∧ (x.toNat < y.toNat → t.Before u) ∧ (y.toNat < x.toNat → u.Before t) := by
          by_cases hx : isDigit x = true
          · have hy : isDigit y = false := by
              cases hy : isDigit y
              · rfl
              · exact absurd (by rw [hx, hy]; rfl) hd
            have hx' := (isDigit_iff x).1 hx
            have hy' : ¬ (48 ≤ y.toNat ∧ y.toNat ≤ 57) := fun h' => by rw [(isDigit_iff y).2 h'] at hy; cases hy
            refine ⟨_, _, _, _, run_split x xs hx, tokens_other y ys hy, fun hlt => .inl ?_, fun hlt => .inl ?_⟩
            · rw [if_neg (by omega)]; show 1 < 2; omega
            · rw [if_pos (by omega)]; show 0 < 1; omega
          · have hx : isDigit x = false := by simpa using hx
            have hx' : ¬ (48 ≤ x.toNat ∧ x.toNat ≤ 57) := fun h' => by rw [(isDigit_iff x).2 h'] at hx; cases hx
            by_cases hy : isDigit y = true
            · have hy' := (isDigit_iff y).1 hy
              refine ⟨_, _, _, _, tokens_other x xs hx, run_split y ys hy, fun hlt => .inl ?_, fun hlt => .inl ?_⟩
              · rw [if_pos (by omega)]; show 0 < 1; omega
              · rw [if_neg (by omega)]; show 1 < 2; omega
            · have hy : isDigit y = false := by simpa using hy
              have hy' : ¬ (48 ≤ y.toNat ∧ y.toNat ≤ 57) := fun h' => by rw [(isDigit_iff y).2 h'] at hy; cases hy
              refine ⟨_, _, _, _, tokens_other x xs hx, tokens_other y ys hy, fun hlt => ?_, fun hlt => ?_⟩
              · by_cases h1 : x.toNat < 48 <;> by_cases h2 : y.toNat < 48
                · rw [if_pos h1, if_pos h2]; exact .inr ⟨rfl, .inl hlt⟩
                · rw [if_pos h1, if_neg h2]; exact .inl (by show 0 < 2; omega)
                · omega
                · rw [if_neg h1, if_neg h2]; exact .inr ⟨rfl, .inl hlt⟩
              · by_cases h1 : x.toNat < 48 <;> by_cases h2 : y.toNat < 48
                · rw [if_pos h1, if_pos h2]; exact .inr ⟨rfl, .inl hlt⟩
                · omega
                · rw [if_neg h1, if_pos h2]; exact .inl (by show 0 < 2; omega)
                · rw [if_neg h1, if_neg h2]; exact .inr ⟨rfl, .inl hlt⟩
        obtain ⟨t, ts, u, us, ht, hu, h1, h2⟩ := key
        rw [ht, hu]
        by_cases hlt : x.toNat < y.toNat
        · rw [if_pos hlt]; exact .inl ⟨rfl, .inl (h1 hlt)⟩
        · rw [if_neg hlt]; exact .inr (.inr ⟨rfl, .inl (h2 (by omega))⟩)
      · rw [if_neg hxy]
        have hxy : x = y := by simpa using hxy
        subst hxy
        have hx : isDigit x = false := by
          cases hx : isDigit x
          · rfl
          · exact absurd (by rw [hx]; rfl) hd
        simp only [List.length_cons] at h ha hb
        have ih := compareLoop_spec la lb fuel xs ys (p + 1) (by omega) (by omega) (by omega)
        rw [tokens_other x xs hx, tokens_other x ys hx]
        rcases ih with ⟨h1, h2⟩ | ⟨h1, h2⟩ | ⟨h1, h2⟩
        · exact .inl ⟨h1, .inr ⟨rfl, h2⟩⟩
        · exact .inr (.inl ⟨h1, by rw [h2]⟩)
        · exact .inr (.inr ⟨h1, .inr ⟨rfl, h2⟩⟩)

theorem Token.before_irrefl (t : Token) : ¬ t.Before t := by unfold Token.Before; omega
theorem Token.before_trans {t u v : Token} (h1 : t.Before u) (h2 : u.Before v) : t.Before v := by unfold Token.Before at *; omega

theorem before_irrefl : ∀ ts, ¬ Before ts ts
  | [] => id
  | t :: ts => by
    intro h
    rcases h with h | ⟨_, h⟩
    · exact t.before_irrefl h
    · exact before_irrefl ts h

theorem before_trans : ∀ {a b c : List Token}, Before a b → Before b c → Before a c
  | _, _, [], _, h => by simp [Before] at h
  | _, [], _ :: _, h, _ => by simp [Before] at h
  | [], _ :: _, _ :: _, _, _ => trivial
  | t :: ts, u :: us, v :: vs, h1, h2 => by
    rcases h1 with h1 | ⟨rfl, h1⟩ <;> rcases h2 with h2 | ⟨rfl, h2⟩
    · exact .inl (Token.before_trans h1 h2)
    · exact .inl h1
    · exact .inl h2
    · exact .inr ⟨rfl, before_trans h1 h2⟩

theorem compareKeys_cases (a b : Bytes) :
    (compareKeys a b = -1 ∧ Before (tokens a) (tokens b)) ∨ (compareKeys a b = 0 ∧ a = b) ∨ (compareKeys a b = 1 ∧ Before (tokens b) (tokens a)) :=
  compareLoop_spec a.length b.length a.length a b 0 (Nat.le_refl _) (by omega) (by omega)

/-- **C123** Keys are compared in the natural order: as sequences of numbers and other bytes -/
theorem compare_natural (a b : Bytes) : (compareKeys a b < 0 ↔ Before (tokens a) (tokens b)) ∧ (compareKeys a b = 0 ↔ a = b) ∧ (0 < compareKeys a b ↔ Before (tokens b) (tokens a)) := by
  have irr := before_irrefl
  rcases compareKeys_cases a b with ⟨h1, h2⟩ | ⟨h1, h2⟩ | ⟨h1, h2⟩ <;> rw [h1]
  · exact ⟨⟨fun _ => h2, fun _ => by decide⟩, ⟨nofun, fun h => absurd h2 (h ▸ irr _)⟩, ⟨nofun, fun h => absurd (before_trans h2 h) (irr _)⟩⟩
  · subst h2
    exact ⟨⟨nofun, fun h => absurd h (irr _)⟩, ⟨fun _ => rfl, fun _ => rfl⟩, ⟨nofun, fun h => absurd h (irr _)⟩⟩
  · exact ⟨⟨nofun, fun h => absurd (before_trans h2 h) (irr _)⟩, ⟨nofun, fun h => absurd h2 (h ▸ irr _)⟩, ⟨fun _ => h2, fun _ => by decide⟩⟩

/-- **C123** The comparison is a total order, so that sorting is well defined -/
theorem compare_order (a b c : Bytes) :
    (compareKeys a b < 0 ↔ 0 < compareKeys b a) ∧ (compareKeys a b ≤ 0 → compareKeys b c ≤ 0 → compareKeys a c ≤ 0) ∧ (compareKeys a b < 0 → compareKeys b c < 0 → compareKeys a c < 0) := by
  refine ⟨by rw [(compare_natural a b).1, (compare_natural b a).2.2], ?_, ?_⟩
  · intro h1 h2
    have le : ∀ x y, compareKeys x y ≤ 0 → compareKeys x y < 0 ∨ x = y := by
      intro x y h
      by_cases h0 : compareKeys x y = 0
      · exact .inr ((compare_natural x y).2.1.1 h0)
      · exact .inl (by omega)
    rcases le _ _ h1 with h1' | rfl
    · rcases le _ _ h2 with h2' | rfl
      · have := (compare_natural a c).1.2 (before_trans ((compare_natural a b).1.1 h1') ((compare_natural b c).1.1 h2'))
        omega
      · exact h1
    · exact h2
  · intro h1 h2
    exact (compare_natural a c).1.2 (before_trans ((compare_natural a b).1.1 h1) ((compare_natural b c).1.1 h2))

/-- **C123** Numbers are compared as numbers, however long they are: `p2…` comes before `p10…` -/
theorem numbers_in_order (p m n s t : Bytes) (hp : ∀ b, p.getLast? = some b → isDigit b = false) (hm : Digits m) (hn : Digits n) (hm0 : m ≠ []) (hn0 : n ≠ [])
    (hs : ∀ b, s.head? = some b → isDigit b = false) (ht : ∀ b, t.head? = some b → isDigit b = false) (h : value m < value n) :
    compareKeys (p ++ m ++ s) (p ++ n ++ t) < 0 := by
  rw [(compare_natural _ _).1, List.append_assoc, List.append_assoc]
  have base : Before (tokens (m ++ s)) (tokens (n ++ t)) := by
    rw [tokens_run m s hm hm0 hs, tokens_run n t hn hn0 ht]
    exact .inl (.inr ⟨rfl, .inl h⟩)
  exact prefix_before p (m ++ s) (n ++ t) hp base
where
  prefix_before (p x y : Bytes) (hp : ∀ b, p.getLast? = some b → isDigit b = false) (h : Before (tokens x) (tokens y)) : Before (tokens (p ++ x)) (tokens (p ++ y)) := by
    -- from the right: the last byte is no digit, so what is before it forms the same tokens
    have split : ∀ (q : Bytes) (hq : ∀ b, q.getLast? = some b → isDigit b = false), ∀ z, tokens (q ++ z) = tokens q ++ tokens z := by
      intro q
      induction q with
      | nil => intro _ z; rfl
      | cons b q ih =>
        intro hq z
        have ih' : ∀ z, tokens (q ++ z) = tokens q ++ tokens z := by
          cases q with
          | nil => intro z; rfl
          | cons c q => exact ih (fun b' h' => hq b' (by rw [List.getLast?_cons_cons]; exact h'))
        by_cases hb : isDigit b = true
        · cases q with
          | nil => have := hq b rfl; rw [this] at hb; cases hb
          | cons c q =>
            rw [List.cons_append, tokens_digit b _ hb, tokens_digit b _ hb, ih' z]
            obtain ⟨t, ts, ht⟩ := tokens_nonempty c q
            rw [ht, List.cons_append]
            obtain ⟨k, v, n⟩ := t
            by_cases hk : k = 1
            · subst hk; rfl
            · simp [hk]
        · have hb : isDigit b = false := by simpa using hb
          rw [List.cons_append, tokens_other b _ hb, tokens_other b _ hb, ih' z]; rfl
    rw [split p hp x, split p hp y]
    generalize tokens p = ts
    induction ts with
    | nil => exact h
    | cons t ts ih => exact .inr ⟨rfl, ih⟩

end Tsgolint.Snapshot
