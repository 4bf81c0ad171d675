import Verif.Spec.CodeBox
/-!
# The scan of the lines
-/
namespace Tsgolint.CodeBox

variable (F : File) (B : Frame)

/-- What a line does to the scan -/
def Scan.after (s : Scan) (i : Int) (L : List Rune) : Scan :=
  { line := s.line
    calculated := s.calculated || (firstOff L).isSome
    last := match lastEnd L with | some e => i + e | none => s.last
    starts := match firstOff L with
      | some n => if s.calculated then s.starts else s.starts.set s.line (i + n - F.lineStart (B.first + s.line) + B.start)
      | none => s.starts
    ends := s.ends
    indent := match firstOff L with
      | some n => if s.calculated then s.indent else min s.indent (i + n - F.lineStart (B.first + s.line) + B.start)
      | none => s.indent }

theorem lastEnd_none (L : List Rune) : lastEnd L = none ↔ firstOff L = none := by
  induction L with
  | nil => simp [lastEnd, firstOff]
  | cons r rs ih =>
    unfold lastEnd firstOff
    cases hl : lastEnd rs with
    | none =>
      have h := ih.1 hl
      cases hs : r.space <;> simp [h]
    | some e =>
      have h : firstOff rs ≠ none := fun h => by simp [ih.2 h] at hl
      cases hs : r.space <;> simp [h]

theorem run_line (L : List Rune) (h : ∀ r ∈ L, r.newline = false) : ∀ (s : Scan) (i : Int) (rest : List Rune),
    Scan.run F B s i (L ++ rest) = Scan.run F B (s.after F B i L) (i + width L) rest := by
  induction L with
  | nil => intro s i rest; simp [Scan.after, firstOff, lastEnd, width]
  | cons r rs ih =>
    intro s i rest
    have hr : r.newline = false := h r (by simp)
    simp only [List.cons_append, Scan.run]
    rw [ih (fun x hx => h x (by simp [hx]))]
    have hw : i + (r.width : Int) + (width rs : Int) = i + ((width (r :: rs) : Nat) : Int) := by simp only [width]; omega
    rw [hw]
    congr 1
    simp only [Scan.step, hr, Bool.false_eq_true, if_false]
    have hnone := lastEnd_none rs
    cases hs : r.space with
    | true =>
      simp only [Scan.rune, hs, if_true, Scan.after, firstOff, lastEnd]
      cases hf : firstOff rs with
      | none => simp [hnone.2 hf]
      | some n =>
        cases hl : lastEnd rs with
        | none => simp [hnone.1 hl] at hf
        | some e =>
          have h1 : i + (r.width : Int) + (n : Int) = i + ((r.width + n : Nat) : Int) := by omega
          have h2 : i + (r.width : Int) + (e : Int) = i + ((r.width + e : Nat) : Int) := by omega
          simp only [Option.map_some, h1, h2, Option.isSome_some]
    | false =>
      simp only [Scan.rune, hs, Bool.false_eq_true, if_false, Scan.after, firstOff, lastEnd, Option.isSome_some, Bool.or_true]
      cases hc : s.calculated with
      | true =>
        simp only [if_true, Bool.true_or, Scan.mk.injEq, true_and, and_true, hc]
        cases hf : firstOff rs with
        | none => simp [hnone.2 hf]
        | some n =>
          cases hl : lastEnd rs with
          | none => simp [hnone.1 hl] at hf
          | some e => simp only [true_and, and_true]; omega
      | false =>
        simp only [Bool.false_eq_true, if_false, Bool.true_or, Scan.mk.injEq, true_and]
        cases hf : firstOff rs with
        | none => simp [hnone.2 hf]
        | some n =>
          cases hl : lastEnd rs with
          | none => simp [hnone.1 hl] at hf
          | some e => simp; omega

/-- What the scan of lines from the `j`-th on finds -/
structure Finds (s r : Scan) (i : Int) (Ls : List (List Rune)) : Prop where
  before : ∀ m, m < s.line → r.starts.getD m 0 = s.starts.getD m 0 ∧ r.ends.getD m 0 = s.ends.getD m 0
  here : ∀ m L, Ls[m]? = some L → r.starts.getD (s.line + m) 0 = (match firstOff L with | some n => (n : Int) | none => s.starts.getD (s.line + m) 0) ∧
    r.ends.getD (s.line + m) 0 = (match lastEnd L with | some e => (e : Int) | none => -1 - (i + offset Ls m))
  indentLe : r.indent ≤ s.indent ∧ ∀ L ∈ Ls, ∀ n, firstOff L = some n → r.indent ≤ n
  indentIs : r.indent = s.indent ∨ ∃ L ∈ Ls, ∃ n : Nat, firstOff L = some n ∧ r.indent = n

theorem getD_set (l : List Int) (k m : Nat) (v : Int) (h : k < l.length) : (l.set k v).getD m 0 = if m = k then v else l.getD m 0 := by
  by_cases hm : m = k
  · subst hm; simp [h]
  · simp [List.getElem?_set, hm, Ne.symm hm]

theorem after_starts (s : Scan) (i : Int) (L : List Rune) (hc : s.calculated = false) (hl : s.line < s.starts.length)
    (hi : F.lineStart (B.first + s.line) = B.start + i) (m : Nat) :
    (s.after F B i L).starts.getD m 0 = if m = s.line then (match firstOff L with | some n => (n : Int) | none => s.starts.getD m 0) else s.starts.getD m 0 := by
  unfold Scan.after
  cases hf : firstOff L with
  | none => simp
  | some n =>
    simp only [hc, Bool.false_eq_true, if_false]
    rw [getD_set _ _ _ _ hl]
    split
    · omega
    · rfl

theorem after_indent (s : Scan) (i : Int) (L : List Rune) (hc : s.calculated = false)
    (hi : F.lineStart (B.first + s.line) = B.start + i) :
    (s.after F B i L).indent = match firstOff L with | some n => min s.indent n | none => s.indent := by
  unfold Scan.after
  cases hf : firstOff L with
  | none => simp
  | some n =>
    simp only [hc, Bool.false_eq_true, if_false]
    have : i + (n : Int) - F.lineStart (B.first + s.line) + B.start = n := by omega
    rw [this]

theorem after_last (s : Scan) (i : Int) (L : List Rune) (hlast : s.last = -1)
    (hi : F.lineStart (B.first + s.line) = B.start + i) :
    (s.after F B i L).lineEnd F B = match lastEnd L with | some e => (e : Int) | none => -1 - i := by
  unfold Scan.lineEnd Scan.after
  cases hf : lastEnd L with
  | none => simp only [hlast]; omega
  | some e => simp only []; omega

theorem starts_length (s : Scan) (i : Int) (L : List Rune) : (s.after F B i L).starts.length = s.starts.length := by
  unfold Scan.after
  cases firstOff L <;> simp
  split <;> simp

theorem run_lines (Ls : List (List Rune)) : ∀ (s : Scan) (i : Int), Ls ≠ [] → (∀ L ∈ Ls, ∀ r ∈ L, r.newline = false) →
    s.calculated = false → s.last = -1 → s.starts.length = 13 → s.ends.length = 13 → s.line + Ls.length ≤ 13 →
    B.first + s.line + Ls.length = B.last + 1 →
    (∀ m, m < Ls.length → F.lineStart (B.first + s.line + m) = B.start + i + offset Ls m) →
    Finds s ((Scan.run F B s i (joinLines Ls)).finish F B) i Ls := by
  induction Ls with
  | nil => intro s i h; exact absurd rfl h
  | cons L Ls ih =>
    intro s i _ hp hc hlast hss hse h13 hlen hoff
    have h0 : F.lineStart (B.first + s.line) = B.start + i := by
      have := hoff 0 (by simp)
      simpa [offset] using this
    have hline : s.line < 13 := by simp at h13; omega
    cases Ls with
    | nil =>
      have hrun := run_line F B L (hp L (by simp)) s i []
      simp only [List.append_nil] at hrun
      simp only [joinLines, hrun, Scan.run]
      have hfin : B.first + (s.after F B i L).line = B.last := by
        have : (s.after F B i L).line = s.line := rfl
        rw [this]; simp at hlen; omega
      simp only [Scan.finish, hfin, if_true]
      have hlen' : (s.after F B i L).line < (s.after F B i L).ends.length := by
        show s.line < s.ends.length; omega
      refine ⟨?_, ?_, ?_, ?_⟩
      · intro m hm
        rw [getD_set _ _ _ _ hlen', after_starts F B s i L hc (by omega) h0]
        have h1 : ¬ m = (s.after F B i L).line := by show ¬ m = s.line; omega
        have h2 : ¬ m = s.line := by omega
        simp only [h1, h2, if_false, true_and]
        rfl
      · intro m L' hL'
        cases m with
        | succ m => simp at hL'
        | zero =>
          simp only [List.getElem?_cons_zero, Option.some.injEq] at hL'
          subst hL'
          rw [getD_set _ _ _ _ hlen', after_starts F B s i L hc (by omega) h0, after_last F B s i L hlast h0]
          have h1 : s.line + 0 = (s.after F B i L).line := rfl
          simp only [h1, if_true, Nat.add_zero, offset]
          simp
          intro h
          exact absurd rfl h
      · refine ⟨?_, ?_⟩
        · show (s.after F B i L).indent ≤ s.indent
          rw [after_indent F B s i L hc h0]
          cases firstOff L <;> simp <;> omega
        · intro L' hL' n hn
          simp only [List.mem_singleton] at hL'
          subst hL'
          show (s.after F B i L').indent ≤ n
          rw [after_indent F B s i L' hc h0]
          simp only [hn]; exact Int.min_le_right _ _
      · show (s.after F B i L).indent = s.indent ∨ ∃ L' ∈ [L], ∃ n : Nat, firstOff L' = some n ∧ (s.after F B i L).indent = n
        rw [after_indent F B s i L hc h0]
        cases hf : firstOff L with
        | none => exact .inl rfl
        | some n =>
          simp only []
          by_cases h : s.indent ≤ n
          · left; omega
          · right; exact ⟨L, by simp, n, hf, by omega⟩
    | cons L2 Ls =>
      have hrun := run_line F B L (hp L (by simp)) s i (⟨1, false, true⟩ :: joinLines (L2 :: Ls))
      simp only [joinLines, hrun, Scan.run]
      have hne : B.first + (s.after F B i L).line ≠ B.last := by
        show B.first + s.line ≠ B.last
        simp at hlen; omega
      simp only [Scan.step, if_true, hne, ne_eq, not_false_eq_true]
      have hlen' : (s.after F B i L).line < (s.after F B i L).ends.length := by
        show s.line < s.ends.length; omega
      have IH := ih { (s.after F B i L) with
          calculated := false
          ends := (s.after F B i L).ends.set (s.after F B i L).line ((s.after F B i L).lineEnd F B)
          last := -1
          line := (s.after F B i L).line + 1 } (i + width L + 1) (by simp) (fun L' hL' => hp L' (by simp [hL'])) rfl rfl
          ((starts_length F B s i L).trans hss) (by simp [List.length_set]; exact hse)
          (by show s.line + 1 + (L2 :: Ls).length ≤ 13; simp at h13 ⊢; omega)
          (by show B.first + (s.line + 1) + (L2 :: Ls).length = B.last + 1; simp at hlen ⊢; omega)
          (by
            intro m hm
            have := hoff (m + 1) (by simp at hm ⊢; omega)
            simp only [offset] at this
            show F.lineStart (B.first + (s.line + 1) + m) = _
            have e : B.first + (s.line + 1) + m = B.first + s.line + (m + 1) := by omega
            rw [e, this]
            omega)
      have hw : i + (width L : Int) + ((1 : Nat) : Int) = i + width L + 1 := by omega
      rw [hw]
      obtain ⟨b1, b2, ⟨b3, b4⟩, b5⟩ := IH
      have e1 : ∀ m, (({ (s.after F B i L) with
          calculated := false
          ends := (s.after F B i L).ends.set (s.after F B i L).line ((s.after F B i L).lineEnd F B)
          last := -1
          line := (s.after F B i L).line + 1 } : Scan)).ends.getD m 0 = if m = s.line then ((s.after F B i L).lineEnd F B) else s.ends.getD m 0 :=
        fun m => getD_set _ _ _ _ hlen'
      have e2 := after_starts F B s i L hc (by omega) h0
      refine ⟨?_, ?_, ⟨?_, ?_⟩, ?_⟩
      · intro m hm
        obtain ⟨h1, h2⟩ := b1 m (by show m < s.line + 1; omega)
        rw [h1, h2, e1]
        have hm' : ¬ m = s.line := by omega
        rw [if_neg hm']
        refine ⟨?_, rfl⟩
        have := e2 m
        rw [if_neg hm'] at this
        exact this
      · intro m L' hL'
        cases m with
        | zero =>
          simp only [List.getElem?_cons_zero, Option.some.injEq] at hL'
          subst hL'
          obtain ⟨h1, h2⟩ := b1 s.line (by show s.line < s.line + 1; omega)
          simp only [Nat.add_zero]
          rw [h1, h2, e1, if_pos rfl, after_last F B s i L hlast h0]
          refine ⟨?_, ?_⟩
          · have := e2 s.line
            rw [if_pos rfl] at this
            exact this
          · simp only [offset]; cases lastEnd L <;> simp
        | succ m =>
          simp only [List.getElem?_cons_succ] at hL'
          obtain ⟨h1, h2⟩ := b2 m L' hL'
          have e : s.line + (m + 1) = s.line + 1 + m := by omega
          have h1' : Eq (List.getD (Scan.finish F B _).starts (s.line + 1 + m) 0) _ := h1
          have h2' : Eq (List.getD (Scan.finish F B _).ends (s.line + 1 + m) 0) _ := h2
          rw [e, h1', h2']
          refine ⟨?_, ?_⟩
          · cases hf : firstOff L' with
            | some n => rfl
            | none =>
              simp only []
              have := e2 (s.line + 1 + m)
              rw [if_neg (by omega)] at this
              exact this
          · cases hf : lastEnd L' with
            | some n => rfl
            | none => simp only [offset]; omega
      · refine Int.le_trans b3 ?_
        show (s.after F B i L).indent ≤ s.indent
        rw [after_indent F B s i L hc h0]
        cases firstOff L <;> simp <;> omega
      · intro L' hL' n hn
        rcases List.mem_cons.1 hL' with rfl | hL'
        · refine Int.le_trans b3 ?_
          show (s.after F B i L').indent ≤ n
          rw [after_indent F B s i L' hc h0]
          simp only [hn]; exact Int.min_le_right _ _
        · exact b4 L' hL' n hn
      · rcases b5 with h | ⟨L', hL', n, hn, h⟩
        · have h' : Eq (Scan.finish F B _).indent (s.after F B i L).indent := h
          rw [h', after_indent F B s i L hc h0]
          cases hf : firstOff L with
          | none => exact .inl rfl
          | some n =>
            simp only []
            by_cases h : s.indent ≤ n
            · left; omega
            · right; exact ⟨L, by simp, n, hf, by omega⟩
        · right; exact ⟨L', by simp [List.mem_cons.1 hL'], n, hn, h⟩

end Tsgolint.CodeBox
