import Verif.Proof.CodeBox
/-!
# C108: the code shown with a diagnostic
-/
namespace Tsgolint.CodeBox

open Tsgolint.Fixer (Bytes goSlice)

/-! ### Offsets -/

/-- **C108** What the rule for the beginning means -/
theorem firstOff_iff (L : List Rune) (n : Nat) : firstOff L = some n ↔
    ∃ S r R, L = S ++ r :: R ∧ (∀ x ∈ S, x.space = true) ∧ r.space = false ∧ n = width S := by
  induction L generalizing n with
  | nil => simp [firstOff]
  | cons x xs ih =>
    unfold firstOff
    cases hx : x.space with
    | false =>
      simp only [Bool.false_eq_true, if_false, Option.some.injEq]
      constructor
      · rintro rfl; exact ⟨[], x, xs, rfl, by simp, hx, rfl⟩
      · rintro ⟨S, r, R, e, hS, hr, rfl⟩
        cases S with
        | nil => rfl
        | cons y ys =>
          simp only [List.cons_append, List.cons.injEq] at e
          have := hS y (by simp)
          rw [← e.1, hx] at this; cases this
    | true =>
      simp only [if_true, Option.map_eq_some_iff]
      constructor
      · rintro ⟨k, hk, rfl⟩
        obtain ⟨S, r, R, rfl, hS, hr, rfl⟩ := (ih k).1 hk
        exact ⟨x :: S, r, R, rfl, List.forall_mem_cons.2 ⟨hx, hS⟩, hr, rfl⟩
      · rintro ⟨S, r, R, e, hS, hr, rfl⟩
        cases S with
        | nil =>
          simp only [List.nil_append, List.cons.injEq] at e
          rw [← e.1, hx] at hr; cases hr
        | cons y ys =>
          simp only [List.cons_append, List.cons.injEq] at e
          refine ⟨width ys, (ih _).2 ⟨ys, r, R, e.2, fun z hz => hS z (by simp [hz]), hr, rfl⟩, ?_⟩
          rw [e.1]; rfl

theorem lastEnd_spaces (L : List Rune) (h : ∀ x ∈ L, x.space = true) : lastEnd L = none := by
  induction L with
  | nil => rfl
  | cons x xs ih => simp [lastEnd, ih fun y hy => h y (by simp [hy]), h x (by simp)]

theorem lastEnd_append (A : List Rune) (r : Rune) (S : List Rune) (hr : r.space = false) (hS : ∀ x ∈ S, x.space = true) :
    lastEnd (A ++ r :: S) = some (width A + 1) := by
  induction A with
  | nil => simp [lastEnd, lastEnd_spaces S hS, hr, width]
  | cons a A ih => simp [lastEnd, ih, width, Nat.add_assoc]

/-- **C108** What the rule for the end means: one byte of the last rune that is not white space is shown, however many it has -/
theorem lastEnd_iff (L : List Rune) (e : Nat) : lastEnd L = some e ↔
    ∃ A r S, L = A ++ r :: S ∧ r.space = false ∧ (∀ x ∈ S, x.space = true) ∧ e = width A + 1 := by
  constructor
  · induction L generalizing e with
    | nil => simp [lastEnd]
    | cons x xs ih =>
      unfold lastEnd
      cases hl : lastEnd xs with
      | some k =>
        simp only [Option.some.injEq]
        rintro rfl
        obtain ⟨A, r, S, rfl, hr, hS, rfl⟩ := ih k hl
        exact ⟨x :: A, r, S, rfl, hr, hS, by simp [width, Nat.add_assoc]⟩
      | none =>
        cases hx : x.space with
        | true => simp
        | false =>
          simp only [Bool.false_eq_true, if_false, Option.some.injEq]
          rintro rfl
          refine ⟨[], x, xs, rfl, hx, ?_, by simp [width]⟩
          have h := (lastEnd_none xs).1 hl
          intro y hy
          cases hys : y.space with
          | true => rfl
          | false =>
            exfalso
            clear ih hl
            induction xs with
            | nil => simp at hy
            | cons z zs ih =>
              unfold firstOff at h
              cases hz : z.space with
              | false => simp [hz] at h
              | true =>
                simp only [hz, if_true, Option.map_eq_none_iff] at h
                rcases List.mem_cons.1 hy with rfl | hy
                · simp [hz] at hys
                · exact ih h hy
  · rintro ⟨A, r, S, rfl, hr, hS, rfl⟩
    exact lastEnd_append A r S hr hS

theorem first_lt_last (L : List Rune) (n e : Nat) (hn : firstOff L = some n) (he : lastEnd L = some e) (hw : ∀ r ∈ L, 1 ≤ r.width) : n < e ∧ e ≤ width L := by
  induction L generalizing n e with
  | nil => simp [firstOff] at hn
  | cons x xs ih =>
    have hx := hw x (by simp)
    have hw' : ∀ r ∈ xs, 1 ≤ r.width := fun r hr => hw r (by simp [hr])
    unfold lastEnd at he
    unfold firstOff at hn
    cases hl : lastEnd xs with
    | none =>
      cases hs : x.space with
      | true => simp [hl, hs] at he
      | false =>
        simp [hl, hs] at he hn
        simp only [width]; omega
    | some k =>
      simp only [hl, Option.some.injEq] at he
      cases hf : firstOff xs with
      | none => rw [(lastEnd_none xs).2 hf] at hl; cases hl
      | some j =>
        obtain ⟨h1, h2⟩ := ih j k hf hl hw'
        cases hs : x.space with
        | true => simp [hs, hf] at hn; simp only [width]; omega
        | false => simp [hs] at hn; simp only [width]; omega

theorem offset_total (Ls : List (List Rune)) : ∀ (m : Nat) (L : List Rune), Ls[m]? = some L → offset Ls m + width L ≤ width (joinLines Ls) := by
  have happ : ∀ (A C : List Rune), width (A ++ C) = width A + width C := by
    intro A C; induction A with
    | nil => simp [width]
    | cons a A ih => simp [width, ih, Nat.add_assoc]
  induction Ls with
  | nil => intro m L h; simp at h
  | cons L0 Ls ih =>
    intro m L h
    cases m with
    | zero =>
      simp only [List.getElem?_cons_zero, Option.some.injEq] at h
      subst h
      cases Ls with
      | nil => simp [offset, joinLines]
      | cons L1 Ls => simp [offset, joinLines, happ]
    | succ m =>
      simp only [List.getElem?_cons_succ] at h
      have := ih m L h
      cases Ls with
      | nil => simp at h
      | cons L1 Ls =>
        simp only [offset, joinLines, happ, width]
        omega

theorem offset_next (Ls : List (List Rune)) : ∀ (m : Nat) (L : List Rune), Ls[m]? = some L → m + 1 < Ls.length → offset Ls (m + 1) = offset Ls m + width L + 1 := by
  induction Ls with
  | nil => intro m L h; simp at h
  | cons L0 Ls ih =>
    intro m L h hm
    cases m with
    | zero =>
      simp only [List.getElem?_cons_zero, Option.some.injEq] at h
      subst h
      cases Ls with
      | nil => simp at hm
      | cons L1 Ls => simp [offset]
    | succ m =>
      simp only [List.getElem?_cons_succ] at h
      have := ih m L h (by simpa using hm)
      simp only [offset]
      omega

theorem replicate_getD (n m : Nat) : (List.replicate n (0 : Int)).getD m 0 = 0 := by
  simp only [List.getD, List.getElem?_replicate]
  split <;> rfl

/-! ### Rows -/

theorem goSlice_between (text : Bytes) (lo hi : Nat) (h : lo ≤ hi) (h' : hi ≤ text.length) : goSlice text lo hi = some (between text lo hi) := by
  unfold goSlice between
  rw [if_pos (by omega)]
  simp

theorem display_between (F : File) (lo a b hi : Nat) (h1 : lo ≤ a) (h2 : a ≤ b) (h3 : b ≤ hi) (h4 : hi ≤ F.text.length) :
    display F lo hi a b = some (if a = b then .plain (between F.text lo hi) else .marked (between F.text lo a) (between F.text a b) (between F.text b hi)) := by
  unfold display
  by_cases hab : a = b
  · subst hab
    simp only [ne_eq, not_true_eq_false, if_false, if_true]
    by_cases hl : lo = hi
    · subst hl; simp [between]
    · rw [if_pos (by omega), goSlice_between _ _ _ (by omega) h4]; rfl
  · rw [if_pos (by omega), goSlice_between _ _ _ h1 (by omega), goSlice_between _ _ _ h2 (by omega), goSlice_between _ _ _ h3 h4]
    simp [hab]

theorem on_iff {F : File} (hF : GoodLines F) (line p : Nat) (hl : line < F.lineMap.length) : F.on line p = true ↔ line = F.lineOf p := by
  unfold File.on
  simp only [Bool.and_eq_true, Bool.or_eq_true, decide_eq_true_eq]
  have h1 := hF.found p
  have h2 := hF.above p
  have h3 := hF.below p
  constructor
  · rintro ⟨h, h'⟩
    rcases Nat.lt_trichotomy line (F.lineOf p) with hlt | he | hgt
    · exfalso
      have hnext : F.lineStart (line + 1) ≤ F.lineStart (F.lineOf p) := by
        rcases Nat.lt_or_ge (line + 1) (F.lineOf p) with h4 | h4
        · exact Int.le_of_lt (hF.sorted _ _ h4 h1)
        · have : line + 1 = F.lineOf p := by omega
          rw [this]; exact Int.le_refl _
      rcases h' with h' | h'
      · omega
      · omega
    · exact he
    · exfalso
      have := h3 (by omega)
      have hnext : F.lineStart (F.lineOf p + 1) ≤ F.lineStart line := by
        rcases Nat.lt_or_ge (F.lineOf p + 1) line with h4 | h4
        · exact Int.le_of_lt (hF.sorted _ _ h4 hl)
        · have : F.lineOf p + 1 = line := by omega
          rw [this]; exact Int.le_refl _
      omega
  · rintro rfl
    refine ⟨h2, ?_⟩
    rcases Nat.lt_or_ge (F.lineOf p + 1) F.lineMap.length with h | h
    · exact .inr (h3 h)
    · left; omega

theorem lineOf_mono {F : File} (hF : GoodLines F) {p q : Nat} (h : p ≤ q) : F.lineOf p ≤ F.lineOf q := by
  rcases Nat.lt_or_ge (F.lineOf q) (F.lineOf p) with hlt | hge
  · exfalso
    have h1 := hF.below q (by have := hF.found p; omega)
    have h2 := hF.above p
    have hnext : F.lineStart (F.lineOf q + 1) ≤ F.lineStart (F.lineOf p) := by
      rcases Nat.lt_or_ge (F.lineOf q + 1) (F.lineOf p) with h4 | h4
      · exact Int.le_of_lt (hF.sorted _ _ h4 (hF.found p))
      · have : F.lineOf q + 1 = F.lineOf p := by omega
        rw [this]; exact Int.le_refl _
    omega
  · exact hge

theorem lineStart_mono {F : File} (hF : GoodLines F) {k l : Nat} (h : k ≤ l) (hl : l < F.lineMap.length) : F.lineStart k ≤ F.lineStart l := by
  rcases Nat.lt_or_ge k l with h4 | h4
  · exact Int.le_of_lt (hF.sorted _ _ h4 hl)
  · have : k = l := by omega
    rw [this]; exact Int.le_refl _

/-- What is marked on a line, from its bounds: what is shown goes from `T` to `E`, the text begins at `N` -/
theorem underline_bounds {F : File} (hF : GoodLines F) (B : Frame) (s : Scan) (start stop line : Nat) (hss : start ≤ stop)
    (hl : line < F.lineMap.length) (T N E : Nat)
    (hT : textStart F s line = T) (hN : firstStart F B s line = N) (hE : textEnd F B s line = E)
    (h1 : T ≤ N) (h2 : N ≤ E) (hbegin : F.lineStart line ≤ T) (hnext : line ≤ F.lineOf stop → line + 1 < F.lineMap.length → T = E ∨ (E : Int) ≤ F.lineStart (line + 1)) :
    ∃ a b : Nat, underline F B s start stop (decide (F.lineOf start < line ∧ line ≤ F.lineOf stop)) line =
        ((a : Int), (b : Int), decide (F.lineOf start ≤ line ∧ line < F.lineOf stop)) ∧
      T ≤ a ∧ a ≤ b ∧ b ≤ E ∧ ∀ p, a ≤ p ∧ p < b ↔ Marked start stop (line = F.lineOf start) T E N p := by
  have hmono := lineOf_mono hF hss
  have hfa := hF.found start
  have hfo := hF.found stop
  have haa := hF.above start
  have hao := hF.above stop
  have ho1 := on_iff hF line start hl
  have ho2 := on_iff hF line stop hl
  unfold underline
  simp only [hT, hN, hE]
  by_cases hpast : F.lineOf stop < line
  · -- after the diagnostic
    have e1 : F.on line start = false := by cases h : F.on line start with
      | false => rfl
      | true => have := ho1.1 h; omega
    have e2 : F.on line stop = false := by cases h : F.on line stop with
      | false => rfl
      | true => have := ho2.1 h; omega
    have d1 : decide (F.lineOf start < line ∧ line ≤ F.lineOf stop) = false := decide_eq_false (by omega)
    have d2 : decide (F.lineOf start ≤ line ∧ line < F.lineOf stop) = false := decide_eq_false (by omega)
    rw [d1, d2]
    simp only [e1, e2, Bool.false_eq_true, if_false]
    refine ⟨N, N, rfl, h1, Nat.le_refl _, h2, ?_⟩
    intro p
    unfold Marked
    have hb := hF.below stop (by omega)
    have hm := lineStart_mono hF (show F.lineOf stop + 1 ≤ line by omega) hl
    constructor
    · omega
    · rintro ⟨h, -, -, h', -⟩; omega
  · by_cases hpre : line < F.lineOf start
    · have e1 : F.on line start = false := by cases h : F.on line start with
        | false => rfl
        | true => have := ho1.1 h; omega
      have e2 : F.on line stop = false := by cases h : F.on line stop with
        | false => rfl
        | true => have := ho2.1 h; omega
      have d1 : decide (F.lineOf start < line ∧ line ≤ F.lineOf stop) = false := decide_eq_false (by omega)
      have d2 : decide (F.lineOf start ≤ line ∧ line < F.lineOf stop) = false := decide_eq_false (by omega)
      rw [d1, d2]
      simp only [e1, e2, Bool.false_eq_true, if_false]
      refine ⟨N, N, rfl, h1, Nat.le_refl _, h2, ?_⟩
      intro p
      unfold Marked
      have hm := lineStart_mono hF (show line + 1 ≤ F.lineOf start by omega) hfa
      have hn := hnext (by omega) (by omega)
      constructor
      · omega
      · rintro ⟨h0, h, h', -⟩; omega
    · by_cases hfirst : line = F.lineOf start
      · have e1 : F.on line start = true := ho1.2 hfirst
        have d1 : decide (F.lineOf start < line ∧ line ≤ F.lineOf stop) = false := decide_eq_false (by omega)
        rw [d1]
        simp only [e1, Bool.false_eq_true, if_false, if_true]
        by_cases hlast : line = F.lineOf stop
        · have e2 : F.on line stop = true := ho2.2 hlast
          have d2 : decide (F.lineOf start ≤ line ∧ line < F.lineOf stop) = false := decide_eq_false (by omega)
          rw [d2]
          simp only [e2, if_true]
          refine ⟨min (max T start) E, min (max (min (max T start) E) stop) E, ?_, by omega, by omega, by omega, ?_⟩
          · simp only [Prod.mk.injEq, and_true]; omega
          · intro p; unfold Marked; simp only [hfirst, true_or, and_true]; omega
        · have e2 : F.on line stop = false := by cases h : F.on line stop with
            | false => rfl
            | true => have := ho2.1 h; omega
          have d2 : decide (F.lineOf start ≤ line ∧ line < F.lineOf stop) = true := decide_eq_true (by omega)
          rw [d2]
          simp only [e2, Bool.false_eq_true, if_false]
          refine ⟨min (max T start) E, E, ?_, by omega, by omega, by omega, ?_⟩
          · simp only [Prod.mk.injEq, and_true]; omega
          · intro p
            have hm := lineStart_mono hF (show line + 1 ≤ F.lineOf stop by omega) hfo
            have hn := hnext (by omega) (by omega)
            unfold Marked; simp only [hfirst, true_or, and_true]; omega
      · have d1 : decide (F.lineOf start < line ∧ line ≤ F.lineOf stop) = true := decide_eq_true (by omega)
        rw [d1]
        simp only [if_true]
        have hb := hF.below start (by omega)
        have hm0 := lineStart_mono hF (show F.lineOf start + 1 ≤ line by omega) hl
        by_cases hlast : line = F.lineOf stop
        · have e2 : F.on line stop = true := ho2.2 hlast
          have d2 : decide (F.lineOf start ≤ line ∧ line < F.lineOf stop) = false := decide_eq_false (by omega)
          rw [d2]
          simp only [e2, if_true]
          refine ⟨N, min (max N stop) E, ?_, by omega, by omega, by omega, ?_⟩
          · simp only [Prod.mk.injEq, and_true, true_and]; omega
          · intro p; unfold Marked; simp only [hfirst, false_or]; omega
        · have e2 : F.on line stop = false := by cases h : F.on line stop with
            | false => rfl
            | true => have := ho2.1 h; omega
          have d2 : decide (F.lineOf start ≤ line ∧ line < F.lineOf stop) = true := decide_eq_true (by omega)
          rw [d2]
          simp only [e2, Bool.false_eq_true, if_false]
          refine ⟨N, E, rfl, h1, h2, Nat.le_refl _, ?_⟩
          intro p
          have hm := lineStart_mono hF (show line + 1 ≤ F.lineOf stop by omega) hfo
          have hn := hnext (by omega) (by omega)
          unfold Marked; simp only [hfirst, false_or]; omega

/-- Numbers are aligned -/
theorem digits_aligned (B : Frame) (line : Nat) (h : line ≤ B.last) (h12 : B.last ≤ line + 12) :
    digits (line + 1) + (if padded B line then 1 else 0) = digits (B.last + 1) := by
  have hpos : ∀ n, 0 < digits n := fun n => Nat.length_toDigits_pos
  have hle : ∀ n k, 0 < k → (digits n ≤ k ↔ n < 10 ^ k) := fun n k hk => Nat.length_toDigits_le_iff (by omega) hk
  have h1 := (hle (line + 1) (digits (line + 1)) (hpos _)).1 (Nat.le_refl _)
  have h2 : digits (line + 1) ≤ digits (B.last + 1) := (hle _ _ (hpos _)).2 (by
    have := (hle (B.last + 1) (digits (B.last + 1)) (hpos _)).1 (Nat.le_refl _); omega)
  have h3 : digits (B.last + 1) ≤ digits (line + 1) + 1 := (hle _ _ (by omega)).2 (by
    have h10 : 10 ≤ 10 ^ digits (line + 1) := Nat.le_self_pow (Nat.pos_iff_ne_zero.1 (hpos _)) 10
    rw [Nat.pow_succ]; omega)
  unfold padded
  by_cases hl : line = B.last
  · subst hl; simp
  · by_cases hd : digits (line + 1) < digits (B.last + 1)
    · simp [hl, hd]; omega
    · simp [hl, hd]; omega

theorem scan_finds {F : File} {start stop : Nat} {lines : List (List Rune)} (hB : Box F start stop lines) (h13 : lines.length ≤ 13)
    (hne : lines ≠ []) : Finds Scan.init (scan F (frame F start stop)) 0 lines := by
  unfold scan
  rw [hB.runes]
  refine run_lines F (frame F start stop) lines .init 0 hne hB.plain rfl rfl rfl rfl ?_ ?_ ?_
  · show 0 + lines.length ≤ 13; omega
  · show (frame F start stop).first + 0 + lines.length = _; have := hB.count; omega
  · intro m hm
    show F.lineStart ((frame F start stop).first + 0 + m) = F.lineStart (frame F start stop).first + 0 + offset lines m
    rw [Nat.add_zero, hB.starts m hm]; omega

theorem fits {F : File} {start stop : Nat} {lines : List (List Rune)} (hB : Box F start stop lines) (m : Nat) (L : List Rune) (h : lines[m]? = some L) :
    F.lineStart ((frame F start stop).first + m) + width L ≤ F.text.length := by
  have h1 := offset_total lines m L h
  have h2 := hB.starts m (List.getElem?_eq_some_iff.1 h).1
  have h3 := hB.stops
  have h4 := hB.inside
  omega

theorem indent_eq {F : File} {start stop : Nat} {lines : List (List Rune)} (hB : Box F start stop lines) (h13 : lines.length ≤ 13)
    {indent : Nat} (hi : Indent lines indent) : (scan F (frame F start stop)).indent = indent := by
  obtain ⟨⟨L, hL, hf⟩, hmin⟩ := hi
  have hne : lines ≠ [] := List.ne_nil_of_mem hL
  obtain ⟨-, -, ⟨-, hle⟩, his⟩ := scan_finds hB h13 hne
  have h1 := hle L hL indent hf
  rcases his with h | ⟨L', hL', n, hn, h⟩
  · exfalso
    obtain ⟨m, hm⟩ := List.getElem?_of_mem hL
    have h2 := fits hB m L hm
    cases hl : lastEnd L with
    | none => rw [(lastEnd_none L).1 hl] at hf; cases hf
    | some e =>
      have h3 := first_lt_last L indent e hf hl (hB.wide L hL)
      have h4 := hB.small
      have h5 : F.lineStart ((frame F start stop).first + m) ≥ 0 := by unfold File.lineStart; omega
      have h6 : Scan.init.indent = 9223372036854775807 := rfl
      omega
  · have := hmin L' hL' n hn
    omega

theorem row_says {F : File} (hF : GoodLines F) {start stop : Nat} {lines : List (List Rune)} (hB : Box F start stop lines) (h13 : lines.length ≤ 13)
    {indent : Nat} (hi : Indent lines indent) (m : Nat) (L : List Rune) (hL : lines[m]? = some L) :
    ∃ (a b : Int) (shown : Shown),
      underline F (frame F start stop) (scan F (frame F start stop)) start stop
        (decide (F.lineOf start < (frame F start stop).first + m ∧ (frame F start stop).first + m ≤ F.lineOf stop)) ((frame F start stop).first + m)
        = (a, b, decide (F.lineOf start ≤ (frame F start stop).first + m ∧ (frame F start stop).first + m < F.lineOf stop)) ∧
      display F (textStart F (scan F (frame F start stop)) ((frame F start stop).first + m))
        (textEnd F (frame F start stop) (scan F (frame F start stop)) ((frame F start stop).first + m)) a b = some shown ∧
      Shows F start stop ((frame F start stop).first + m) (F.lineMap.getD ((frame F start stop).first + m) 0) indent L shown := by
  have hLm : L ∈ lines := List.mem_of_getElem? hL
  have hm := (List.getElem?_eq_some_iff.1 hL).1
  have hne : lines ≠ [] := List.ne_nil_of_mem hLm
  have hind := indent_eq hB h13 hi
  obtain ⟨-, hhere, -, -⟩ := scan_finds hB h13 hne
  obtain ⟨hs, he⟩ := hhere m L hL
  simp only [show Scan.init.line = 0 from rfl, Nat.zero_add] at hs he
  generalize hB' : frame F start stop = B at *
  generalize hsc : scan F B = s at *
  have hcount := hB.count
  have hstarts := hB.starts
  have hinside := hB.inside
  have hstops := hB.stops
  rw [hB'] at hcount hstarts hinside hstops
  have hfit := fits hB m L hL
  rw [hB'] at hfit
  have hsmall := hB.small
  have hlast : B.last = min (F.lineOf stop + 1) (F.lineMap.length - 1) := by rw [← hB']; rfl
  have hpos : 0 < F.lineMap.length := Nat.lt_of_le_of_lt (Nat.zero_le _) (hF.found 0)
  have hline : B.first + m < F.lineMap.length := by omega
  have hbegin : F.lineStart (B.first + m) = (F.lineMap.getD (B.first + m) 0 : Nat) := rfl
  generalize F.lineMap.getD (B.first + m) 0 = begin at *
  have hsub : B.first + m - B.first = m := by omega
  have h0 : (start : Nat) ≤ stop := hB.le
  -- the indentation is small
  obtain ⟨⟨L0, hL0, hf0⟩, hmin⟩ := hi
  obtain ⟨m0, hm0⟩ := List.getElem?_of_mem hL0
  have hfit0 := fits hB m0 L0 hm0
  rw [hB'] at hfit0
  have hw0 : indent < width L0 := by
    cases hl : lastEnd L0 with
    | none => rw [(lastEnd_none L0).1 hl] at hf0; cases hf0
    | some e => have := first_lt_last L0 indent e hf0 hl (hB.wide L0 hL0); omega
  have hp0 : F.lineStart (B.first + m0) ≥ 0 := by unfold File.lineStart; omega
  have hT : textStart F s (B.first + m) = ((begin + indent : Nat) : Int) := by
    unfold textStart
    rw [hbegin, hind]
    unfold wrap maxInt
    rw [if_neg (by omega)]
    omega
  cases hf : firstOff L with
  | none =>
    have hl := (lastEnd_none L).2 hf
    rw [hf] at hs
    rw [hl] at he
    simp only at hs he
    have hs0 : Scan.init.starts.getD m 0 = 0 := by
      exact replicate_getD 13 m
    have hN : firstStart F B s (B.first + m) = ((begin + indent : Nat) : Int) := by
      unfold firstStart; rw [hT, hsub, hs, hs0, hbegin]; omega
    have hE : textEnd F B s (B.first + m) = ((begin + indent : Nat) : Int) := by
      unfold textEnd; rw [hT, hsub, he, hbegin]
      have := hstarts m hm
      omega
    obtain ⟨a, b, hu, h1, h2, h3, -⟩ := underline_bounds hF B s start stop (B.first + m) h0 hline _ _ _ hT hN hE (Nat.le_refl _) (Nat.le_refl _)
      (by rw [hbegin]; omega) (fun _ _ => .inl rfl)
    refine ⟨a, b, .plain [], hu, ?_, ?_⟩
    · have ha : a = begin + indent := by omega
      have hb : b = begin + indent := by omega
      rw [hT, hE, ha, hb]
      simp [display]
    · unfold Shows; rw [hf]
  | some n =>
    cases hl : lastEnd L with
    | none => rw [(lastEnd_none L).1 hl] at hf; cases hf
    | some e =>
      rw [hf] at hs
      rw [hl] at he
      simp only at hs he
      obtain ⟨hne', hew⟩ := first_lt_last L n e hf hl (hB.wide L hLm)
      have hin := hmin L hLm n hf
      have hN : firstStart F B s (B.first + m) = ((begin + n : Nat) : Int) := by
        unfold firstStart; rw [hT, hsub, hs, hbegin]; omega
      have hE : textEnd F B s (B.first + m) = ((begin + e : Nat) : Int) := by
        unfold textEnd; rw [hT, hsub, he, hbegin]; omega
      obtain ⟨a, b, hu, h1, h2, h3, h4⟩ := underline_bounds hF B s start stop (B.first + m) h0 hline _ _ _ hT hN hE (by omega) (by omega)
        (by rw [hbegin]; omega) (by
          intro hle hlt
          right
          have hm1 : m + 1 < lines.length := by omega
          have e1 := hstarts (m + 1) hm1
          have e2 := hstarts m hm
          have e3 := offset_next lines m L hL hm1
          rw [← Nat.add_assoc] at e1
          omega)
      refine ⟨a, b, if a = b then .plain (between F.text (begin + indent) (begin + e))
        else .marked (between F.text (begin + indent) a) (between F.text a b) (between F.text b (begin + e)), hu, ?_, ?_⟩
      · rw [hT, hE]
        exact display_between F _ a b _ h1 h2 h3 (by omega)
      · unfold Shows
        rw [hf, hl]
        exact ⟨a, b, h1, h2, h3, h4, rfl⟩

theorem rows_say {F : File} (hF : GoodLines F) {start stop : Nat} {lines : List (List Rune)} (hB : Box F start stop lines) (h13 : lines.length ≤ 13)
    {indent : Nat} (hi : Indent lines indent) : ∀ (count m : Nat), m + count = lines.length →
    ∃ rs, rows F (frame F start stop) (scan F (frame F start stop)) start stop count ((frame F start stop).first + m)
        (decide (F.lineOf start < (frame F start stop).first + m ∧ (frame F start stop).first + m ≤ F.lineOf stop)) = some rs ∧
      rs.length = count ∧ ∀ q row L, rs[q]? = some row → lines[m + q]? = some L →
        RowSays F start stop indent ((frame F start stop).first + m + q) L row := by
  intro count
  induction count with
  | zero => intro m _; exact ⟨[], rfl, rfl, by simp⟩
  | succ count ih =>
    intro m hm
    have hmlt : m < lines.length := by omega
    obtain ⟨a, b, shown, hu, hd, hsh⟩ := row_says hF hB h13 hi m _ (List.getElem?_eq_getElem hmlt)
    obtain ⟨rs, hrs, hlen, hall⟩ := ih (m + 1) (by omega)
    have hact : decide (F.lineOf start < (frame F start stop).first + (m + 1) ∧ (frame F start stop).first + (m + 1) ≤ F.lineOf stop)
        = decide (F.lineOf start ≤ (frame F start stop).first + m ∧ (frame F start stop).first + m < F.lineOf stop) := by
      congr 1; exact propext ⟨fun h => by omega, fun h => by omega⟩
    rw [hact] at hrs
    refine ⟨⟨(frame F start stop).first + m + 1, padded (frame F start stop) ((frame F start stop).first + m), shown⟩ :: rs, ?_, ?_, ?_⟩
    · have hrs' : rows F (frame F start stop) (scan F (frame F start stop)) start stop count ((frame F start stop).first + m + 1)
          (decide (F.lineOf start ≤ (frame F start stop).first + m ∧ (frame F start stop).first + m < F.lineOf stop)) = some rs := hrs
      simp only [rows, hu, hd, hrs', bind, Option.bind]
    · simp [hlen]
    · intro q row L hq hL
      cases q with
      | zero =>
        simp only [List.getElem?_cons_zero, Option.some.injEq] at hq
        subst hq
        rw [Nat.add_zero, List.getElem?_eq_getElem hmlt, Option.some.injEq] at hL
        subst hL
        have hc := hB.count
        exact ⟨rfl, digits_aligned _ _ (by omega) (by omega), hsh⟩
      | succ q =>
        simp only [List.getElem?_cons_succ] at hq
        have := hall q row L hq (by rw [← hL]; congr 1; omega)
        have e : (frame F start stop).first + (m + 1) + q = (frame F start stop).first + m + (q + 1) := by omega
        rw [e] at this
        exact this

/-- **C108** If line feeds end the lines around the diagnostic and one of them is not blank, the printer does not panic; it shows these
lines with their numbers, aligned, without the common indentation and the white space at their ends, and marks what belongs to the diagnostic's range -/
theorem box_says {F : File} (hF : GoodLines F) {start stop : Nat} {lines : List (List Rune)} (hB : Box F start stop lines) (h13 : lines.length ≤ 13)
    {indent : Nat} (hi : Indent lines indent) :
    ∃ rows, codeBox F start stop = some (.box rows) ∧ rows.length = lines.length ∧
      ∀ m row L, rows[m]? = some row → lines[m]? = some L → RowSays F start stop indent ((frame F start stop).first + m) L row := by
  obtain ⟨rs, h1, h2, h3⟩ := rows_say hF hB h13 hi lines.length 0 (by omega)
  have hc := hB.count
  refine ⟨rs, ?_, h2, ?_⟩
  · unfold codeBox
    simp only
    rw [if_neg (by omega), if_neg, show (frame F start stop).last + 1 - (frame F start stop).first = lines.length by omega]
    · have hfirst : decide (F.lineOf start < (frame F start stop).first + 0 ∧ (frame F start stop).first + 0 ≤ F.lineOf stop) = false := by
        apply decide_eq_false
        have : (frame F start stop).first = F.lineOf start - 1 := rfl
        omega
      rw [hfirst] at h1
      simp only [Nat.add_zero] at h1
      rw [h1]; rfl
    · have hs : (frame F start stop).start = F.lineStart (frame F start stop).first := rfl
      have hp : F.lineStart (frame F start stop).first ≥ 0 := by unfold File.lineStart; omega
      have := hB.stops
      have := hB.inside
      omega
  · intro m row L hr hL
    have := h3 m row L hr (by rw [Nat.zero_add]; exact hL)
    rw [Nat.add_zero] at this
    exact this

/-- **C108** More than twelve lines from the first to the last are not shown -/
theorem tooBig_iff (F : File) (start stop : Nat) : codeBox F start stop = some .tooBig ↔
    (F.lineOf start - 1) + 13 ≤ min (F.lineOf stop + 1) (F.lineMap.length - 1) := by
  unfold codeBox
  have e1 : (frame F start stop).first = F.lineOf start - 1 := rfl
  have e2 : (frame F start stop).last = min (F.lineOf stop + 1) (F.lineMap.length - 1) := rfl
  simp only
  by_cases h : (frame F start stop).last - (frame F start stop).first ≥ 13
  · rw [if_pos h]
    constructor
    · intro _; omega
    · intro _; rfl
  · rw [if_neg h]
    constructor
    · split
      · intro h; cases h
      · cases rows F (frame F start stop) _ start stop _ _ false <;> simp
    · intro h'; omega

/-- **C108** The shown code is the line's from the common indentation to the end found, whether something is marked or not -/
theorem shows_code (F : File) (start stop line begin indent : Nat) (L : List Rune) (shown : Shown) (n e : Nat) (hn : firstOff L = some n) (he : lastEnd L = some e)
    (h : Shows F start stop line begin indent L shown) : shown.code = between F.text (begin + indent) (begin + e) := by
  unfold Shows at h
  rw [hn, he] at h
  obtain ⟨a, b, h1, h2, h3, -, rfl⟩ := h
  split
  · rfl
  · show between F.text (begin + indent) a ++ between F.text a b ++ between F.text b (begin + e) = _
    unfold between
    have key : ∀ (t : Bytes) (x y z : Nat), x ≤ y → y ≤ z → (t.drop x).take (y - x) ++ (t.drop y).take (z - y) = (t.drop x).take (z - x) := by
      intro t x y z hxy hyz
      have : z - x = (y - x) + (z - y) := by omega
      rw [this, List.take_add, List.drop_drop, show x + (y - x) = y by omega]
    rw [key _ _ _ _ h1 h2, key _ _ _ _ (by omega) h3]

/-- **C108** The end found is the end of the line without the white space at its end exactly if the last rune before that has one byte: a line
that ends in a letter outside ASCII is cut inside that letter -/
theorem end_iff (A : List Rune) (r : Rune) (S : List Rune) (hr : r.space = false) (hS : ∀ x ∈ S, x.space = true) :
    lastEnd (A ++ r :: S) = some (width (A ++ [r])) ↔ r.width = 1 := by
  have happ : ∀ (A C : List Rune), width (A ++ C) = width A + width C := by
    intro A C; induction A with
    | nil => simp [width]
    | cons a A ih => simp [width, ih, Nat.add_assoc]
  rw [lastEnd_append A r S hr hS, happ]
  simp only [Option.some.injEq, width]
  omega

theorem display_negative (F : File) (lo hi a b : Int) (h : lo < 0) (hne : lo ≠ hi) : display F lo hi a b = none := by
  have hs : ∀ x, goSlice F.text lo x = none := fun x => by unfold goSlice; rw [if_neg (by omega)]
  unfold display
  by_cases hab : a = b
  · simp [hab, hne, hs]
  · simp [hab, hs]

theorem rows_none (F : File) (B : Frame) (s : Scan) (start stop : Nat) : ∀ (count line : Nat) (active : Bool) (q : Nat), q < count →
    (∀ a b, display F (textStart F s (line + q)) (textEnd F B s (line + q)) a b = none) → rows F B s start stop count line active = none := by
  intro count
  induction count with
  | zero => intro line active q hq; omega
  | succ count ih =>
    intro line active q hq h
    simp only [rows]
    cases q with
    | zero =>
      simp only [Nat.add_zero] at h
      generalize underline F B s start stop active line = u
      obtain ⟨a, b, c⟩ := u
      simp [h]
    | succ q =>
      generalize underline F B s start stop active line = u
      obtain ⟨a, b, c⟩ := u
      have := ih (line + 1) c q (by omega) (by
        have e : line + 1 + q = line + (q + 1) := by omega
        rw [e]; exact h)
      simp [this]

theorem wrap_max (n : Int) (h0 : 0 < n) (h1 : n < 4611686018427387904) : wrap (n + maxInt) < -4611686018427387904 := by
  unfold wrap
  rw [if_pos (by omega)]
  unfold maxInt
  omega

/-- **C108** If the lines around the diagnostic are all blank, and not just the file's first line, the printer panics -/
theorem blank_panics {F : File} {start stop : Nat} {lines : List (List Rune)} (hB : Box F start stop lines) (h13 : lines.length ≤ 13)
    (hblank : ∀ L ∈ lines, ∀ r ∈ L, r.space = true) (m : Nat) (hm : m < lines.length) (hpos : 0 < F.lineStart ((frame F start stop).first + m)) :
    codeBox F start stop = none := by
  have hne : lines ≠ [] := by intro h; simp [h] at hm
  have hnone : ∀ L ∈ lines, lastEnd L = none := fun L hL => lastEnd_spaces L (hblank L hL)
  obtain ⟨-, hhere, -, his⟩ := scan_finds hB h13 hne
  have hind : (scan F (frame F start stop)).indent = maxInt := by
    rcases his with h | ⟨L, hL, n, hn, -⟩
    · exact h
    · rw [(lastEnd_none L).1 (hnone L hL)] at hn; cases hn
  have hL := List.getElem?_eq_getElem hm
  obtain ⟨-, he⟩ := hhere m _ hL
  rw [hnone _ (List.mem_of_getElem? hL)] at he
  simp only [show Scan.init.line = 0 from rfl, Nat.zero_add] at he
  have hfit := fits hB m _ hL
  have hsmall := hB.small
  have hc := hB.count
  have hstarts := hB.starts m hm
  have hsub : (frame F start stop).first + m - (frame F start stop).first = m := by omega
  have hp0 : F.lineStart (frame F start stop).first ≥ 0 := by unfold File.lineStart; omega
  have hT : textStart F (scan F (frame F start stop)) ((frame F start stop).first + m) < -4611686018427387904 := by
    unfold textStart
    rw [hind]
    exact wrap_max _ hpos (by omega)
  unfold codeBox
  simp only
  rw [if_neg (by omega)]
  split
  · rfl
  · rw [rows_none F _ _ start stop _ _ _ m (by omega)]
    · rfl
    · intro a b
      apply display_negative
      · omega
      · unfold textEnd
        rw [hsub, he]
        omega

/-! ### The message -/

theorem message_line (gutter : Bytes) (name : Nat) (l rest : Bytes) (h : ∀ b ∈ l, b ≠ 10) : message gutter name (l ++ rest) = (message gutter name rest).map (l ++ ·) := by
  induction l with
  | nil => simp
  | cons b bs ih =>
    simp only [List.cons_append, message, h b (by simp), if_false]
    rw [ih fun x hx => h x (by simp [hx])]
    cases message gutter name rest <;> rfl

/-- **C108** Below the first line of a message the gutter and spaces are put before each line (the name of the rule has at most 99 letters) -/
theorem message_says (gutter : Bytes) (name : Nat) (hname : name ≤ 99) : ∀ ls : List Bytes, (∀ l ∈ ls, ∀ b ∈ l, b ≠ 10) →
    message gutter name (linesOf ls) = some (gutterLines (gutter ++ List.replicate (name + 1) 32) ls)
  | [], _ => rfl
  | [l], h => by
    have := message_line gutter name l [] (h l (by simp))
    simp only [List.append_nil] at this
    simp [linesOf, gutterLines, this, message]
  | l :: l2 :: ls, h => by
    have IH := message_says gutter name hname (l2 :: ls) fun x hx => h x (by simp [List.mem_cons.1 hx])
    simp only [linesOf, gutterLines]
    rw [message_line gutter name l _ (h l (by simp))]
    simp only [message, if_true]
    rw [if_pos (by omega), IH]
    simp

/-- **C108** A rule whose name has more than 99 letters could not report a message of two lines -/
theorem message_panics (gutter : Bytes) (name : Nat) (hname : 99 < name) (m : Bytes) : message gutter name m = none ↔ (10 : UInt8) ∈ m := by
  induction m with
  | nil => simp [message]
  | cons b bs ih =>
    unfold message
    by_cases h : b = 10
    · subst h; simp; omega
    · simp [h, Ne.symm h, ih]

/-! ### Examples -/

/-- What a rune is, for the examples: a tab, carriage return or space is white space -/
def sampleRune (b : UInt8) : Rune := ⟨1, b = 32 ∨ b = 13 ∨ b = 9, b = 10⟩

/-- A file in ASCII whose lines begin at `0`, `a`, `b`; `ends` are the last positions of their contents -/
def sampleFile (text : Bytes) (a b : Nat) (ends : Nat → Int) : File where
  text := text
  lineMap := [0, a, b]
  lineOf p := if p < a then 0 else if p < b then 1 else 2
  contentEnd := ends
  runes lo hi := ((text.drop lo.toNat).take (hi - lo).toNat).map sampleRune

theorem sampleFile_good (text : Bytes) (a b : Nat) (ends : Nat → Int) (h0 : 0 < a) (h1 : a < b) : GoodLines (sampleFile text a b ends) where
  sorted := by
    intro k l hk hl
    have hl' : l < 3 := hl
    have : (k = 0 ∧ l = 1) ∨ (k = 0 ∧ l = 2) ∨ (k = 1 ∧ l = 2) := by omega
    rcases this with ⟨rfl, rfl⟩ | ⟨rfl, rfl⟩ | ⟨rfl, rfl⟩ <;> simp [File.lineStart, sampleFile] <;> omega
  found := by
    intro p
    show (if p < a then 0 else if p < b then 1 else 2) < 3
    split <;> (try split) <;> omega
  above := by
    intro p
    simp only [sampleFile]
    split <;> (try split) <;> simp [File.lineStart] <;> omega
  below := by
    intro p
    simp only [sampleFile]
    split <;> (try split) <;> simp [File.lineStart] <;> omega

/-- `if (x) {⏎  await y⏎}` -/
def ifFile : File := sampleFile (Fixer.ascii "if (x) {\n  await y \n}") 9 20 fun l => [7, 18, 20].getD l 0

example : GoodLines ifFile := sampleFile_good _ _ _ _ (by omega) (by omega)

example : Box ifFile 11 18 [(Fixer.ascii "if (x) {").map sampleRune, (Fixer.ascii "  await y ").map sampleRune, (Fixer.ascii "}").map sampleRune] where
  le := by omega
  count := by decide +kernel
  runes := by decide +kernel
  plain := by decide +kernel
  wide := by decide +kernel
  starts := by decide +kernel
  stops := by decide +kernel
  inside := by decide +kernel
  small := by decide +kernel

example : Indent [(Fixer.ascii "if (x) {").map sampleRune, (Fixer.ascii "  await y ").map sampleRune, (Fixer.ascii "}").map sampleRune] 0 := by
  exact ⟨⟨(Fixer.ascii "}").map sampleRune, by simp, by decide +kernel⟩, fun _ _ _ _ => Nat.zero_le _⟩

example : codeBox ifFile 11 18 = some (.box [⟨1, false, .plain (Fixer.ascii "if (x) {")⟩,
    ⟨2, false, .marked (Fixer.ascii "  ") (Fixer.ascii "await y") []⟩, ⟨3, false, .plain (Fixer.ascii "}")⟩]) := by decide +kernel

/-- `f(␍a⏎)`: the first line ends with a carriage return alone -/
def crFile : File := sampleFile (Fixer.ascii "f(\ra\n)") 3 5 fun l => [1, 3, 5].getD l 0

/-- **C108** A carriage return alone (or U+2028) ends a line, but the printer goes by line feeds: marking a call over such lines panics -/
theorem carriage_return_panics : GoodLines crFile ∧ codeBox crFile 0 6 = none :=
  ⟨sampleFile_good _ _ _ _ (by omega) (by omega), by decide +kernel⟩

/-- a blank file of two line feeds -/
def blankFile : File := sampleFile (Fixer.ascii "\n\n") 1 2 fun l => [-1, 0, 1].getD l 0

example : Box blankFile 1 1 [[], [], []] where
  le := by omega
  count := by decide +kernel
  runes := by decide +kernel
  plain := by decide +kernel
  wide := by decide +kernel
  starts := by decide +kernel
  stops := by decide +kernel
  inside := by decide +kernel
  small := by decide +kernel

example : 0 < blankFile.lineStart ((frame blankFile 1 1).first + 1) := by decide +kernel

example : message (Fixer.ascii "|") 2 (Fixer.ascii "a\nb") = some (Fixer.ascii "a\n|   b") := by decide +kernel

end Tsgolint.CodeBox
