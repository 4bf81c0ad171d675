import Verif.Spec.Annotate
/-! # C130 -/
namespace Tsgolint.Annotate
open Fixer (Bytes ascii)

/-! ## Lines -/

theorem splitLines_ne (code : Bytes) : splitLines code ≠ [] := by
  cases code with
  | nil => simp [splitLines]
  | cons c cs =>
    rw [splitLines]
    by_cases h : c = 10
    · rw [if_pos h]; simp
    · rw [if_neg h]; split <;> simp

theorem splitLines_noNL (l : Bytes) (h : 10 ∉ l) : splitLines l = [l] := by
  induction l with
  | nil => rfl
  | cons c cs ih =>
    have hc : c ≠ 10 := fun he => h (by simp [he])
    rw [splitLines, if_neg hc, ih (fun he => h (by simp [he]))]

theorem splitLines_append (l : Bytes) (h : 10 ∉ l) (rest : Bytes) : splitLines (l ++ 10 :: rest) = l :: splitLines rest := by
  induction l with
  | nil => show splitLines (10 :: rest) = _; rw [splitLines, if_pos rfl]
  | cons c cs ih =>
    have hc : c ≠ 10 := fun he => h (by simp [he])
    show splitLines (c :: (cs ++ 10 :: rest)) = _
    rw [splitLines, if_neg hc, ih (fun he => h (by simp [he]))]

/-- The lines of a text are unique: those the program works with. -/
theorem lines_eq {code : Bytes} {lines : List Bytes} (h : LinesOf code lines) : splitLines code = lines := by
  obtain ⟨h1, h2, h3⟩ := h
  induction lines generalizing code with
  | nil => exact absurd rfl h1
  | cons l ls ih =>
    cases ls with
    | nil =>
      rw [← h2]
      exact splitLines_noNL l (h3 l (by simp))
    | cons m ls =>
      rw [← h2]
      show splitLines (l ++ 10 :: joinLines (m :: ls)) = _
      rw [splitLines_append l (h3 l (by simp)), ih (by simp) rfl (fun x hx => h3 x (by simp [hx]))]

theorem linesOf_split (code : Bytes) : LinesOf code (splitLines code) := by
  refine ⟨splitLines_ne code, ?_, ?_⟩
  · induction code with
    | nil => rfl
    | cons c cs ih =>
      rw [splitLines]
      by_cases h : c = 10
      · rw [if_pos h]
        cases hs : splitLines cs with
        | nil => exact absurd hs (splitLines_ne cs)
        | cons l ls =>
          rw [hs] at ih
          show [] ++ 10 :: joinLines (l :: ls) = c :: cs
          rw [ih, h]; rfl
      · rw [if_neg h]
        cases hs : splitLines cs with
        | nil => exact absurd hs (splitLines_ne cs)
        | cons l ls =>
          rw [hs] at ih
          cases ls with
          | nil => show c :: l = c :: cs; rw [show l = cs from ih]
          | cons m ls =>
            show c :: (l ++ 10 :: joinLines (m :: ls)) = c :: cs
            rw [show l ++ 10 :: joinLines (m :: ls) = cs from ih]
  · induction code with
    | nil => intro l hl; rw [List.mem_singleton.1 hl]; simp
    | cons c cs ih =>
      rw [splitLines]
      by_cases h : c = 10
      · rw [if_pos h]
        intro l hl
        rcases List.mem_cons.1 hl with rfl | hl
        · simp
        · exact ih l hl
      · rw [if_neg h]
        cases hs : splitLines cs with
        | nil => exact absurd hs (splitLines_ne cs)
        | cons l ls =>
          rw [hs] at ih
          intro x hx
          rcases List.mem_cons.1 hx with rfl | hx
          · intro h10
            rcases List.mem_cons.1 h10 with h' | h'
            · exact h h'.symm
            · exact ih l (by simp) h'
          · exact ih x (by simp [hx])

theorem lineStart_succ (lines : List Bytes) (i : Nat) (l : Bytes) (h : lines[i]? = some l) : lineStart lines (i + 1) = lineStart lines i + l.length + 1 := by
  unfold lineStart
  obtain ⟨hlt, he⟩ := List.getElem?_eq_some_iff.1 h
  rw [List.take_add_one, h]
  simp only [Option.toList_some, List.map_append, List.sum_append, List.map_cons, List.map_nil, List.sum_cons, List.sum_nil]
  omega

theorem lineStart_mono (lines : List Bytes) {i j : Nat} (h : i ≤ j) : lineStart lines i ≤ lineStart lines j := by
  unfold lineStart
  obtain ⟨d, rfl⟩ := Nat.exists_eq_add_of_le h
  rw [List.take_add]
  simp only [List.map_append, List.sum_append]
  omega

/-- A place in a line comes before a position exactly if it does by line, then column. -/
theorem before_iff (lines : List Bytes) (index i : Nat) (l : Bytes) (hl : lines[index]? = some l) (hi : i < l.length) (el ec : Nat) (m : Bytes)
    (hm : lines[el]? = some m) (hc : ec ≤ m.length) :
    lineStart lines index + i < lineStart lines el + ec ↔ index < el ∨ (index = el ∧ i < ec) := by
  rcases Nat.lt_trichotomy index el with h | h | h
  · have h1 := lineStart_succ lines index l hl
    have h2 := lineStart_mono lines (show index + 1 ≤ el from h)
    constructor
    · intro _; exact .inl h
    · intro _; omega
  · subst h
    constructor
    · intro hh; exact .inr ⟨rfl, by omega⟩
    · rintro (hh | ⟨_, hh⟩) <;> omega
  · have h1 := lineStart_succ lines el m hm
    have h2 := lineStart_mono lines (show el + 1 ≤ index from h)
    constructor
    · intro _; omega
    · rintro (hh | ⟨hh, _⟩) <;> omega

/-! ## Columns -/

theorem adjust_eq (line : Bytes) : ∀ n, adjustForTabs line n = columns line n := by
  induction line with
  | nil => intro n; cases n <;> simp [adjustForTabs, columns]
  | cons c cs ih =>
    intro n
    cases n with
    | zero => simp [adjustForTabs, columns]
    | succ n => rw [adjustForTabs, ih n]; simp [columns]

theorem columns_succ (line : Bytes) (i : Nat) (hi : i < line.length) : columns line i < columns line (i + 1) := by
  unfold columns
  rw [List.take_add_one, List.getElem?_eq_getElem hi]
  simp only [Option.toList_some, List.map_append, List.sum_append, List.map_cons, List.map_nil, List.sum_cons, List.sum_nil]
  split <;> omega

theorem columns_mono (line : Bytes) {i j : Nat} (h : i ≤ j) : columns line i ≤ columns line j := by
  unfold columns
  obtain ⟨d, rfl⟩ := Nat.exists_eq_add_of_le h
  rw [List.take_add]
  simp only [List.map_append, List.sum_append]
  omega

/-- C130 (tabs).  A line is shown with tabs as four spaces: byte `i`, if no tab, stands in column `columns line i`; a tab fills four. -/
theorem C130_tabs (line : Bytes) (i : Nat) (c : UInt8) (h : line[i]? = some c) (k : Nat) (h1 : columns line i ≤ k) (h2 : k < columns line (i + 1)) :
    (expand line)[k]? = some (if c = 9 then 32 else c) ∧ (expand line).length = columns line line.length := by
  refine ⟨?_, ?_⟩
  · induction line generalizing i k with
    | nil => simp at h
    | cons d line ih =>
      cases i with
      | zero =>
        simp only [List.getElem?_cons_zero, Option.some.injEq] at h
        subst h
        simp only [columns, List.take_zero, List.map_nil, List.sum_nil, List.take_succ_cons, List.map_cons, List.sum_cons, Nat.zero_add] at h1 h2
        by_cases ht : d = 9
        · simp only [ht, if_true] at h2 ⊢
          show ([32, 32, 32, 32] ++ expand line)[k]? = some 32
          rw [List.getElem?_append_left (by simpa using h2)]
          match k with
          | 0 => rfl
          | 1 => rfl
          | 2 => rfl
          | 3 => rfl
          | n + 4 => omega
        · simp only [if_neg ht] at h2 ⊢
          have hk : k = 0 := by omega
          subst hk
          show ((if d = 9 then [32, 32, 32, 32] else [d]) ++ expand line)[0]? = some d
          rw [if_neg ht]; rfl
      | succ i =>
        simp only [List.getElem?_cons_succ] at h
        have e1 : columns (d :: line) (i + 1) = (if d = 9 then 4 else 1) + columns line i := by simp [columns]
        have e2 : columns (d :: line) (i + 1 + 1) = (if d = 9 then 4 else 1) + columns line (i + 1) := by simp [columns]
        rw [e1] at h1
        rw [e2] at h2
        show ((if d = 9 then [32, 32, 32, 32] else [d]) ++ expand line)[k]? = _
        have hlen : (if d = 9 then [32, 32, 32, 32] else [d] : Bytes).length = (if d = 9 then 4 else 1) := by split <;> rfl
        rw [List.getElem?_append_right (by rw [hlen]; omega), hlen]
        exact ih i h _ (by omega) (by omega)
  · clear h h1 h2
    induction line with
    | nil => rfl
    | cons d line ih =>
      have e1 : columns (d :: line) (line.length + 1) = (if d = 9 then 4 else 1) + columns line line.length := by simp [columns]
      show ((if d = 9 then [32, 32, 32, 32] else [d]) ++ expand line).length = columns (d :: line) (line.length + 1)
      rw [List.length_append, ih, e1]
      split <;> rfl

/-! ## The underline -/

theorem trimRight_marks (marker : UInt8) (hm : marker ≠ 32) (a n : Nat) :
    trimRight (List.replicate a 32 ++ List.replicate (n + 1) marker) = List.replicate a 32 ++ List.replicate (n + 1) marker := by
  unfold trimRight
  rw [List.reverse_append, List.reverse_replicate, List.replicate_succ, List.cons_append, List.dropWhile_cons_of_neg (by simpa using hm), ← List.cons_append,
    ← List.replicate_succ, List.reverse_append]
  simp only [List.reverse_replicate, List.reverse_reverse]

theorem marks_eq (marker : UInt8) (hm : marker ≠ 32) (a b : Nat) :
    marks marker a b = if b ≤ a then none else some (List.replicate a 32 ++ List.replicate (b - a) marker) := by
  unfold marks
  by_cases h : b ≤ a
  · rw [if_pos h, if_pos h]
  · rw [if_neg h, if_neg h]
    obtain ⟨n, hn⟩ : ∃ n, b - a = n + 1 := ⟨b - a - 1, by omega⟩
    rw [hn, trimRight_marks marker hm, if_neg (by simp)]

theorem marked_iff (marker : UInt8) (hm : marker ≠ 32) (a b k : Nat) : Marked marker (marks marker a b) k ↔ a ≤ k ∧ k < b := by
  rw [marks_eq marker hm]
  unfold Marked
  by_cases h : b ≤ a
  · rw [if_pos h]
    constructor
    · rintro ⟨s, hs, _⟩; exact absurd hs (by simp)
    · intro hh; omega
  · rw [if_neg h]
    simp only [Option.some.injEq, exists_eq_left']
    by_cases hk : k < a
    · rw [List.getElem?_append_left (by simpa using hk)]
      simp only [List.getElem?_replicate, hk, if_true, Option.some.injEq]
      constructor
      · intro he; exact absurd he.symm hm
      · intro hh; omega
    · rw [List.getElem?_append_right (by simpa using hk)]
      simp only [List.length_replicate, List.getElem?_replicate]
      by_cases hb : k - a < b - a
      · rw [if_pos hb]; simp; omega
      · rw [if_neg hb]; simp; omega

theorem trimmed_spec (code : Bytes) (start stop : Nat) (h : start ≤ stop) (hs : stop ≤ code.length) : FirstVisible code start stop (trimmed code start stop) := by
  unfold trimmed
  generalize hn : stop - start = n
  induction n generalizing start with
  | zero =>
    have : start = stop := by omega
    subst this
    exact ⟨Nat.le_refl _, Nat.le_refl _, fun p c h1 h2 => by rw [skipBlank] at h2; omega, fun h => by rw [skipBlank] at h; omega⟩
  | succ n ih =>
    have hlt : start < stop := by omega
    rw [skipBlank, if_pos hlt]
    have hc : code[start]? = some (code[start]'(by omega)) := List.getElem?_eq_getElem (by omega)
    generalize code[start]'(by omega) = c at hc
    rw [hc]
    show FirstVisible code start stop (if blank c = true then skipBlank code n (start + 1) stop else start)
    by_cases hb : blank c = true
    · rw [if_pos hb]
      obtain ⟨h1, h2, h3, h4⟩ := ih (start + 1) (by omega) (by omega)
      refine ⟨by omega, h2, ?_, h4⟩
      intro p d hp1 hp2 hd
      by_cases he : p = start
      · subst he
        rw [hc] at hd
        cases hd
        simpa [blank, or_assoc] using hb
      · exact h3 p d (by omega) hp2 hd
    · rw [if_neg hb]
      refine ⟨Nat.le_refl _, by omega, fun p d h1 h2 => by omega, fun _ => ⟨c, hc, ?_⟩⟩
      simpa [blank, and_assoc] using hb

/-- The trimmed start is determined. -/
theorem firstVisible_unique {code : Bytes} {start stop s s' : Nat} (hs : stop ≤ code.length) (h : FirstVisible code start stop s) (h' : FirstVisible code start stop s') : s = s' := by
  have key : ∀ a b, FirstVisible code start stop a → FirstVisible code start stop b → ¬ a < b := by
    rintro a b ⟨a1, a2, a3, a4⟩ ⟨b1, b2, b3, b4⟩ hab
    obtain ⟨c, hc, hn⟩ := a4 (by omega)
    rcases b3 a c a1 hab hc with h | h | h | h
    · exact hn.1 h
    · exact hn.2.1 h
    · exact hn.2.2.1 h
    · exact hn.2.2.2 h
  have h1 := key s s' h h'
  have h2 := key s' s h' h
  omega

/-- C130 (marks).  For text in which the scanner counts as expected: below each line, exactly the columns showing a byte of the range are
marked, the range taken from its first byte that is not blank; nothing is marked beyond the end of the line. -/
theorem C130_marks (code : Bytes) (lines : List Bytes) (hL : LinesOf code lines) (position : Nat → Nat × Nat) (hp : Plain code lines position)
    (marker : UInt8) (hm : marker ≠ 32) (start stop s : Nat) (h : start ≤ stop) (hs : stop ≤ code.length) (hv : FirstVisible code start stop s)
    (index : Nat) (line : Bytes) (hl : lines[index]? = some line) :
    (∀ i < line.length, ∀ k, columns line i ≤ k → k < columns line (i + 1) →
      (Marked marker (underline marker (spanOf code position start stop) line index) k ↔ s ≤ lineStart lines index + i ∧ lineStart lines index + i < stop)) ∧
    (∀ k, columns line line.length ≤ k → ¬Marked marker (underline marker (spanOf code position start stop) line index) k) := by
  have hst : trimmed code start stop = s := firstVisible_unique hs (trimmed_spec code start stop h hs) hv
  obtain ⟨ml, hml, hmc, hms⟩ := hp s (Nat.le_trans hv.2.1 hs)
  obtain ⟨ne, hne, hnc, hns⟩ := hp stop hs
  unfold underline spanOf
  rw [hst]
  simp only [adjust_eq]
  generalize hsl : (position s).1 = sl at *
  generalize hsc : (position s).2 = sc at *
  generalize hel : (position stop).1 = el at *
  generalize hec : (position stop).2 = ec at *
  constructor
  · intro i hi k hk1 hk2
    have hbs := before_iff lines index i line hl hi sl sc ml hml hmc
    have hbe := before_iff lines index i line hl hi el ec ne hne hnc
    rw [hms] at hbs
    rw [hns] at hbe
    rw [hbe, show (s ≤ lineStart lines index + i) ↔ ¬(lineStart lines index + i < s) from by omega, hbs]
    by_cases hout : index < sl ∨ el < index
    · rw [if_pos hout]
      constructor
      · rintro ⟨u, hu, _⟩; exact absurd hu (by simp)
      · rintro ⟨h1, h2⟩; omega
    · rw [if_neg hout, marked_iff marker hm]
      have hge : ∀ j, columns line j ≤ k ↔ j ≤ i := by
        intro j
        constructor
        · intro hj
          refine Classical.byContradiction fun hn => ?_
          have := columns_mono line (show i + 1 ≤ j by omega)
          omega
        · intro hj
          exact Nat.le_trans (columns_mono line hj) hk1
      have hlt : ∀ j, k < columns line j ↔ i < j := by
        intro j
        have := hge j
        omega
      rw [hge, hlt]
      by_cases h1 : index = sl
      · rw [if_pos h1]
        by_cases h2 : index = el
        · rw [if_pos h2]; omega
        · rw [if_neg h2]; omega
      · rw [if_neg h1]
        by_cases h2 : index = el
        · rw [if_pos h2]; omega
        · rw [if_neg h2]; omega
  · intro k hk
    by_cases hout : index < sl ∨ el < index
    · rw [if_pos hout]
      rintro ⟨u, hu, _⟩; exact absurd hu (by simp)
    · rw [if_neg hout, marked_iff marker hm]
      rintro ⟨_, h2⟩
      have : columns line (if index = el then ec else line.length) ≤ columns line line.length := by
        by_cases he : index = el
        · rw [if_pos he]
          have hle : ec ≤ line.length := by
            rw [← he, hl] at hne
            cases hne
            exact hnc
          exact columns_mono line hle
        · rw [if_neg he]; exact Nat.le_refl _
      omega

theorem rowsFrom_spec (marker : UInt8) (lines : List Bytes) (s : Span) (n : Nat) : ∀ index j, 
    (rowsFrom marker lines s index n)[j]? = if j < n then
      some ⟨index + j + 1, expand (lines.getD (index + j) []), underline marker s (lines.getD (index + j) []) (index + j)⟩ else none := by
  induction n with
  | zero => intro index j; simp [rowsFrom]
  | succ n ih =>
    intro index j
    rw [rowsFrom]
    cases j with
    | zero => simp
    | succ j =>
      rw [List.getElem?_cons_succ, ih]
      by_cases h : j < n
      · rw [if_pos h, if_pos (by omega), show index + 1 + j = index + (j + 1) from by omega]
      · rw [if_neg h, if_neg (by omega)]

/-- C130 (lines).  Shown are, in order and with their numbers, exactly the lines from one before the first visible byte of the range to one
after its end, as far as there are any. -/
theorem C130_lines (code : Bytes) (lines : List Bytes) (hL : LinesOf code lines) (position : Nat → Nat × Nat) (hp : Plain code lines position)
    (marker : UInt8) (start stop s : Nat) (h : start ≤ stop) (hs : stop ≤ code.length) (hv : FirstVisible code start stop s) (row : Row) :
    row ∈ rows code position marker start stop ↔ ∃ index line, lines[index]? = some line ∧ (position s).1 ≤ index + 1 ∧ index ≤ (position stop).1 + 1 ∧
      row = ⟨index + 1, expand line, underline marker (spanOf code position start stop) line index⟩ := by
  have hst : trimmed code start stop = s := firstVisible_unique hs (trimmed_spec code start stop h hs) hv
  obtain ⟨ne, hne, hnc, hns⟩ := hp stop hs
  have helt : (position stop).1 < lines.length := (List.getElem?_eq_some_iff.1 hne).1
  have hlast : lastLine lines (spanOf code position start stop) = min (lines.length - 1) ((position stop).1 + 1) := by
    unfold lastLine
    show (if lines.length ≤ (position stop).1 + 1 then lines.length - 1 else (position stop).1 + 1) = _
    split <;> omega
  have hse : (position s).1 ≤ (position stop).1 := by
    obtain ⟨ml, hml, hmc, hms⟩ := hp s (Nat.le_trans hv.2.1 hs)
    refine Classical.byContradiction fun hn => ?_
    have h1 := lineStart_succ lines _ ne hne
    have h2 := lineStart_mono lines (show (position stop).1 + 1 ≤ (position s).1 by omega)
    have := hv.2.1
    omega
  unfold rows
  rw [lines_eq hL, hlast, show (spanOf code position start stop).startLine = (position s).1 from by unfold spanOf; rw [hst]]
  rw [List.mem_iff_getElem?]
  constructor
  · rintro ⟨j, hj⟩
    rw [rowsFrom_spec] at hj
    by_cases hlt : j < min (lines.length - 1) ((position stop).1 + 1) + 1 - ((position s).1 - 1)
    · rw [if_pos hlt] at hj
      have hidx : (position s).1 - 1 + j < lines.length := by omega
      refine ⟨(position s).1 - 1 + j, lines[(position s).1 - 1 + j], List.getElem?_eq_getElem hidx, by omega, by omega, ?_⟩
      have hg : lines.getD ((position s).1 - 1 + j) [] = lines[(position s).1 - 1 + j] := by
        rw [List.getD_eq_getElem?_getD, List.getElem?_eq_getElem hidx]; rfl
      rw [hg] at hj
      exact (Option.some.inj hj).symm
    · rw [if_neg hlt] at hj
      exact absurd hj (by simp)
  · rintro ⟨index, line, hl, h1, h2, rfl⟩
    have hidx : index < lines.length := (List.getElem?_eq_some_iff.1 hl).1
    refine ⟨index - ((position s).1 - 1), ?_⟩
    rw [rowsFrom_spec, if_pos (by omega), show (position s).1 - 1 + (index - ((position s).1 - 1)) = index from by omega]
    have hg : lines.getD index [] = line := by rw [List.getD_eq_getElem?_getD, hl]; rfl
    rw [hg]

theorem rowsFrom_numbers (marker : UInt8) (lines : List Bytes) (s : Span) (n : Nat) : ∀ index, (rowsFrom marker lines s index n).map Row.number = (List.range n).map (index + · + 1) := by
  induction n with
  | zero => intro index; rfl
  | succ n ih =>
    intro index
    rw [rowsFrom, List.map_cons, ih, List.range_succ_eq_map, List.map_cons, List.map_map]
    have : ∀ a ∈ List.range n, (fun x => index + 1 + x + 1) a = ((fun x => index + x + 1) ∘ Nat.succ) a := by
      intro a _
      show index + 1 + a + 1 = index + (a + 1) + 1
      omega
    rw [List.map_congr_left this]

/-- C130 (order).  The line numbers are consecutive. -/
theorem C130_order (code : Bytes) (position : Nat → Nat × Nat) (marker : UInt8) (start stop : Nat) :
    ∃ first n, (rows code position marker start stop).map Row.number = (List.range n).map (first + · + 1) :=
  ⟨_, _, rowsFrom_numbers _ _ _ _ _⟩

theorem digits_mono (m : Nat) : ∀ n, n ≤ m → (Nat.toDigits 10 n).length ≤ (Nat.toDigits 10 m).length := by
  induction m using Nat.strongRecOn with
  | ind m ih =>
    intro n h
    rw [Nat.toDigits_eq_if (by decide) (n := n), Nat.toDigits_eq_if (by decide) (n := m)]
    by_cases hn : n < 10
    · rw [if_pos hn]
      by_cases hm : m < 10
      · rw [if_pos hm]; simp
      · rw [if_neg hm]; simp
    · have hm : ¬ m < 10 := by omega
      rw [if_neg hn, if_neg hm]
      have := ih (m / 10) (by omega) (n / 10) (by omega)
      simp only [List.length_append, List.length_singleton]
      omega

/-- The text before a line: two spaces, the number or as many spaces, a bar. -/
def gutterText (s : Bytes) : Bytes := ascii "  " ++ s ++ ascii " | "

/-- C130 (alignment).  The rendered text is the lines in order; each is shown after a gutter with its number, and its marks stand on a line
of their own after a gutter of the same width, so that a column of the marks is below the same column of the line. -/
theorem C130_alignment (code : Bytes) (position : Nat → Nat × Nat) (marker : UInt8) (label : Bytes) (start stop : Nat) :
    ∃ width, render code position marker label start stop = (rows code position marker start stop).flatMap (Row.print width label) ∧
      ∀ r ∈ rows code position marker start stop, ∃ number blank : Bytes, number.length = width ∧ blank = List.replicate width 32 ∧
        (∃ k, number = List.replicate k 32 ++ (Nat.toDigits 10 r.number).map fun c => UInt8.ofNat c.toNat) ∧
        (r.underline = none → r.print width label = gutterText number ++ r.text ++ ascii "\n") ∧
        (∀ u, r.underline = some u → ∃ rest, (label = [] → rest = []) ∧ (label ≠ [] → rest = ascii " " ++ label) ∧
          r.print width label = gutterText number ++ r.text ++ ascii "\n" ++ (gutterText blank ++ u ++ rest ++ ascii "\n")) := by
  refine ⟨_, rfl, ?_⟩
  intro r hr
  generalize hw : gutterWidth (lastLine (splitLines code) (spanOf code position start stop)) = width
  have hnum : (decimal r.number).length ≤ width := by
    have hmem : r.number ∈ (rows code position marker start stop).map Row.number := List.mem_map.2 ⟨r, hr, rfl⟩
    rw [rows, rowsFrom_numbers] at hmem
    obtain ⟨k, hk, he⟩ := List.mem_map.1 hmem
    have hk' := List.mem_range.1 hk
    have hle : r.number ≤ lastLine (splitLines code) (spanOf code position start stop) + 1 := by rw [← he]; omega
    have := digits_mono _ _ hle
    rw [← hw]
    unfold gutterWidth decimal
    simp only [List.length_map]
    omega
  refine ⟨pad width (decimal r.number), List.replicate width 32, ?_, rfl, ⟨_, rfl⟩, ?_, ?_⟩
  · unfold pad
    rw [List.length_append, List.length_replicate]
    omega
  · intro hu
    unfold Row.print gutterText
    rw [hu]
    simp [List.append_assoc]
  · intro u hu
    refine ⟨if label = [] then [] else ascii " " ++ label, fun h => if_pos h, fun h => if_neg h, ?_⟩
    unfold Row.print gutterText
    rw [hu]
    simp [List.append_assoc, pad]

/-- C130 (heading).  The heading names, counted from 1, the position of the first visible byte and that of the last byte of the range; of
a range with nothing visible, its end twice. -/
theorem C130_heading (code : Bytes) (position : Nat → Nat × Nat) (start stop s : Nat) (h : start ≤ stop) (hs : stop ≤ code.length) (hv : FirstVisible code start stop s) :
    (s < stop → heading code position start stop = ⟨(position s).1 + 1, (position s).2 + 1, (position (stop - 1)).1 + 1, (position (stop - 1)).2 + 1⟩) ∧
    (s = stop → heading code position start stop = ⟨(position stop).1 + 1, (position stop).2 + 1, (position stop).1 + 1, (position stop).2 + 1⟩) := by
  have hst : trimmed code start stop = s := firstVisible_unique hs (trimmed_spec code start stop h hs) hv
  unfold heading
  simp only [hst]
  constructor
  · intro hlt; rw [if_pos hlt]
  · intro he; subst he; rw [if_neg (by omega)]

/-- C130 (hazard).  The scanner counts columns in UTF-16 units, the annotation looks for tabs by bytes.  In `é⇥1` (four bytes) the
range is the `1`, shown in column 5 (from 0); the marks begin in column 2. -/
theorem C130_hazard_columns :
    rows [195, 169, 9, 49] (fun p => (0, if p < 2 then 0 else p - 1)) 126 3 4 = [⟨1, [195, 169, 32, 32, 32, 32, 49], some [32, 32, 126, 126, 126, 126]⟩] := by decide

/-- `\tx = 1\n\ty = 2\n`: the range is `y = 2` with the blanks before it. -/
def sample : Bytes := ascii "\tx = 1\n\ty = 2\n"

def samplePosition (p : Nat) : Nat × Nat := if p < 7 then (0, p) else if p < 14 then (1, p - 7) else (2, p - 14)

example : rows sample samplePosition 126 6 13 =
    [⟨1, ascii "    x = 1", none⟩, ⟨2, ascii "    y = 2", some (ascii "    ~~~~~")⟩, ⟨3, [], none⟩] := by decide
example : heading sample samplePosition 6 13 = ⟨2, 2, 2, 6⟩ := by decide
example : LinesOf sample [ascii "\tx = 1", ascii "\ty = 2", []] := ⟨by decide, by decide, by decide⟩
example : Plain sample [ascii "\tx = 1", ascii "\ty = 2", []] samplePosition := by
  intro p hp
  have : ∀ p ∈ List.range 15, ∃ l, [ascii "\tx = 1", ascii "\ty = 2", []][(samplePosition p).1]? = some l ∧ (samplePosition p).2 ≤ l.length ∧
      lineStart [ascii "\tx = 1", ascii "\ty = 2", []] (samplePosition p).1 + (samplePosition p).2 = p := by
    intro p hp
    refine ⟨[ascii "\tx = 1", ascii "\ty = 2", []].getD (samplePosition p).1 [], ?_⟩
    revert p
    decide
  exact this p (List.mem_range.2 (Nat.lt_succ_of_le hp))
example : FirstVisible sample 6 13 8 := by
  have := trimmed_spec sample 6 13 (by decide) (by decide)
  rwa [show trimmed sample 6 13 = 8 from by decide] at this

end Tsgolint.Annotate
