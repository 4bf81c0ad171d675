import Verif.Proof.Fixer
/-!
# C01–C05: `ApplyRuleFixes`

Every theorem holds for every sorter `sf` (fixes of one message) and `sm` (messages).
`sortFixes sf m` is `m` after Go sorted its fixes slice in place.
-/
namespace Tsgolint.Fixer
variable {τ : Type}

/-- C01.  If no fix is inverted, then on normal return the output is the source with exactly the fixes of the accepted
messages substituted (right-most first), those fixes being in range and pairwise disjoint.  The accepted messages are the
ones not returned as unapplied. -/
theorem C01_output_is_simultaneous_edit (sf : Sorter fixCmp) (sm : Sorter (msgCmp (τ := τ))) (code : Bytes)
    (ms : List (Msg τ)) (hle : ∀ m ∈ ms, ∀ f ∈ m.fixes, f.pos ≤ f.stop)
    {out : Bytes} {un : List (Msg τ)} {fixed : Bool} (h : applyRuleFixes sf sm code ms = some (out, un, fixed)) :
    ∃ applied : List (Msg τ),
      (applied ++ un).Perm (ms.map (sortFixes sf)) ∧
      (∀ f ∈ applied.flatMap (·.fixes), InRange code f) ∧
      Disjoint (applied.flatMap (·.fixes)) ∧
      out = editAll code (applied.flatMap (·.fixes)) := by
  obtain ⟨ap, dr, h1, h2, h3, h4, h5, h6, _⟩ := applyRuleFixes_spec h
  have hle' : ∀ f ∈ ap.flatMap (·.fixes), f.pos ≤ f.stop := by
    intro f hf
    obtain ⟨m, hm, hf⟩ := List.mem_flatMap.1 hf
    exact mem_pos_le_stop (P := fun f => f.pos ≤ f.stop) hle m (h2.subset hm) f hf
  have hb := bounds_facts h4 hle'
  refine ⟨ap, ?_, fun f hf => (hb.2.1 f hf).2, hb.2.2, ?_⟩
  · subst h3
    refine List.Perm.trans ?_ (partition_perm sf sm ms)
    rw [← List.append_assoc]
    refine (List.perm_append_comm.append_right dr).trans ?_
    rw [List.append_assoc]
    exact h1.append_left _
  · have := take_append_render h4 hle'
    simpa [h5] using this

/-- C02.  All-or-nothing: the messages split into `applied` and the returned `un` (no loss, no duplication), the output is
determined by *all* fixes of every applied message, messages without fixes are all returned, and `fixed` says whether
anything was applied. -/
theorem C02_all_or_nothing (sf : Sorter fixCmp) (sm : Sorter (msgCmp (τ := τ))) (code : Bytes)
    (ms : List (Msg τ)) (hle : ∀ m ∈ ms, ∀ f ∈ m.fixes, f.pos ≤ f.stop)
    {out : Bytes} {un : List (Msg τ)} {fixed : Bool} (h : applyRuleFixes sf sm code ms = some (out, un, fixed)) :
    ∃ applied : List (Msg τ),
      (applied ++ un).Perm (ms.map (sortFixes sf)) ∧
      (∀ m ∈ applied, m.fixes ≠ []) ∧
      (∀ m ∈ ms, m.fixes = [] → m ∈ un) ∧
      (fixed = true ↔ applied ≠ []) ∧
      (fixed = false → out = code) ∧
      out = editAll code (applied.flatMap (·.fixes)) := by
  obtain ⟨ap, dr, h1, h2, h3, h4, h5, h6, _⟩ := applyRuleFixes_spec h
  have hle' : ∀ f ∈ ap.flatMap (·.fixes), f.pos ≤ f.stop := by
    intro f hf
    obtain ⟨m, hm, hf⟩ := List.mem_flatMap.1 hf
    exact mem_pos_le_stop (P := fun f => f.pos ≤ f.stop) hle m (h2.subset hm) f hf
  have ho : out = editAll code (ap.flatMap (·.fixes)) := by
    have := take_append_render h4 hle'
    simpa [h5] using this
  refine ⟨ap, ?_, ?_, ?_, ?_, ?_, ho⟩
  · subst h3
    refine List.Perm.trans ?_ (partition_perm sf sm ms)
    rw [← List.append_assoc]
    refine (List.perm_append_comm.append_right dr).trans ?_
    rw [List.append_assoc]
    exact h1.append_left _
  · intro m hm; exact sorted_withFixes_ne_nil sf sm ms m (h2.subset hm)
  · intro m hm hm'; rw [h3]; simp [hm, hm']
  · subst h6; simp
  · intro hf
    subst h6
    have : ap = [] := by simpa using hf
    rw [ho, this]; simp [editAll]

/-- C02 (corollary).  Without any fix the text is returned unchanged, every message unapplied in order, `fixed = false`. -/
theorem C02_no_fix_no_change (sf : Sorter fixCmp) (sm : Sorter (msgCmp (τ := τ))) (code : Bytes)
    (ms : List (Msg τ)) (h : ∀ m ∈ ms, m.fixes = []) : applyRuleFixes sf sm code ms = some (code, ms, false) := by
  have h1 : ms.filter (fun m => m.fixes.isEmpty) = ms := List.filter_eq_self.2 (by simpa using h)
  have h2 : ms.filter (fun m => !m.fixes.isEmpty) = [] := List.filter_eq_nil_iff.2 (by simpa using h)
  have h3 : sm.sort [] = [] := List.length_eq_zero_iff.1 (sm.perm []).length_eq
  simp [applyRuleFixes, h1, h2, h3, loop, goSliceFrom, goSlice]

/-- C03.  Accepted messages never overlap (each accepted message's fixes all end before the next one's start), and a message
with fixes is dropped only if it starts inside the span of an accepted message: at or after the accepted message's first start and before
the end of its last fix; of two messages starting together the one ending first wins (`sortFixes` leaves the fixes in ascending order, so first and last are the outermost). -/
theorem C03_dropped_only_by_overlap (sf : Sorter fixCmp) (sm : Sorter (msgCmp (τ := τ))) (code : Bytes)
    (ms : List (Msg τ)) (hr : ∀ m ∈ ms, ∀ f ∈ m.fixes, InRange code f)
    {out : Bytes} {un : List (Msg τ)} {fixed : Bool} (h : applyRuleFixes sf sm code ms = some (out, un, fixed)) :
    ∃ applied : List (Msg τ),
      (applied ++ un).Perm (ms.map (sortFixes sf)) ∧
      out = editAll code (applied.flatMap (·.fixes)) ∧
      applied.Pairwise (fun a b => ∀ f ∈ a.fixes, ∀ g ∈ b.fixes, f.stop ≤ g.pos) ∧
      (∀ m ∈ un, m.fixes ≠ [] → ∃ a ∈ applied, ∃ e f g l, a.fixes.head? = some e ∧ a.fixes.getLast? = some f ∧
        m.fixes.head? = some g ∧ m.fixes.getLast? = some l ∧
        (e.pos < g.pos ∨ e.pos = g.pos ∧ f.stop ≤ l.stop) ∧ g.pos < f.stop) := by
  obtain ⟨ap, dr, h1, h2, h3, h4, h5, h6, h7⟩ := applyRuleFixes_spec h
  have hr' := mem_pos_le_stop (sf := sf) (sm := sm) (P := InRange code) hr
  have hle' : ∀ f ∈ ap.flatMap (·.fixes), f.pos ≤ f.stop := by
    intro f hf
    obtain ⟨m, hm, hf⟩ := List.mem_flatMap.1 hf
    exact (hr' m (h2.subset hm) f hf).2.1
  have hb := bounds_facts h4 hle'
  refine ⟨ap, ?_, ?_, ?_, ?_⟩
  · subst h3
    refine List.Perm.trans ?_ (partition_perm sf sm ms)
    rw [← List.append_assoc]
    refine (List.perm_append_comm.append_right dr).trans ?_
    rw [List.append_assoc]
    exact h1.append_left _
  · have := take_append_render h4 hle'
    simpa [h5] using this
  · have hd := hb.2.2
    unfold Disjoint at hd
    rw [List.flatMap_def, List.pairwise_flatten] at hd
    have := hd.2
    rw [List.pairwise_map] at this
    exact this
  · intro m hm hne
    rw [h3] at hm
    rcases List.mem_append.1 hm with hm | hm
    · simp only [List.mem_filter] at hm; exact absurd (by simpa using hm.2) hne
    · have hmS : m ∈ sortedMsgs sf sm ms := h1.subset (by simp [hm])
      cases hfx : m.fixes with
      | nil => exact absurd hfx hne
      | cons g gs =>
        have hg := hr' m hmS g (by rw [hfx]; simp)
        rcases h7 m hm with hlt | ⟨a, ha, hsub, hlt⟩
        · simp only [firstPos, hfx] at hlt; unfold InRange at hg; omega
        · have hane := sorted_withFixes_ne_nil sf sm ms a (h2.subset ha)
          refine ⟨a, ha, a.fixes.head hane, a.fixes.getLast hane, g, m.fixes.getLast hne, List.head?_eq_some_head hane,
            List.getLast?_eq_some_getLast hane, by simp, by rw [← hfx]; exact List.getLast?_eq_some_getLast hne, ?_, ?_⟩
          · have hle := (sm.sorted _).sublist hsub
            have hle : msgCmp a m ≤ 0 := by simpa using hle
            have h1 : firstPos a = (a.fixes.head hane).pos := by
              unfold firstPos
              split
              · rename_i h0; exact absurd h0 hane
              · rename_i h0; simp [h0]
            have h2 : firstPos m = g.pos := by simp [firstPos, hfx]
            have h3 : lastEnd a = (a.fixes.getLast hane).stop := by simp [lastEnd, List.getLast?_eq_some_getLast hane]
            have h4 : lastEnd m = (m.fixes.getLast hne).stop := by simp [lastEnd, List.getLast?_eq_some_getLast hne]
            unfold msgCmp at hle
            rw [h1, h2, h3, h4] at hle
            simp only at hle
            split at hle <;> omega
          · simpa [firstPos, hfx, endOf, List.getLast?_eq_some_getLast hane] using hlt

/-- C03 (consequence).  Messages whose spans do not overlap are all applied: exactly the messages without fixes are returned. -/
theorem C03_independent_all_applied (sf : Sorter fixCmp) (sm : Sorter (msgCmp (τ := τ))) (code : Bytes)
    (ms : List (Msg τ)) (hr : ∀ m ∈ ms, ∀ f ∈ m.fixes, InRange code f)
    (hspan : ms.Pairwise (fun a b => (∀ f ∈ a.fixes, ∀ g ∈ b.fixes, f.stop ≤ g.pos) ∨ (∀ f ∈ a.fixes, ∀ g ∈ b.fixes, g.stop ≤ f.pos)))
    {out : Bytes} {un : List (Msg τ)} {fixed : Bool} (h : applyRuleFixes sf sm code ms = some (out, un, fixed)) :
    ∀ m ∈ un, m.fixes = [] := by
  obtain ⟨applied, hp, _, _, hdrop⟩ := C03_dropped_only_by_overlap sf sm code ms hr h
  intro m hm
  refine Classical.byContradiction fun hne => ?_
  obtain ⟨a, ha, e, f, g, l, he, hf, hg, hl, h1, h2⟩ := hdrop m hm hne
  have hpw : (ms.map (sortFixes sf)).Pairwise
      (fun a b => (∀ f ∈ a.fixes, ∀ g ∈ b.fixes, f.stop ≤ g.pos) ∨ (∀ f ∈ a.fixes, ∀ g ∈ b.fixes, g.stop ≤ f.pos)) := by
    rw [List.pairwise_map]
    refine hspan.imp ?_
    intro x y hxy
    have hx : ∀ f, f ∈ (sortFixes sf x).fixes ↔ f ∈ x.fixes := fun f => (sf.perm _).mem_iff
    have hy : ∀ f, f ∈ (sortFixes sf y).fixes ↔ f ∈ y.fixes := fun f => (sf.perm _).mem_iff
    simpa only [hx, hy] using hxy
  have hpw' := (hp.symm.pairwise_iff (by
    intro x y hxy
    rcases hxy with hxy | hxy
    · exact .inr fun f hf g hg => hxy g hg f hf
    · exact .inl fun f hf g hg => hxy g hg f hf)).1 hpw
  have hab := (List.pairwise_append.1 hpw').2.2 a ha m hm
  have hem := List.mem_of_head? he
  have hfm := List.mem_of_getLast? hf
  have hgm := List.mem_of_head? hg
  have hrange : ∀ x ∈ applied ++ un, ∀ f ∈ x.fixes, InRange code f := by
    intro x hx f hf
    obtain ⟨y, hy, rfl⟩ := List.mem_map.1 (hp.mem_iff.1 hx)
    exact hr y hy f ((sf.perm _).mem_iff.1 hf)
  rcases hab with hab | hab
  · have := hab f hfm g hgm; omega
  · have := hab e hem g hgm
    have hg' := hrange m (by simp [hm]) g hgm
    have hf' := hrange a (by simp [ha]) f hfm
    have hlm := List.mem_of_getLast? hl
    have := hab e hem l hlm
    have he' := hrange a (by simp [ha]) e hem
    have := hab f hfm l hlm
    unfold InRange at hg' hf' he'
    omega

/-- C04.  Panic freedom: in-range fixes, no two fixes of the same message overlapping. -/
theorem C04_no_panic (sf : Sorter fixCmp) (sm : Sorter (msgCmp (τ := τ))) (code : Bytes) (ms : List (Msg τ))
    (hr : ∀ m ∈ ms, ∀ f ∈ m.fixes, InRange code f)
    (hd : ∀ m ∈ ms, NoOverlap m.fixes) :
    applyRuleFixes sf sm code ms ≠ none := by
  have hr' := mem_pos_le_stop (sf := sf) (sm := sm) (P := InRange code) hr
  have hd' : ∀ m ∈ sortedMsgs sf sm ms, Disjoint m.fixes := by
    intro m hm
    have := (sm.perm _).mem_iff.1 hm
    simp only [List.mem_map, List.mem_filter] at this
    obtain ⟨x, ⟨hx, _⟩, rfl⟩ := this
    exact disjoint_sort sf (hr x hx) (hd x hx)
  obtain ⟨s', e1, e2, e3⟩ := loop_isSome (s := ⟨0, [], ms.filter (fun m => m.fixes.isEmpty), false⟩)
    (by simp) (by simp) hr' hd' (sorted_withFixes_ne_nil sf sm ms)
  simp only [sortedMsgs] at e1
  simp only [applyRuleFixes, e1]
  have : (goSliceFrom code s'.last).isSome := by
    unfold goSliceFrom; rw [goSlice_isSome]; omega
  obtain ⟨t, ht⟩ := Option.isSome_iff_exists.1 this
  simp [ht]

/-- C04 (exactness).  For one message with a fix the Go code panics iff the message is not skipped (its first position is
non-negative) and the slice bounds of its sorted fixes are violated. -/
theorem C04_single_message_panics_iff (sf : Sorter fixCmp) (sm : Sorter (msgCmp (τ := τ))) (code : Bytes) (m : Msg τ)
    (hne : m.fixes ≠ []) :
    applyRuleFixes sf sm code [m] = none ↔
      (0 ≤ firstPos (sortFixes sf m) ∧ ¬ Bounds code 0 (sf.sort m.fixes)) := by
  have h1 : [m].filter (fun m => m.fixes.isEmpty) = [] := by simp [hne]
  have h2 : [m].filter (fun m => !m.fixes.isEmpty) = [m] := by simp [hne]
  have h3 : sm.sort [sortFixes sf m] = [sortFixes sf m] := List.perm_singleton.1 (sm.perm _)
  simp only [applyRuleFixes, h1, h2, List.map_cons, List.map_nil, h3, loop]
  by_cases hp : 0 > firstPos (sortFixes sf m)
  · simp only [hp, if_true]
    have : goSliceFrom code 0 = some code := by simp [goSliceFrom, goSlice]
    simp [this]; omega
  · simp only [hp, if_false]
    have hb := run_bounds (code := code) (fs := (sortFixes sf m).fixes) (last := 0) (out := [])
    have e : (sortFixes sf m).fixes = sf.sort m.fixes := rfl
    rw [e] at hb ⊢
    rw [← hb]
    cases ha : applyFixes code (sf.sort m.fixes) 0 [] with
    | none => simp at hp ⊢; exact hp
    | some p =>
      obtain ⟨l, o⟩ := p
      cases ht : goSliceFrom code l with
      | none => simp [ht] at hp ⊢; exact hp
      | some t => simp [ht]

/-- C05.  Order independence: reordering the messages and the fixes inside each message, and using other sorting algorithms,
changes neither the panic behaviour, the output, the flag, nor the multiset of unapplied messages, provided equal ranges inside
a message mean equal fixes and equal sort keys mean equal messages. -/
theorem C05_order_independent (sf sf' : Sorter fixCmp) (sm sm' : Sorter (msgCmp (τ := τ))) (code : Bytes)
    (ms ms' : List (Msg τ)) (h : Reordered ms ms')
    (hu : ∀ m ∈ ms, ∀ f ∈ m.fixes, ∀ g ∈ m.fixes, f.pos = g.pos → f.stop = g.stop → f = g)
    (hk : ∀ x ∈ ms, ∀ y ∈ ms, x.fixes ≠ [] → y.fixes ≠ [] →
      firstPos (sortFixes sf x) = firstPos (sortFixes sf y) →
      lastEnd (sortFixes sf x) = lastEnd (sortFixes sf y) → x = y) :
    match applyRuleFixes sf sm code ms, applyRuleFixes sf' sm' code ms' with
    | none, none => True
    | some (out, un, fixed), some (out', un', fixed') => out = out' ∧ fixed = fixed' ∧ un'.Perm un
    | _, _ => False := by
  obtain ⟨h1, h2⟩ := h.sorted_eq (sf := sf) (sf' := sf') (sm := sm) (sm' := sm') hu hk
  exact applyRuleFixes_congr h1 h2

/-! ## Non-vacuity and negative witnesses -/

/-- "abcdef" -/
def exCode : Bytes := [97, 98, 99, 100, 101, 102]
def exA : Msg Nat := ⟨1, [⟨[88], 3, 4⟩, ⟨[89, 90], 0, 1⟩]⟩
def exB : Msg Nat := ⟨2, [⟨[], 2, 5⟩]⟩
def exC : Msg Nat := ⟨3, []⟩
def exD : Msg Nat := ⟨4, [⟨[81], 4, 4⟩]⟩

/-- The hypotheses of C01–C04 are met by a case with an accepted, a dropped, a fix-less and an adjacent insertion message. -/
example : (∀ m ∈ [exA, exB, exC, exD], ∀ f ∈ m.fixes, InRange exCode f) ∧
    (∀ m ∈ [exA, exB, exC, exD], NoOverlap m.fixes) := by
  constructor
  · simp [exA, exB, exC, exD, InRange, exCode]
  · simp [exA, exB, exC, exD, NoOverlap]

example : applyRuleFixes fixSorter msgSorter exCode [exA, exB, exC, exD] =
    some ([89, 90, 98, 99, 88, 81, 101, 102], [exC, exB], true) := by
  simp [applyRuleFixes, exA, exB, exC, exD, fixSorter, msgSorter, Sorter.ofMergeSort, List.mergeSort, fixCmp, msgCmp,
    sortFixes, firstPos, lastEnd, loop, applyFixes, goSlice, goSliceFrom, exCode]

/-- C05's hypotheses hold for that case with the messages reversed. -/
example : Reordered [exA, exB, exC, exD] [exD, exC, exB, ⟨1, exA.fixes.reverse⟩] :=
  ⟨[exD, exC, exB, exA], by decide, .cons ⟨rfl, .refl _⟩ (.cons ⟨rfl, .refl _⟩ (.cons ⟨rfl, .refl _⟩
    (.cons ⟨rfl, (List.reverse_perm _).symm⟩ .nil)))⟩

/-- C05 (negative).  With equal sort keys the result does depend on the report order: two insertions at one place. -/
theorem C05_equal_keys_order_dependent : ∃ (code : Bytes) (a b : Msg Nat),
    applyRuleFixes fixSorter msgSorter code [a, b] ≠ applyRuleFixes fixSorter msgSorter code [b, a] ∧
    (applyRuleFixes fixSorter msgSorter code [a, b]).map (·.1) ≠
      (applyRuleFixes fixSorter msgSorter code [b, a]).map (·.1) := by
  refine ⟨[97], ⟨1, [⟨[88], 0, 0⟩]⟩, ⟨2, [⟨[89], 0, 0⟩]⟩, ?_, ?_⟩ <;>
  simp [applyRuleFixes, fixSorter, msgSorter, Sorter.ofMergeSort, List.mergeSort, fixCmp, msgCmp,
    sortFixes, firstPos, lastEnd, loop, applyFixes, goSlice, goSliceFrom]

/-- C04 (negative).  Two overlapping fixes inside one message make the Go code panic. -/
theorem C04_self_overlap_panics : applyRuleFixes fixSorter msgSorter exCode
    [(⟨1, [⟨[], 0, 3⟩, ⟨[], 2, 4⟩]⟩ : Msg Nat)] = none := by
  rw [C04_single_message_panics_iff _ _ _ _ (by simp)]
  simp [fixSorter, Sorter.ofMergeSort, List.mergeSort, fixCmp, sortFixes, firstPos, Bounds]

end Tsgolint.Fixer
