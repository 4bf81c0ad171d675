import Verif.Spec.Fixer
/-! # Lemmas about `ApplyRuleFixes` -/
namespace Tsgolint.Fixer
variable {τ : Type}

theorem goSlice_eq_some {s : Bytes} {lo hi : Int} {r : Bytes} :
    goSlice s lo hi = some r ↔
      (0 ≤ lo ∧ lo ≤ hi ∧ hi ≤ (s.length : Int)) ∧ r = (s.drop lo.toNat).take (hi.toNat - lo.toNat) := by
  unfold goSlice
  split
  · simp_all [eq_comm]
  · rename_i h; simp only [reduceCtorEq, false_iff]; exact fun h' => h h'.1

theorem goSlice_isSome {s : Bytes} {lo hi : Int} :
    (goSlice s lo hi).isSome ↔ (0 ≤ lo ∧ lo ≤ hi ∧ hi ≤ (s.length : Int)) := by
  unfold goSlice
  split <;> simp_all

theorem goSlice_eq_none {s : Bytes} {lo hi : Int} :
    goSlice s lo hi = none ↔ ¬ (0 ≤ lo ∧ lo ≤ hi ∧ hi ≤ (s.length : Int)) := by
  unfold goSlice
  split <;> simp_all

/-- What the inner loop writes, followed by the tail of the source. -/
def render (code : Bytes) : Int → List Fix → Bytes
  | last, [] => code.drop last.toNat
  | last, f :: fs => (code.drop last.toNat).take (f.pos.toNat - last.toNat) ++ f.text ++ render code f.stop fs

theorem applyFixes_append (code : Bytes) (a b : List Fix) (last : Int) (out : Bytes) :
    applyFixes code (a ++ b) last out =
      (match applyFixes code a last out with | none => none | some (l, o) => applyFixes code b l o) := by
  induction a generalizing last out with
  | nil => simp [applyFixes]
  | cons f fs ih =>
    simp only [List.cons_append, applyFixes]
    cases h : goSlice code last f.pos with
    | none => simp
    | some s => simp [ih]

/-- The last position after applying fixes. -/
def endOf (last : Int) (fs : List Fix) : Int := match fs.getLast? with | none => last | some f => f.stop

theorem endOf_cons (last : Int) (f : Fix) (fs : List Fix) : endOf last (f :: fs) = endOf f.stop fs := by
  cases fs with
  | nil => simp [endOf]
  | cons g gs => simp only [endOf, List.getLast?_cons_cons]; rw [List.getLast?_eq_some_getLast (by simp : g :: gs ≠ [])]

theorem applyFixes_last {code : Bytes} {fs : List Fix} {last last' : Int} {out out' : Bytes}
    (h : applyFixes code fs last out = some (last', out')) : last' = endOf last fs := by
  induction fs generalizing last out with
  | nil => simp [applyFixes] at h; simp [endOf, h.1]
  | cons f fs ih =>
    simp only [applyFixes] at h
    cases hs : goSlice code last f.pos with
    | none => simp [hs] at h
    | some s => simp only [hs] at h; rw [endOf_cons]; exact ih h

theorem run_bounds {code : Bytes} {fs : List Fix} {last : Int} {out : Bytes} :
    (∃ l o t, applyFixes code fs last out = some (l, o) ∧ goSliceFrom code l = some t) ↔ Bounds code last fs := by
  induction fs generalizing last out with
  | nil =>
    simp [applyFixes, Bounds, goSliceFrom, goSlice_eq_some]
  | cons f fs ih =>
    simp only [applyFixes, Bounds]
    cases hs : goSlice code last f.pos with
    | none =>
      rw [goSlice_eq_none] at hs
      simp; omega
    | some s =>
      rw [goSlice_eq_some] at hs
      simp only [ih]
      constructor
      · intro h; exact ⟨hs.1.1, hs.1.2.1, hs.1.2.2, h⟩
      · intro h; exact h.2.2.2

theorem run_render {code : Bytes} {fs : List Fix} {last l : Int} {out o t : Bytes}
    (h : applyFixes code fs last out = some (l, o)) (ht : goSliceFrom code l = some t) :
    o ++ t = out ++ render code last fs := by
  induction fs generalizing last out with
  | nil =>
    simp [applyFixes] at h
    obtain ⟨rfl, rfl⟩ := h
    simp [goSliceFrom, goSlice_eq_some] at ht
    rw [ht.2]
    simp [render]
    rw [List.take_of_length_le (by simp)]
  | cons f fs ih =>
    simp only [applyFixes] at h
    cases hs : goSlice code last f.pos with
    | none => simp [hs] at h
    | some s =>
      simp only [hs] at h
      rw [ih h, render]
      rw [goSlice_eq_some] at hs
      simp [hs.2]

theorem take_append_render {code : Bytes} {fs : List Fix} {last : Int}
    (hb : Bounds code last fs) (hle : ∀ f ∈ fs, f.pos ≤ f.stop) :
    code.take last.toNat ++ render code last fs = editAll code fs := by
  induction fs generalizing last with
  | nil => simp [render, editAll]
  | cons f fs ih =>
    obtain ⟨h0, h1, h2, hb'⟩ := hb
    have hle' : ∀ g ∈ fs, g.pos ≤ g.stop := fun g hg => hle g (List.mem_cons_of_mem _ hg)
    have hf : f.pos ≤ f.stop := hle f List.mem_cons_self
    have hstop : 0 ≤ f.stop ∧ f.stop ≤ code.length := by
      cases fs with
      | nil => exact hb'
      | cons g gs => obtain ⟨a, b, c, _⟩ := hb'; omega
    have ih := ih hb' hle'
    have e : editAll code (f :: fs) = edit (editAll code fs) f := rfl
    rw [e, ← ih, render, edit]
    have hlen : (code.take f.stop.toNat).length = f.stop.toNat := by simp; omega
    rw [List.take_append_of_le_length (by rw [hlen]; omega), List.take_take,
      Nat.min_eq_left (by omega), List.drop_append_of_le_length (by rw [hlen]; omega)]
    rw [List.drop_of_length_le (l := code.take f.stop.toNat) (by rw [hlen]; omega)]
    have : code.take f.pos.toNat = code.take last.toNat ++ (code.drop last.toNat).take (f.pos.toNat - last.toNat) := by
      have : f.pos.toNat = last.toNat + (f.pos.toNat - last.toNat) := by omega
      conv => lhs; rw [this]
      rw [List.take_add]
    rw [this]; simp

theorem bounds_facts {code : Bytes} {fs : List Fix} {last : Int}
    (hb : Bounds code last fs) (hle : ∀ f ∈ fs, f.pos ≤ f.stop) :
    0 ≤ last ∧ (∀ f ∈ fs, last ≤ f.pos ∧ InRange code f) ∧ Disjoint fs := by
  induction fs generalizing last with
  | nil => exact ⟨hb.1, by simp, List.Pairwise.nil⟩
  | cons f fs ih =>
    obtain ⟨h0, h1, h2, hb'⟩ := hb
    have hf : f.pos ≤ f.stop := hle f List.mem_cons_self
    obtain ⟨i1, i2, i3⟩ := ih hb' (fun g hg => hle g (List.mem_cons_of_mem _ hg))
    have hstop : f.stop ≤ code.length := by
      cases fs with
      | nil => exact hb'.2
      | cons g gs => obtain ⟨a, b, c, _⟩ := hb'; omega
    refine ⟨h0, ?_, ?_⟩
    · intro g hg
      rcases List.mem_cons.1 hg with rfl | hg
      · exact ⟨h1, by omega, hf, hstop⟩
      · have := i2 g hg
        exact ⟨by omega, this.2⟩
    · exact List.Pairwise.cons (fun g hg => (i2 g hg).1) i3

/-- Conversely disjoint in-range fixes starting after `last` satisfy the slice bounds. -/
theorem bounds_of {code : Bytes} {fs : List Fix} {last : Int} (h0 : 0 ≤ last) (hl : last ≤ code.length)
    (hd : Disjoint fs) (hr : ∀ f ∈ fs, InRange code f) (hs : ∀ f ∈ fs, last ≤ f.pos) :
    Bounds code last fs := by
  induction fs generalizing last with
  | nil => exact ⟨h0, hl⟩
  | cons f fs ih =>
    have hf := hr f List.mem_cons_self
    obtain ⟨a, b, c⟩ := hf
    refine ⟨h0, hs f List.mem_cons_self, by omega, ?_⟩
    rcases List.pairwise_cons.1 hd with ⟨d1, d2⟩
    exact ih (by omega) c d2 (fun g hg => hr g (List.mem_cons_of_mem _ hg)) d1

/-- Full description of a terminating outer loop. -/
theorem loop_spec {code : Bytes} {ms : List (Msg τ)} {s s' : LoopState τ} (h : loop code ms s = some s') :
    ∃ applied dropped : List (Msg τ),
      (applied ++ dropped).Perm ms ∧ applied.Sublist ms ∧
      s'.unapplied = s.unapplied ++ dropped ∧
      applyFixes code (applied.flatMap (·.fixes)) s.last s.out = some (s'.last, s'.out) ∧
      s'.fixed = (s.fixed || !applied.isEmpty) ∧
      (∀ m ∈ dropped, firstPos m < s.last ∨
        ∃ a ∈ applied, [a, m].Sublist ms ∧ firstPos m < endOf s.last a.fixes) := by
  induction ms generalizing s with
  | nil =>
    simp [loop] at h; subst h
    exact ⟨[], [], by simp, by simp, by simp, by simp [applyFixes], by simp, by simp⟩
  | cons m ms ih =>
    simp only [loop] at h
    split at h
    · rename_i hgt
      obtain ⟨ap, dr, h1, h2, h3, h4, h5, h6⟩ := ih h
      refine ⟨ap, m :: dr, ?_, h2.cons _, ?_, h4, h5, ?_⟩
      · exact List.perm_middle.trans (h1.cons m)
      · simp [h3]
      · intro x hx
        rcases List.mem_cons.1 hx with rfl | hx
        · left; omega
        · rcases h6 x hx with h | ⟨a, ha, hs, hl⟩
          · left; exact h
          · right; exact ⟨a, ha, hs.cons _, hl⟩
    · rename_i hgt
      cases ha : applyFixes code m.fixes s.last s.out with
      | none => simp [ha] at h
      | some p =>
        obtain ⟨l, o⟩ := p
        simp only [ha] at h
        obtain ⟨ap, dr, h1, h2, h3, h4, h5, h6⟩ := ih h
        refine ⟨m :: ap, dr, ?_, h2.cons_cons _, h3, ?_, ?_, ?_⟩
        · exact h1.cons m
        · rw [List.flatMap_cons, applyFixes_append, ha]; exact h4
        · simp [h5]
        · have hl := applyFixes_last ha
          intro x hx
          have hxms : x ∈ ms := h1.subset (by simp [hx])
          rcases h6 x hx with h | ⟨a, ha', hs, hl'⟩
          · right
            refine ⟨m, by simp, ?_, by simp only at h; rw [← hl]; exact h⟩
            exact (List.singleton_sublist.2 hxms).cons_cons m
          · by_cases hn : a.fixes = []
            · right
              refine ⟨m, by simp, (List.singleton_sublist.2 hxms).cons_cons m, ?_⟩
              simp [endOf, hn] at hl'
              rw [← hl]; exact hl'
            · right
              refine ⟨a, by simp [ha'], hs.cons _, ?_⟩
              have : endOf s.last a.fixes = endOf l a.fixes := by
                unfold endOf
                cases hq : a.fixes.getLast? with
                | none => simp at hq; contradiction
                | some q => rfl
              rw [this]; exact hl'

theorem fixCmp_trans (a b c : Fix) : fixCmp a b ≤ 0 → fixCmp b c ≤ 0 → fixCmp a c ≤ 0 := by
  unfold fixCmp; simp only; split <;> split <;> split <;> omega
theorem fixCmp_total (a b : Fix) : fixCmp a b ≤ 0 ∨ fixCmp b a ≤ 0 := by
  unfold fixCmp; simp only; split <;> split <;> omega
theorem msgCmp_trans (a b c : Msg τ) : msgCmp a b ≤ 0 → msgCmp b c ≤ 0 → msgCmp a c ≤ 0 := by
  unfold msgCmp; simp only; split <;> split <;> split <;> omega
theorem msgCmp_total (a b : Msg τ) : msgCmp a b ≤ 0 ∨ msgCmp b a ≤ 0 := by
  unfold msgCmp; simp only; split <;> split <;> omega

/-- Merge sort instances, used only for non-vacuity. -/
def fixSorter : Sorter fixCmp := Sorter.ofMergeSort _ fixCmp_trans fixCmp_total
def msgSorter : Sorter (msgCmp (τ := τ)) := Sorter.ofMergeSort _ msgCmp_trans msgCmp_total

theorem firstPos_le_of_sorted (sf : Sorter fixCmp) (m : Msg τ) :
    ∀ f ∈ m.fixes, firstPos (sortFixes sf m) ≤ f.pos := by
  intro f hf
  have hf' : f ∈ sf.sort m.fixes := (sf.perm _).mem_iff.2 hf
  have hs := sf.sorted m.fixes
  simp only [firstPos, sortFixes]
  revert hf' hs
  cases sf.sort m.fixes with
  | nil => simp
  | cons g gs =>
    intro hf' hs
    rcases List.mem_cons.1 hf' with rfl | hf'
    · exact Int.le_refl _
    · have := (List.pairwise_cons.1 hs).1 f hf'
      simp only [fixCmp] at this
      simp only
      split at this <;> omega

/-- The list the outer loop runs over. -/
abbrev sortedMsgs (sf : Sorter fixCmp) (sm : Sorter (msgCmp (τ := τ))) (ms : List (Msg τ)) : List (Msg τ) :=
  sm.sort ((ms.filter (fun m => !m.fixes.isEmpty)).map (sortFixes sf))

/-- `Fixes()[0]` in the comparator and in the loop is only used on messages that have a fix. -/
theorem sorted_withFixes_ne_nil (sf : Sorter fixCmp) (sm : Sorter (msgCmp (τ := τ))) (ms : List (Msg τ)) :
    ∀ m ∈ sortedMsgs sf sm ms, m.fixes ≠ [] := by
  intro m hm
  have := (sm.perm _).mem_iff.1 hm
  simp only [List.mem_map, List.mem_filter] at this
  obtain ⟨x, ⟨_, hx⟩, rfl⟩ := this
  intro h
  simp only [sortFixes] at h
  have := (sf.perm x.fixes).length_eq
  rw [h] at this
  cases hq : x.fixes <;> simp_all

theorem sortFixes_nil (sf : Sorter fixCmp) (m : Msg τ) (h : m.fixes = []) : sortFixes sf m = m := by
  have := (sf.perm m.fixes).length_eq
  rw [h] at this
  have h2 : sf.sort ([] : List Fix) = [] := List.length_eq_zero_iff.1 this
  cases m; simp_all [sortFixes]

theorem partition_perm (sf : Sorter fixCmp) (sm : Sorter (msgCmp (τ := τ))) (ms : List (Msg τ)) :
    (ms.filter (fun m => m.fixes.isEmpty) ++ sortedMsgs sf sm ms).Perm (ms.map (sortFixes sf)) := by
  have h1 : ms.filter (fun m => m.fixes.isEmpty) = (ms.filter (fun m => m.fixes.isEmpty)).map (sortFixes sf) := by
    rw [List.map_congr_left (g := id)]
    · simp
    · intro m hm
      simp only [List.mem_filter] at hm
      exact sortFixes_nil sf m (by simpa using hm.2)
  rw [h1]
  refine ((sm.perm _).append_left _).trans ?_
  rw [← List.map_append]
  exact (List.filter_append_perm (fun m : Msg τ => m.fixes.isEmpty) ms).map _

end Tsgolint.Fixer

namespace Tsgolint.Fixer
variable {τ : Type}

theorem applyRuleFixes_spec {sf : Sorter fixCmp} {sm : Sorter (msgCmp (τ := τ))} {code : Bytes} {ms : List (Msg τ)}
    {out : Bytes} {un : List (Msg τ)} {fixed : Bool} (h : applyRuleFixes sf sm code ms = some (out, un, fixed)) :
    ∃ applied dropped : List (Msg τ),
      (applied ++ dropped).Perm (sortedMsgs sf sm ms) ∧ applied.Sublist (sortedMsgs sf sm ms) ∧
      un = ms.filter (fun m => m.fixes.isEmpty) ++ dropped ∧
      Bounds code 0 (applied.flatMap (·.fixes)) ∧
      out = render code 0 (applied.flatMap (·.fixes)) ∧
      fixed = !applied.isEmpty ∧
      (∀ m ∈ dropped, firstPos m < 0 ∨
        ∃ a ∈ applied, [a, m].Sublist (sortedMsgs sf sm ms) ∧ firstPos m < endOf 0 a.fixes) := by
  unfold applyRuleFixes at h
  simp only at h
  split at h
  · simp at h
  · rename_i s hs
    split at h
    · simp at h
    · rename_i t ht
      simp at h
      obtain ⟨rfl, rfl, rfl⟩ := h
      obtain ⟨ap, dr, h1, h2, h3, h4, h5, h6⟩ := loop_spec hs
      refine ⟨ap, dr, h1, h2, h3, ?_, ?_, by simpa using h5, h6⟩
      · exact run_bounds.1 ⟨_, _, _, h4, ht⟩
      · have := run_render h4 ht
        simpa using this

theorem mem_pos_le_stop {sf : Sorter fixCmp} {sm : Sorter (msgCmp (τ := τ))} {ms : List (Msg τ)} {P : Fix → Prop}
    (hP : ∀ m ∈ ms, ∀ f ∈ m.fixes, P f) : ∀ m ∈ sortedMsgs sf sm ms, ∀ f ∈ m.fixes, P f := by
  intro m hm f hf
  have := (sm.perm _).mem_iff.1 hm
  simp only [List.mem_map, List.mem_filter] at this
  obtain ⟨x, ⟨hx, _⟩, rfl⟩ := this
  exact hP x hx f ((sf.perm _).mem_iff.1 hf)

/-- Panic freedom of the outer loop. -/
theorem loop_isSome {code : Bytes} {ms : List (Msg τ)} {s : LoopState τ}
    (h0 : 0 ≤ s.last) (hl : s.last ≤ code.length)
    (hr : ∀ m ∈ ms, ∀ f ∈ m.fixes, InRange code f)
    (hd : ∀ m ∈ ms, Disjoint m.fixes) (hne : ∀ m ∈ ms, m.fixes ≠ []) :
    ∃ s', loop code ms s = some s' ∧ 0 ≤ s'.last ∧ s'.last ≤ code.length := by
  induction ms generalizing s with
  | nil => exact ⟨s, rfl, h0, hl⟩
  | cons m ms ih =>
    have hr' := fun x hx => hr x (List.mem_cons_of_mem m hx)
    have hd' := fun x hx => hd x (List.mem_cons_of_mem m hx)
    have hn' := fun x hx => hne x (List.mem_cons_of_mem m hx)
    simp only [loop]
    split
    · exact ih (s := { s with unapplied := _ }) h0 hl hr' hd' hn'
    · rename_i hgt
      have hm := hr m List.mem_cons_self
      have hdm := hd m List.mem_cons_self
      have hb : Bounds code s.last m.fixes := by
        apply bounds_of h0 hl hdm hm
        intro f hf
        cases hfx : m.fixes with
        | nil => exact absurd hfx (hne m List.mem_cons_self)
        | cons g gs =>
          have hg : s.last ≤ g.pos := by simp only [firstPos, hfx] at hgt; omega
          rw [hfx] at hf hdm
          rcases List.mem_cons.1 hf with rfl | hf
          · exact hg
          · have h1 := (List.pairwise_cons.1 hdm).1 f hf
            have h2 := hm g (by rw [hfx]; exact List.mem_cons_self)
            unfold InRange at h2; omega
      obtain ⟨l, o, t, h1, h2⟩ := (run_bounds (out := s.out)).2 hb
      rw [h1]
      have h3 := (goSlice_eq_some.1 h2).1
      exact ih (s := { s with last := l, out := o, fixed := true }) h3.1 h3.2.1 hr' hd' hn'

/-- The unapplied accumulator is only appended to. -/
theorem loop_unapplied (code : Bytes) (ms : List (Msg τ)) (s : LoopState τ) (u : List (Msg τ)) :
    loop code ms { s with unapplied := u ++ s.unapplied } =
      (loop code ms s).map (fun r => { r with unapplied := u ++ r.unapplied }) := by
  induction ms generalizing s with
  | nil => simp [loop]
  | cons m ms ih =>
    simp only [loop]
    split
    · have := ih { s with unapplied := s.unapplied ++ [m] }
      simpa [List.append_assoc] using this
    · cases applyFixes code m.fixes s.last s.out with
      | none => simp
      | some p => exact ih { s with last := p.1, out := p.2, fixed := true }

/-- Sorting a list of fixes in which equal ranges mean equal fixes is deterministic. -/
theorem sort_fix_unique (s1 s2 : Sorter fixCmp) {a b : List Fix} (hp : a.Perm b)
    (hu : ∀ f ∈ a, ∀ g ∈ a, f.pos = g.pos → f.stop = g.stop → f = g) : s1.sort a = s2.sort b := by
  apply List.Perm.eq_of_pairwise (le := fun a b => fixCmp a b ≤ 0)
  · intro x y hx hy h1 h2
    have hx' := (s1.perm a).mem_iff.1 hx
    have hy' := hp.mem_iff.2 ((s2.perm b).mem_iff.1 hy)
    have : x.pos = y.pos ∧ x.stop = y.stop := by
      simp only [fixCmp] at h1 h2
      split at h1 <;> split at h2 <;> omega
    exact hu x hx' y hy' this.1 this.2
  · exact s1.sorted a
  · exact s2.sorted b
  · exact (s1.perm a).trans (hp.trans (s2.perm b).symm)

theorem sort_msg_unique (s1 s2 : Sorter (msgCmp (τ := τ))) {a b : List (Msg τ)} (hp : a.Perm b)
    (hu : ∀ f ∈ a, ∀ g ∈ a, firstPos f = firstPos g → lastEnd f = lastEnd g → f = g) : s1.sort a = s2.sort b := by
  apply List.Perm.eq_of_pairwise (le := fun a b => msgCmp a b ≤ 0)
  · intro x y hx hy h1 h2
    have hx' := (s1.perm a).mem_iff.1 hx
    have hy' := hp.mem_iff.2 ((s2.perm b).mem_iff.1 hy)
    have : firstPos x = firstPos y ∧ lastEnd x = lastEnd y := by
      simp only [msgCmp] at h1 h2
      split at h1 <;> split at h2 <;> omega
    exact hu x hx' y hy' this.1 this.2
  · exact s1.sorted a
  · exact s2.sorted b
  · exact (s1.perm a).trans (hp.trans (s2.perm b).symm)

end Tsgolint.Fixer

namespace Tsgolint.Fixer
variable {τ : Type}

theorem AllSame.filter_map {sf sf' : Sorter fixCmp} {a b : List (Msg τ)} (h : AllSame a b)
    (hu : ∀ m ∈ a, ∀ f ∈ m.fixes, ∀ g ∈ m.fixes, f.pos = g.pos → f.stop = g.stop → f = g) :
    (a.filter (fun m => !m.fixes.isEmpty)).map (sortFixes sf) =
      (b.filter (fun m => !m.fixes.isEmpty)).map (sortFixes sf') ∧
    a.filter (fun m => m.fixes.isEmpty) = b.filter (fun m => m.fixes.isEmpty) := by
  induction h with
  | nil => simp
  | @cons x y as bs hxy _ ih =>
    obtain ⟨i1, i2⟩ := ih (fun m hm => hu m (List.mem_cons_of_mem _ hm))
    have hux := hu x List.mem_cons_self
    have he : x.fixes.isEmpty = y.fixes.isEmpty := by
      have := hxy.2.length_eq
      cases hx : x.fixes <;> cases hy : y.fixes <;> simp_all
    have hs : sortFixes sf x = sortFixes sf' y := by
      have := sort_fix_unique sf sf' hxy.2 hux
      cases x; cases y; simp_all [sortFixes, SameMsg]
    by_cases hx : x.fixes.isEmpty
    · have hy : y.fixes.isEmpty := he ▸ hx
      have hxy' : x = y := by
        have h1 : x.fixes = [] := by simpa using hx
        have h2 : y.fixes = [] := by simpa using hy
        cases x; cases y; simp_all [SameMsg]
      subst hxy'
      simp [hx, i1, i2]
    · have hy : ¬ y.fixes.isEmpty := he ▸ hx
      simp [hx, hy, i1, i2, hs]

theorem Reordered.sorted_eq {sf sf' : Sorter fixCmp} {sm sm' : Sorter (msgCmp (τ := τ))} {a b : List (Msg τ)}
    (h : Reordered a b)
    (hu : ∀ m ∈ a, ∀ f ∈ m.fixes, ∀ g ∈ m.fixes, f.pos = g.pos → f.stop = g.stop → f = g)
    (hk : ∀ x ∈ a, ∀ y ∈ a, x.fixes ≠ [] → y.fixes ≠ [] →
      firstPos (sortFixes sf x) = firstPos (sortFixes sf y) →
      lastEnd (sortFixes sf x) = lastEnd (sortFixes sf y) → x = y) :
    sortedMsgs sf sm a = sortedMsgs sf' sm' b ∧
    (b.filter (fun m => m.fixes.isEmpty)).Perm (a.filter (fun m => m.fixes.isEmpty)) := by
  obtain ⟨mid, hp, hs⟩ := h
  have hf := hs.filter_map (sf := sf) (sf' := sf') (fun m hm => hu m (hp.mem_iff.2 hm))
  constructor
  · apply sort_msg_unique
    · rw [← hf.1]; exact (hp.filter _).map _
    · intro x hx y hy h1 h2
      simp only [List.mem_map, List.mem_filter] at hx hy
      obtain ⟨x', ⟨hx1, hx2⟩, rfl⟩ := hx
      obtain ⟨y', ⟨hy1, hy2⟩, rfl⟩ := hy
      rw [hk x' hx1 y' hy1 (by simpa using hx2) (by simpa using hy2) h1 h2]
  · rw [← hf.2]; exact (hp.filter _).symm

theorem applyRuleFixes_congr {sf sf' : Sorter fixCmp} {sm sm' : Sorter (msgCmp (τ := τ))} {code : Bytes}
    {a b : List (Msg τ)} (he : sortedMsgs sf sm a = sortedMsgs sf' sm' b)
    (hp : (b.filter (fun m => m.fixes.isEmpty)).Perm (a.filter (fun m => m.fixes.isEmpty))) :
    match applyRuleFixes sf sm code a, applyRuleFixes sf' sm' code b with
    | none, none => True
    | some (o1, u1, f1), some (o2, u2, f2) => o1 = o2 ∧ f1 = f2 ∧ u2.Perm u1
    | _, _ => False := by
  unfold applyRuleFixes
  simp only [sortedMsgs] at he
  simp only [← he]
  have h1 := loop_unapplied code (sm.sort ((a.filter (fun m => !m.fixes.isEmpty)).map (sortFixes sf)))
    { last := 0, out := [], unapplied := [], fixed := false } (a.filter (fun m => m.fixes.isEmpty))
  have h2 := loop_unapplied code (sm.sort ((a.filter (fun m => !m.fixes.isEmpty)).map (sortFixes sf)))
    { last := 0, out := [], unapplied := [], fixed := false } (b.filter (fun m => m.fixes.isEmpty))
  simp only [List.append_nil] at h1 h2
  rw [h1, h2]
  cases loop code (sm.sort ((a.filter (fun m => !m.fixes.isEmpty)).map (sortFixes sf)))
    { last := 0, out := [], unapplied := [], fixed := false } with
  | none => simp
  | some s =>
    simp only [Option.map_some]
    cases goSliceFrom code s.last with
    | none => simp
    | some t => exact ⟨rfl, rfl, hp.append_right _⟩

end Tsgolint.Fixer

namespace Tsgolint.Fixer

theorem disjoint_sort (sf : Sorter fixCmp) {code : Bytes} {fs : List Fix} (hr : ∀ f ∈ fs, InRange code f)
    (hn : NoOverlap fs) : Disjoint (sf.sort fs) := by
  have h1 : (sf.sort fs).Pairwise (fun a b => a.stop ≤ b.pos ∨ b.stop ≤ a.pos) :=
    (List.Perm.pairwise_iff (by intro a b h; exact h.symm) (sf.perm fs)).2 hn
  have h2 := h1.and (sf.sorted fs)
  refine List.Pairwise.imp_of_mem ?_ h2
  intro a b ha hb ⟨h, hc⟩
  have ha := hr a ((sf.perm fs).mem_iff.1 ha)
  have hb := hr b ((sf.perm fs).mem_iff.1 hb)
  unfold InRange at ha hb
  simp only [fixCmp] at hc
  split at hc <;> omega

end Tsgolint.Fixer
