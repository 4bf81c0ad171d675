import Verif.Spec.Bfs
namespace Tsgolint.Bfs
set_option linter.unusedSectionVars false
variable {N : Type} [DecidableEq N] {nb : N → List N} {vis : N → Bool × Bool}

theorem addChildren_nodes (job : Job N) (cs : List N) (next : List (Job N)) (n : N) :
    (∃ j ∈ addChildren job next cs, j.node = n) ↔ (∃ j ∈ next, j.node = n) ∨ n ∈ cs := by
  induction cs generalizing next with
  | nil => simp [addChildren]
  | cons c cs ih =>
    unfold addChildren
    split
    · rename_i h
      rw [ih]
      simp only [List.any_eq_true, decide_eq_true_eq] at h
      obtain ⟨x, hx, hxc⟩ := h
      grind
    · rw [ih]; simp; grind

theorem addChildren_mem (job : Job N) (cs : List N) (next : List (Job N)) (j : Job N)
    (h : j ∈ addChildren job next cs) : j ∈ next ∨ (j.node ∈ cs ∧ j.up = job.path) := by
  induction cs generalizing next with
  | nil => exact Or.inl h
  | cons c cs ih =>
    unfold addChildren at h
    split at h
    · rcases ih _ h with h | h
      · exact Or.inl h
      · exact Or.inr ⟨by simp [h.1], h.2⟩
    · rcases ih _ h with h | h
      · rcases List.mem_append.1 h with h | h
        · exact Or.inl h
        · simp at h; subst h; exact Or.inr ⟨by simp, rfl⟩
      · exact Or.inr ⟨by simp [h.1], h.2⟩

/-- the path of a job is a genuine path of `k` edges -/
def Good (nb : N → List N) (start : N) (k : Nat) (j : Job N) : Prop :=
  BackPath nb start j.node j.path ∧ j.path.length = k + 1

theorem good_child {start : N} {k : Nat} {j c : Job N} (h : Good nb start k j) (hc : c.node ∈ nb j.node)
    (hu : c.up = j.path) : Good nb start (k + 1) c := by
  obtain ⟨⟨h1, h2, h3⟩, h4⟩ := h
  refine ⟨⟨rfl, ?_, ?_⟩, by simp [Job.path, hu] at h4 ⊢; omega⟩
  · simp only [Job.path, hu] at h2 ⊢; rw [List.getLast?_cons_cons]; exact h2
  · intro pre a b post he
    simp only [Job.path] at he
    rw [hu] at he
    cases pre with
    | nil =>
      simp only [Job.path, List.nil_append, List.cons.injEq] at he
      obtain ⟨rfl, rfl, _⟩ := he; exact hc
    | cons x pre =>
      simp only [List.cons_append, List.cons.injEq] at he
      exact h3 pre a b post he.2

/-- what has been found out about fallback results -/
def FbOk (nb : N → List N) (vis : N → Bool × Bool) (start : N) (old : List N) (st : St N) : Prop :=
  ∃ trace, st.visited = old ++ trace ∧
    (st.fallback = none ∧ (∀ n ∈ trace, ¬ IsFallback vis n) ∨
     ∃ j k a b, st.fallback = some j ∧ Good nb start k j ∧ trace = a ++ j.node :: b ∧ IsFallback vis j.node ∧
        ∀ n ∈ a, ¬ IsFallback vis n)

structure LevelInv (nb : N → List N) (vis : N → Bool × Bool) (old : List N) (start : N) (k : Nat)
    (level : List (Job N)) (st : St N) : Prop where
  fb : FbOk nb vis start old st
  seen : ∀ n, n ∈ st.visited ↔ n ∈ old ∨ ∃ j, j < k ∧ Walk nb old start j n
  complete : ∀ n, Walk nb old start k n → n ∈ st.visited ∨ ∃ j ∈ level, j.node = n
  sound : ∀ j ∈ level, Good nb start k j ∧ (j.node ∉ old → Walk nb old start k j.node)
  nostop : ∀ n ∈ st.visited, n ∈ old ∨ ¬ Stops vis n
  nodup : ∃ trace, st.visited = old ++ trace ∧ trace.Nodup ∧ ∀ n ∈ trace, n ∉ old

structure MidInv (nb : N → List N) (vis : N → Bool × Bool) (old : List N) (start : N) (k : Nat)
    (jobs next : List (Job N)) (st : St N) : Prop where
  fb : FbOk nb vis start old st
  lower : ∀ n, (n ∈ old ∨ ∃ j, j < k ∧ Walk nb old start j n) → n ∈ st.visited
  upper : ∀ n, n ∈ st.visited → n ∈ old ∨ ∃ j, j ≤ k ∧ Walk nb old start j n
  complete : ∀ n, Walk nb old start k n → n ∈ st.visited ∨ ∃ j ∈ jobs, j.node = n
  sound : ∀ j ∈ jobs, Good nb start k j ∧ (j.node ∉ old → Walk nb old start k j.node)
  nsound : ∀ j ∈ next, Good nb start (k + 1) j ∧ (j.node ∉ old → Walk nb old start (k + 1) j.node)
  ncomplete : ∀ n, Walk nb old start k n → n ∈ st.visited → (∃ j, j < k ∧ Walk nb old start j n) ∨
      ∀ m ∈ nb n, ∃ j ∈ next, j.node = m
  nostop : ∀ n ∈ st.visited, n ∈ old ∨ ¬ Stops vis n
  nodup : ∃ trace, st.visited = old ++ trace ∧ trace.Nodup ∧ ∀ n ∈ trace, n ∉ old

theorem mid_start {old : List N} {start : N} {k : Nat} {level : List (Job N)} {st : St N}
    (h : LevelInv nb vis old start k level st) : MidInv nb vis old start k level [] st where
  fb := h.fb
  lower n := (h.seen n).2
  upper n hn := by
    rcases (h.seen n).1 hn with h | ⟨j, h1, h2⟩
    · exact Or.inl h
    · exact Or.inr ⟨j, by omega, h2⟩
  complete := h.complete
  sound := h.sound
  nsound := by simp
  ncomplete n hw hv := by
    have hn : n ∉ old := by cases hw <;> assumption
    rcases (h.seen n).1 hv with h | h
    · exact absurd h hn
    · exact Or.inl h
  nostop := h.nostop
  nodup := h.nodup

theorem walk_not_old {old : List N} {start : N} {k : Nat} {n : N} (h : Walk nb old start k n) : n ∉ old := by
  cases h <;> assumption

theorem mid_end {old : List N} {start : N} {k : Nat} {next : List (Job N)} {st : St N}
    (h : MidInv nb vis old start k [] next st) : LevelInv nb vis old start (k + 1) next st where
  fb := h.fb
  seen n := by
    constructor
    · intro hn
      rcases h.upper n hn with h | ⟨j, h1, h2⟩
      · exact Or.inl h
      · exact Or.inr ⟨j, by omega, h2⟩
    · rintro (hn | ⟨j, h1, h2⟩)
      · exact h.lower n (Or.inl hn)
      · by_cases hj : j < k
        · exact h.lower n (Or.inr ⟨j, hj, h2⟩)
        · have : j = k := by omega
          subst this
          rcases h.complete n h2 with h | h
          · exact h
          · simp at h
  complete n hw := by
    cases hw with
    | @step k n' m hw hm hmo =>
      have hv : n' ∈ st.visited := by
        rcases h.complete n' hw with h | h
        · exact h
        · simp at h
      rcases h.ncomplete n' hw hv with ⟨j, hj, hw'⟩ | hall
      · left
        by_cases hj' : j + 1 < k
        · exact h.lower n (Or.inr ⟨j + 1, hj', .step hw' hm hmo⟩)
        · have : j + 1 = k := by omega
          subst this
          rcases h.complete n (.step hw' hm hmo) with h | h
          · exact h
          · simp at h
      · exact Or.inr (hall n hm)
  sound := h.nsound
  nostop := h.nostop
  nodup := h.nodup

theorem mid_skip {old : List N} {start : N} {k : Nat} {job : Job N} {jobs next : List (Job N)} {st : St N}
    (h : MidInv nb vis old start k (job :: jobs) next st) (hv : job.node ∈ st.visited) :
    MidInv nb vis old start k jobs next st where
  fb := h.fb
  lower := h.lower
  upper := h.upper
  complete n hw := by
    rcases h.complete n hw with h | ⟨j, hj, rfl⟩
    · exact Or.inl h
    · rcases List.mem_cons.1 hj with rfl | hj
      · exact Or.inl hv
      · exact Or.inr ⟨j, hj, rfl⟩
  sound j hj := h.sound j (by simp [hj])
  nsound := h.nsound
  ncomplete := h.ncomplete
  nostop := h.nostop
  nodup := h.nodup

theorem mid_visit {old : List N} {start : N} {k : Nat} {job : Job N} {jobs next : List (Job N)} {st : St N}
    (h : MidInv nb vis old start k (job :: jobs) next st) (hv : job.node ∉ st.visited)
    (hs : ¬ Stops vis job.node) :
    MidInv nb vis old start k jobs (addChildren job next (nb job.node))
      (if (vis job.node).1 && st.fallback.isNone then { visited := st.visited ++ [job.node], fallback := some job }
        else { st with visited := st.visited ++ [job.node] }) := by
  have hno : job.node ∉ old := fun ho => hv (h.lower _ (Or.inl ho))
  obtain ⟨hg, hw⟩ := h.sound job (by simp)
  have hw := hw hno
  have hvis : (if (vis job.node).1 && st.fallback.isNone then { visited := st.visited ++ [job.node], fallback := some job }
        else { st with visited := st.visited ++ [job.node] } : St N).visited = st.visited ++ [job.node] := by
    split <;> rfl
  constructor
  · -- fb
    obtain ⟨trace, ht, hf⟩ := h.fb
    refine ⟨trace ++ [job.node], by rw [hvis, ht]; simp, ?_⟩
    rcases hf with ⟨hn, hf⟩ | ⟨j, k', a, b, hj, hgj, he, hfb, hfa⟩
    · by_cases hr : (vis job.node).1 = true
      · right
        refine ⟨job, k, trace, [], by simp [hr, hn], hg, rfl, ?_, hf⟩
        unfold IsFallback; unfold Stops at hs
        cases hx : vis job.node with
        | mk x y => cases x <;> cases y <;> simp_all
      · left
        refine ⟨by simp [hr, hn], ?_⟩
        intro n hn
        rcases List.mem_append.1 hn with hn | hn
        · exact hf n hn
        · simp at hn; subst hn
          intro hfb; unfold IsFallback at hfb; simp [hfb] at hr
    · right
      exact ⟨j, k', a, b ++ [job.node], by simp [hj], hgj, by simp [he], hfb, hfa⟩
  · intro n hn; rw [hvis]; exact List.mem_append_left _ (h.lower n hn)
  · intro n hn
    rw [hvis] at hn
    rcases List.mem_append.1 hn with hn | hn
    · exact h.upper n hn
    · simp at hn; subst hn; exact Or.inr ⟨k, by omega, hw⟩
  · intro n hn
    rw [hvis]
    rcases h.complete n hn with h | ⟨j, hj, rfl⟩
    · exact Or.inl (by simp [h])
    · rcases List.mem_cons.1 hj with rfl | hj
      · exact Or.inl (by simp)
      · exact Or.inr ⟨j, hj, rfl⟩
  · intro j hj; exact h.sound j (by simp [hj])
  · intro j hj
    rcases addChildren_mem _ _ _ _ hj with hj | ⟨hm, hu⟩
    · exact h.nsound j hj
    · exact ⟨good_child hg hm hu, fun ho => .step hw hm ho⟩
  · intro n hn hnv
    rw [hvis] at hnv
    by_cases he : n = job.node
    · subst he
      right
      intro m hm
      exact (addChildren_nodes _ _ _ _).2 (Or.inr hm)
    · have hnv : n ∈ st.visited := by simpa [he] using hnv
      rcases h.ncomplete n hn hnv with h | h
      · exact Or.inl h
      · right
        intro m hm
        exact (addChildren_nodes _ _ _ _).2 (Or.inl (h m hm))
  · intro n hn
    rw [hvis] at hn
    rcases List.mem_append.1 hn with hn | hn
    · exact h.nostop n hn
    · simp at hn; subst hn; exact Or.inr hs
  · obtain ⟨trace, ht, hnd, hto⟩ := h.nodup
    refine ⟨trace ++ [job.node], by rw [hvis, ht]; simp, ?_, ?_⟩
    · rw [List.nodup_append]
      refine ⟨hnd, by simp, ?_⟩
      intro a ha b hb
      simp at hb; subst hb
      rintro rfl
      exact hv (by rw [ht]; simp [ha])
    · intro n hn
      rcases List.mem_append.1 hn with hn | hn
      · exact hto n hn
      · simp at hn; subst hn; exact hno

/-- what a level returns -/
theorem processLevel_inv {old : List N} {start : N} {k : Nat} (jobs next : List (Job N)) (st : St N)
    (h : MidInv nb vis old start k jobs next st) :
    match processLevel nb vis jobs next st with
    | (st', .inr next') => LevelInv nb vis old start (k + 1) next' st'
    | (st', .inl job) => Stops vis job.node ∧ Good nb start k job ∧ Walk nb old start k job.node ∧
        (∀ n j, Walk nb old start j n → Stops vis n → k ≤ j) ∧
        ∃ trace, st'.visited = old ++ trace ++ [job.node] ∧ (trace ++ [job.node]).Nodup ∧ (∀ n ∈ trace, n ∉ old) ∧
          (∀ n ∈ trace, ∃ j, Walk nb old start j n) ∧ ∀ n ∈ trace, ¬ Stops vis n := by
  induction jobs generalizing next st with
  | nil => exact mid_end h
  | cons job jobs ih =>
    unfold processLevel
    by_cases hv : job.node ∈ st.visited
    · rw [if_pos hv]; exact ih _ _ (mid_skip h hv)
    · rw [if_neg hv]
      have hno : job.node ∉ old := fun ho => hv (h.lower _ (Or.inl ho))
      by_cases hs : Stops vis job.node
      · have hs' : vis job.node = (true, true) := hs
        simp only [hs', Bool.and_self, ↓reduceIte]
        obtain ⟨hg, hw⟩ := h.sound job (by simp)
        obtain ⟨trace, ht, hnd, hto⟩ := h.nodup
        refine ⟨hs, hg, hw hno, ?_, trace, by rw [ht], ?_, hto, ?_, ?_⟩
        · intro n j hwj hsn
          by_cases hj : j < k
          · rcases h.nostop n (h.lower n (Or.inr ⟨j, hj, hwj⟩)) with ho | hns
            · exact absurd ho (walk_not_old hwj)
            · exact absurd hsn hns
          · omega
        · rw [List.nodup_append]
          refine ⟨hnd, by simp, ?_⟩
          intro a ha b hb
          simp at hb; subst hb; rintro rfl
          exact hv (by rw [ht]; simp [ha])
        · intro n hn
          rcases h.upper n (by rw [ht]; simp [hn]) with ho | ⟨j, _, hj⟩
          · exact absurd ho (hto n hn)
          · exact ⟨j, hj⟩
        · intro n hn
          rcases h.nostop n (by rw [ht]; simp [hn]) with ho | hns
          · exact absurd ho (hto n hn)
          · exact hns
      · have hmid := mid_visit h hv hs
        have := ih _ _ hmid
        have hns : ((vis job.node).1 && (vis job.node).2) = false := by
          unfold Stops at hs
          cases hx : vis job.node with
          | mk x y => cases x <;> cases y <;> simp_all
        simp only [hns, Bool.false_eq_true, ↓reduceIte]
        exact this

/-- the whole loop -/
def Post (nb : N → List N) (vis : N → Bool × Bool) (old : List N) (start : N) (r : Result N × List N) : Prop :=
  ∃ trace, r.2 = old ++ trace ∧ trace.Nodup ∧ (∀ n ∈ trace, n ∉ old) ∧ (∀ n ∈ trace, ∃ j, Walk nb old start j n) ∧
  (r.1.stopped = true →
    ∃ n k, Stops vis n ∧ BackPath nb start n r.1.path ∧ r.1.path.length = k + 1 ∧ Walk nb old start k n ∧
      (∀ n' j, Walk nb old start j n' → Stops vis n' → k ≤ j) ∧ ∃ t', trace = t' ++ [n] ∧ ∀ m ∈ t', ¬ Stops vis m) ∧
  (r.1.stopped = false →
    (∀ n, n ∈ trace ↔ ∃ j, Walk nb old start j n) ∧ (∀ n ∈ trace, ¬ Stops vis n) ∧
    (r.1.path = [] ∧ (∀ n ∈ trace, ¬ IsFallback vis n) ∨
      ∃ a n b, trace = a ++ n :: b ∧ IsFallback vis n ∧ (∀ m ∈ a, ¬ IsFallback vis m) ∧ BackPath nb start n r.1.path))

theorem loop_post {old : List N} {start : N} (fuel : Nat) (level : List (Job N)) (st : St N) (k : Nat)
    (h : LevelInv nb vis old start k level st) (r : Result N × List N)
    (hr : loop nb vis fuel level st = some r) : Post nb vis old start r := by
  induction fuel generalizing level st k with
  | zero =>
    cases level with
    | cons j js => simp [loop] at hr
    | nil => exact fin h hr
  | succ fuel ih =>
    cases level with
    | nil => exact fin h hr
    | cons j js =>
      have hp := processLevel_inv (j :: js) [] st (mid_start h)
      rw [loop] at hr
      cases hx : processLevel nb vis (j :: js) [] st with
      | mk st' res =>
        rw [hx] at hp hr
        cases res with
        | inr next => exact ih _ _ (k + 1) hp hr
        | inl job =>
          simp only [Option.some.injEq] at hr hp
          obtain ⟨h1, h2, h3, h4, trace, h5, h6, h7, h8, h9⟩ := hp
          subst hr
          refine ⟨trace ++ [job.node], by simp [h5], h6, ?_, ?_, ?_, by simp⟩
          · intro n hn
            rcases List.mem_append.1 hn with hn | hn
            · exact h7 n hn
            · simp at hn; subst hn; exact walk_not_old h3
          · intro n hn
            rcases List.mem_append.1 hn with hn | hn
            · exact h8 n hn
            · simp at hn; subst hn; exact ⟨k, h3⟩
          · intro _
            exact ⟨job.node, k, h1, h2.1, h2.2, h3, h4, trace, rfl, h9⟩
where
  fin {k : Nat} {st : St N} {fuel : Nat} (h : LevelInv nb vis old start k [] st)
      (hr : loop nb vis fuel [] st = some r) : Post nb vis old start r := by
    have hr : some (⟨false, (st.fallback.map Job.path).getD []⟩, st.visited) = some r := by
      cases fuel <;> exact hr
    injection hr with hr; subst hr
    have hlow : ∀ j n, Walk nb old start j n → ∃ i, i < k ∧ Walk nb old start i n := by
      intro j n hw
      induction hw with
      | start ho =>
        rcases Nat.eq_zero_or_pos k with rfl | hk
        · rcases h.complete start (.start ho) with h' | h'
          · rcases (h.seen start).1 h' with h'' | ⟨j, hj, _⟩
            · exact absurd h'' ho
            · omega
          · simp at h'
        · exact ⟨0, hk, .start ho⟩
      | @step j n m _ hm ho ih =>
        obtain ⟨i, hi, hw⟩ := ih
        by_cases hik : i + 1 < k
        · exact ⟨i + 1, hik, .step hw hm ho⟩
        · have : i + 1 = k := by omega
          subst this
          rcases h.complete m (.step hw hm ho) with h' | h'
          · rcases (h.seen m).1 h' with h'' | h''
            · exact absurd h'' ho
            · exact h''
          · simp at h'
    obtain ⟨trace, ht, hnd, hto⟩ := h.nodup
    have hmem : ∀ n, n ∈ trace ↔ ∃ j, Walk nb old start j n := by
      intro n
      constructor
      · intro hn
        rcases (h.seen n).1 (by rw [ht]; simp [hn]) with h' | ⟨j, _, hj⟩
        · exact absurd h' (hto n hn)
        · exact ⟨j, hj⟩
      · rintro ⟨j, hj⟩
        have := (h.seen n).2 (Or.inr (hlow j n hj))
        rw [ht] at this
        rcases List.mem_append.1 this with h' | h'
        · exact absurd h' (walk_not_old hj)
        · exact h'
    refine ⟨trace, ht, hnd, hto, fun n hn => (hmem n).1 hn, by simp, fun _ => ⟨hmem, ?_, ?_⟩⟩
    · intro n hn
      rcases h.nostop n (by rw [ht]; simp [hn]) with h' | h'
      · exact absurd h' (hto n hn)
      · exact h'
    · obtain ⟨trace', ht', hf⟩ := h.fb
      have : trace' = trace := by rw [ht] at ht'; exact (List.append_cancel_left ht').symm
      subst this
      rcases hf with ⟨hn, hf⟩ | ⟨j, k', a, b, hj, hg, he, hfb, hfa⟩
      · left; exact ⟨by simp [hn], hf⟩
      · right; exact ⟨a, j.node, b, he, hfb, hfa, by simpa [hj] using hg.1⟩

theorem init_inv (old : List N) (start : N) : LevelInv nb vis old start 0 [⟨start, []⟩] ⟨old, none⟩ where
  fb := ⟨[], by simp, Or.inl ⟨rfl, by simp⟩⟩
  seen n := by simp
  complete n hw := by cases hw; right; exact ⟨⟨start, []⟩, by simp, rfl⟩
  sound j hj := by
    simp at hj; subst hj
    refine ⟨⟨⟨rfl, rfl, ?_⟩, rfl⟩, fun ho => .start ho⟩
    intro pre a b post he
    have := congrArg List.length he
    simp [Job.path] at this
    omega
  nostop n hn := Or.inl hn
  nodup := ⟨[], by simp, by simp, by simp⟩

theorem bfs_post {fuel : Nat} {start : N} {old : List N} {r : Result N × List N}
    (h : bfs fuel start nb vis old = some r) : Post nb vis old start r :=
  loop_post fuel _ _ 0 (init_inv old start) r h

/-! ## Termination -/

/-- the number of elements of `U` not yet visited -/
def unseen (U V : List N) : Nat := (U.filter (fun n => n ∉ V)).length

theorem unseen_mono {U V W : List N} (h : ∀ n, n ∈ V → n ∈ W) : unseen U W ≤ unseen U V := by
  unfold unseen
  induction U with
  | nil => simp
  | cons u U ih =>
    simp only [List.filter_cons]
    have := h u
    by_cases h1 : u ∈ V
    · simp [h1, h u h1]; simpa using ih
    · by_cases h2 : u ∈ W <;> simp [h1, h2] <;> simp at ih <;> omega

theorem unseen_lt {U V W : List N} (h : ∀ n, n ∈ V → n ∈ W) {x : N} (hx : x ∈ U) (hv : x ∉ V) (hw : x ∈ W) :
    unseen U W < unseen U V := by
  induction U with
  | nil => simp at hx
  | cons u U ih =>
    have hm := unseen_mono (U := U) h
    unfold unseen at *
    simp only [List.filter_cons]
    by_cases hxu : x = u
    · subst hxu
      simp [hv, hw] at *; omega
    · have := ih (by simpa [hxu] using hx)
      by_cases h1 : u ∈ V
      · simp [h1, h u h1]; simpa using this
      · by_cases h2 : u ∈ W <;> simp [h1, h2] <;> simp at this <;> omega

/-- a level that visits nothing new has no next level -/
theorem processLevel_grow (jobs next : List (Job N)) (st : St N) :
    (∀ n, n ∈ st.visited → n ∈ (processLevel nb vis jobs next st).1.visited) ∧
    ((∃ j ∈ jobs, j.node ∉ st.visited ∧ j.node ∈ (processLevel nb vis jobs next st).1.visited) ∨
      (processLevel nb vis jobs next st).2 = .inr next) := by
  induction jobs generalizing next st with
  | nil => exact ⟨fun n h => h, Or.inr rfl⟩
  | cons job jobs ih =>
    rw [processLevel]
    by_cases hv : job.node ∈ st.visited
    · rw [if_pos hv]
      obtain ⟨h1, h2⟩ := ih next st
      refine ⟨h1, ?_⟩
      rcases h2 with ⟨j, hj, h2⟩ | h2
      · exact Or.inl ⟨j, by simp [hj], h2⟩
      · exact Or.inr h2
    · rw [if_neg hv]
      cases hx : vis job.node with
      | mk a b =>
      simp only
      cases hab : (a && b)
      · have := ih (addChildren job next (nb job.node))
          (if (a && (st.fallback).isNone) = true then { visited := st.visited ++ [job.node], fallback := some job }
            else { st with visited := st.visited ++ [job.node] })
        have hvis : (if (a && (st.fallback).isNone) = true then { visited := st.visited ++ [job.node], fallback := some job }
            else { st with visited := st.visited ++ [job.node] } : St N).visited = st.visited ++ [job.node] := by
          split <;> rfl
        rw [hvis] at this
        obtain ⟨h1, h2⟩ := this
        refine ⟨fun n hn => h1 n (by simp [hn]), Or.inl ⟨job, by simp, hv, h1 _ (by simp)⟩⟩
      · simp only [↓reduceIte]
        refine ⟨fun n hn => by simp [hn], Or.inl ⟨job, by simp, hv, by simp⟩⟩

theorem loop_terminates {old : List N} {start : N} (U : List N)
    (hU : ∀ n j, Walk nb old start j n → n ∈ U) (fuel : Nat) (level : List (Job N)) (st : St N) (k : Nat)
    (h : LevelInv nb vis old start k level st) (hf : unseen U st.visited + 1 ≤ fuel) :
    ∃ r, loop nb vis fuel level st = some r := by
  induction fuel generalizing level st k with
  | zero => omega
  | succ fuel ih =>
    cases level with
    | nil => exact ⟨_, rfl⟩
    | cons j js =>
      rw [loop]
      have hp := processLevel_inv (j :: js) [] st (mid_start h)
      have hgrow := processLevel_grow (nb := nb) (vis := vis) (j :: js) [] st
      cases hx : processLevel nb vis (j :: js) [] st with
      | mk st' res =>
        rw [hx] at hp hgrow
        cases res with
        | inl job => exact ⟨_, rfl⟩
        | inr next =>
          simp only at hp hgrow ⊢
          rcases hgrow with ⟨hm, ⟨j', hj', hn, hv⟩ | he⟩
          · have hw := (h.sound j' hj').2 (fun ho => hn ((h.seen _).2 (Or.inl ho)))
            have := unseen_lt hm (hU _ _ hw) hn hv
            exact ih next st' (k + 1) hp (by omega)
          · injection he with he; subst he
            refine ⟨_, by cases fuel <;> rfl⟩

theorem bfs_terminates {start : N} {old : List N} (U : List N) (hU : ∀ n j, Walk nb old start j n → n ∈ U) :
    ∃ r, bfs (U.length + 1) start nb vis old = some r :=
  loop_terminates U hU _ _ _ 0 (init_inv old start) (by
    have : unseen U old ≤ U.length := List.length_filter_le _ _
    simp only; omega)

/-- more fuel does not change the answer -/
theorem loop_fuel (fuel fuel' : Nat) (level : List (Job N)) (st : St N) (r : Result N × List N)
    (h : loop nb vis fuel level st = some r) (hle : fuel ≤ fuel') : loop nb vis fuel' level st = some r := by
  induction fuel generalizing fuel' level st with
  | zero =>
    cases level with
    | nil => cases fuel' <;> exact h
    | cons j js => simp [loop] at h
  | succ fuel ih =>
    obtain ⟨f', rfl⟩ : ∃ f', fuel' = f' + 1 := ⟨fuel' - 1, by omega⟩
    cases level with
    | nil => exact h
    | cons j js =>
      rw [loop] at h ⊢
      cases hx : processLevel nb vis (j :: js) [] st with
      | mk st' res =>
        rw [hx] at h
        cases res with
        | inl job => exact h
        | inr next => exact ih f' next st' h (by omega)

end Tsgolint.Bfs
