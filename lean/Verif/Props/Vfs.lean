import Verif.Spec.Vfs
/-! # C30 (source overrides), C31 (cached reads), C32 (shared source files), C33 (virtual files) -/
namespace Tsgolint.Vfs
variable {σ τ : Type}

/-! ## C30 -/

theorem overlay_shadowed (ov : Str → Option Str) (fs : Fs σ) (c : Call) (s : σ) (h : Shadowed ov c = true) :
    (overlay ov fs c s).2 = s := by
  cases c <;> simp_all [Shadowed, overlay]
  split <;> simp_all

theorem overlay_visible (ov : Str → Option Str) (fs : Fs σ) (c : Call) (s : σ) (h : Shadowed ov c = false) :
    overlay ov fs c s = fs c s := by
  cases c <;> simp_all [Shadowed, overlay]

/-- C30: whatever happened before, an overridden path reads as its override and exists. -/
theorem C30_override_wins (ov : Str → Option Str) (fs : Fs σ) (history : List Call) (s : σ) (path text : Str)
    (h : ov path = some text) :
    (overlay ov fs (.readFile path) (calls (overlay ov fs) history s).2).1 = .text (some text) ∧
    (overlay ov fs (.fileExists path) (calls (overlay ov fs) history s).2).1 = .bool true := by
  simp [overlay, h]

/-- C30: everything else goes to the underlying file system unchanged: for every history, dropping the shadowed calls and performing the
others on the underlying file system gives the same answers to them and leaves it in the same state. -/
theorem C30_rest_delegated (ov : Str → Option Str) (fs : Fs σ) (history : List Call) (s : σ) :
    calls fs (history.filter fun c => !Shadowed ov c) s =
      (visibleAnswers ov history (calls (overlay ov fs) history s).1, (calls (overlay ov fs) history s).2) := by
  induction history generalizing s with
  | nil => rfl
  | cons c cs ih =>
    cases h : Shadowed ov c with
    | true =>
      have hs := overlay_shadowed ov fs c s h
      rw [List.filter_cons_of_neg (by simp [h]), ih]
      simp only [calls, visibleAnswers, h, if_true, hs]
    | false =>
      have hs := overlay_visible ov fs c s h
      rw [List.filter_cons_of_pos (by simp [h])]
      simp only [calls, visibleAnswers, h, hs, ih]
      simp

/-- C30 (no leak): two file systems that differ only in what they say about overridden paths cannot be told apart through the overrides. -/
theorem C30_no_leak (ov : Str → Option Str) (fs : Fs σ) (fs' : Fs τ) (R : σ → τ → Prop)
    (hR : ∀ c s t, Shadowed ov c = false → R s t → (fs c s).1 = (fs' c t).1 ∧ R (fs c s).2 (fs' c t).2)
    (history : List Call) (s : σ) (t : τ) (h : R s t) :
    (calls (overlay ov fs) history s).1 = (calls (overlay ov fs') history t).1 := by
  induction history generalizing s t with
  | nil => rfl
  | cons c cs ih =>
    cases hc : Shadowed ov c with
    | true =>
      have h1 := overlay_shadowed ov fs c s hc
      have h2 := overlay_shadowed ov fs' c t hc
      have h3 : (overlay ov fs c s).1 = (overlay ov fs' c t).1 := by
        cases c <;> simp_all [Shadowed, overlay]
        split <;> simp_all
      simp only [calls, h1, h2, h3, ih s t h]
    | false =>
      rw [show calls (overlay ov fs) (c :: cs) s = _ from rfl]
      simp only [calls, overlay_visible _ _ _ _ hc]
      obtain ⟨h1, h2⟩ := hR c s t hc h
      rw [h1, ih _ _ h2]

/-- C30: without overrides the file system is the underlying one; with overrides the last clause of `headlessFs` looks a path up. -/
theorem C30_headless (ovs : List (Str × Str)) (hd : (ovs.map (·.1)).Nodup) (fs : Fs σ) (path : Str) (s : σ) :
    (∀ text, (path, text) ∈ ovs → headlessFs ovs fs (.readFile path) s = (.text (some text), s)) ∧
    ((∀ text, (path, text) ∉ ovs) → headlessFs ovs fs (.readFile path) s = fs (.readFile path) s) := by
  unfold headlessFs
  constructor
  · intro text hm
    rw [if_pos (List.length_pos_of_mem hm)]
    have : ovs.find? (fun x => decide (x.1 = path)) = some (path, text) := by
      induction ovs with
      | nil => simp at hm
      | cons x xs ih =>
        rw [List.map_cons, List.nodup_cons] at hd
        by_cases hx : x.1 = path
        · rcases List.mem_cons.1 hm with rfl | hm
          · simp
          · exact absurd (hx ▸ List.mem_map_of_mem (f := (·.1)) hm) hd.1
        · rcases List.mem_cons.1 hm with rfl | hm
          · simp at hx
          · rw [List.find?_cons_of_neg (by simpa using hx)]; exact ih hd.2 hm
    simp [overlay, this]
  · intro hn
    split
    · have : ovs.find? (fun x => decide (x.1 = path)) = none := by
        rw [List.find?_eq_none]
        intro x hx
        simp only [decide_eq_true_eq]
        rintro rfl
        exact hn x.2 hx
      simp [overlay, this]
    · rfl

/-- C30 (finding): the keys of the overrides are not normalised.  An override whose key contains a backslash never has an effect on calls
with normalised paths (the only ones made: file paths are normalised, headless.go:281). -/
theorem C30_unnormalised_override_ignored (ov : Str → Option Str) (fs : Fs σ) (bad text : Str) (hbad : '\\' ∈ bad)
    (history : List Call) (hn : ∀ c ∈ history, ∀ p, c.path? = some p → '\\' ∉ p) (s : σ) :
    calls (overlay (fun p => if p = bad then some text else ov p) fs) history s = calls (overlay ov fs) history s := by
  induction history generalizing s with
  | nil => rfl
  | cons c cs ih =>
    have hc := hn c (by simp)
    have h1 : overlay (fun p => if p = bad then some text else ov p) fs c s = overlay ov fs c s := by
      have hne : ∀ p, c.path? = some p → p ≠ bad := by
        rintro p hp rfl; exact hc p hp hbad
      cases c <;> simp_all [Call.path?, overlay]
    simp only [calls, h1, ih fun c hc => hn c (by simp [hc])]

/-- Non-vacuity of C30: an overridden path that is written to, and another path. -/
example : (calls (overlay (fun p => if p = "/a".toList then some "x".toList else none)
      (fun c (s : Nat) => match c with
        | .readFile _ => (.text (some "disk".toList), s)
        | .writeFile _ _ => (.error none, s + 1)
        | _ => (.bool false, s)))
      [.readFile "/a".toList, .writeFile "/a".toList "y".toList, .readFile "/a".toList, .readFile "/b".toList, .fileExists "/a".toList] 0) =
    ([.text (some "x".toList), .error none, .text (some "x".toList), .text (some "disk".toList), .bool true], 1) := by decide

/-! ## C31 -/

theorem mem_replace {α : Type} {l pre post : List α} {a b x : α} (h : l = pre ++ a :: post) (hx : x ∈ pre ++ b :: post) : x = b ∨ x ∈ l := by
  rw [h]; simp at hx ⊢; rcases hx with hx | hx | hx
  · exact .inr (.inl hx)
  · exact .inl hx
  · exact .inr (.inr (.inr hx))

/-- C31: once no read of a path is in progress and its answer is cached, every later read of it (all those that start afterwards, whatever
else happens concurrently, even if the disk changes) returns that answer. -/
theorem C31_repeatable (path : Str) (v : Option Str) (s t : CState) (hc : s.cache path = some v)
    (hq : ∀ r ∈ s.readers, ¬ r.inProgress path) (h : CSteps s t) :
    ∀ i r, s.readers.length ≤ i → t.readers[i]? = some (.returned path r) → r = v := by
  have inv : t.cache path = some v ∧ s.readers.length ≤ t.readers.length ∧
      (∀ x ∈ t.readers, x ≠ .reading path ∧ ∀ r, x ≠ .storing path r) ∧
      ∀ i, s.readers.length ≤ i → ∀ r, t.readers[i]? = some (.returned path r) → r = v := by
    induction h with
    | refl =>
      refine ⟨hc, Nat.le_refl _, ?_, ?_⟩
      · intro x hx
        have := hq x hx
        constructor
        · rintro rfl; exact this rfl
        · rintro r rfl; exact this rfl
      · intro i hi r hr
        rw [List.getElem?_eq_none hi] at hr; cases hr
    | @tail t u _ hstep ih =>
      obtain ⟨i1, i2, i3, i4⟩ := ih
      have upd : ∀ (pre post : List Reader) (a b : Reader), t.readers = pre ++ a :: post →
          s.readers.length ≤ (pre ++ b :: post).length := by
        intro pre post a b h; rw [h] at i2; simpa using i2
      have res : ∀ (pre post : List Reader) (a b : Reader), t.readers = pre ++ a :: post →
          (∀ r, b = .returned path r → r = v) →
          ∀ i, s.readers.length ≤ i → ∀ r, (pre ++ b :: post)[i]? = some (.returned path r) → r = v := by
        intro pre post a b h hb i hi r hr
        by_cases hip : i = pre.length
        · subst hip; simp at hr; exact hb r hr
        · refine i4 i hi r ?_
          rw [h]
          rw [List.getElem?_append] at hr ⊢
          split
          · rename_i hl; simpa [hl] using hr
          · rename_i hl
            simp only [hl, if_false] at hr
            obtain ⟨k, hk⟩ : ∃ k, i - pre.length = k + 1 := ⟨i - pre.length - 1, by omega⟩
            rw [hk] at hr ⊢
            simpa using hr
      cases hstep with
      | change => exact ⟨i1, i2, i3, i4⟩
      | @start p =>
        refine ⟨i1, by simp; omega, ?_, ?_⟩
        · intro x hx
          simp at hx
          rcases hx with hx | rfl
          · exact i3 x hx
          · simp
        · intro i hi r hr
          refine i4 i hi r ?_
          rw [List.getElem?_append] at hr
          split at hr
          · exact hr
          · rename_i hl
            cases hk : i - t.readers.length with
            | zero => rw [hk] at hr; simp at hr
            | succ k => rw [hk] at hr; simp at hr
      | @hit pre post p r hr hcache =>
        refine ⟨i1, upd _ _ _ _ hr, ?_, res _ _ _ _ hr ?_⟩
        · intro x hx
          rcases mem_replace hr hx with rfl | hx
          · simp
          · exact i3 x hx
        · intro r' h; cases h; rw [hcache] at i1; cases i1; rfl
      | @miss pre post p hr hcache =>
        refine ⟨i1, upd _ _ _ _ hr, ?_, res _ _ _ _ hr (by simp)⟩
        intro x hx
        rcases mem_replace hr hx with rfl | hx
        · constructor
          · intro h; cases h; rw [hcache] at i1; cases i1
          · simp
        · exact i3 x hx
      | @read pre post p hr =>
        refine ⟨i1, upd _ _ _ _ hr, ?_, res _ _ _ _ hr (by simp)⟩
        intro x hx
        rcases mem_replace hr hx with rfl | hx
        · constructor
          · simp
          · intro r h; cases h
            exact (i3 (.reading path) (by rw [hr]; simp)).1 rfl
        · exact i3 x hx
      | @store pre post p r hr =>
        have hp : p ≠ path := by
          rintro rfl; exact (i3 (.storing p r) (by rw [hr]; simp)).2 r rfl
        refine ⟨by simp [Ne.symm hp, i1], upd _ _ _ _ hr, ?_, res _ _ _ _ hr ?_⟩
        · intro x hx
          rcases mem_replace hr hx with rfl | hx
          · simp
          · exact i3 x hx
        · intro r' h; cases h; exact absurd rfl hp
  intro i r hi hr
  exact inv.2.2.2 i hi r hr

/-- Index of a reader of the path in progress: used to say there is at most one. -/
def activeCount (path : Str) (l : List Reader) : Nat :=
  (l.filter fun | .loading p | .reading p | .storing p _ => decide (p = path) | .returned _ _ => false).length

theorem activeCount_append (path : Str) (a b : List Reader) : activeCount path (a ++ b) = activeCount path a + activeCount path b := by
  simp [activeCount]

theorem activeCount_zero (path : Str) (l : List Reader) (h : ∀ r ∈ l, ¬ r.inProgress path) : activeCount path l = 0 := by
  unfold activeCount
  rw [List.length_eq_zero_iff, List.filter_eq_nil_iff]
  intro r hr
  have := h r hr
  cases r <;> simp_all [Reader.inProgress]

theorem activeCount_one (path : Str) (r : Reader) :
    activeCount path [r] = match r with | .loading p | .reading p | .storing p _ => if p = path then 1 else 0 | .returned _ _ => 0 := by
  cases r <;> simp only [activeCount, List.filter_cons, List.filter_nil] <;> (try split) <;> simp_all

theorem not_active_of_count {path : Str} {pre post : List Reader} {a : Reader} (h : activeCount path (pre ++ a :: post) ≤ 1)
    (ha : a.inProgress path) : ∀ x ∈ pre ++ post, ¬ x.inProgress path := by
  intro x hx hxp
  have e : pre ++ a :: post = pre ++ ([a] ++ post) := by simp
  rw [e, activeCount_append, activeCount_append] at h
  have h1 : activeCount path [a] = 1 := by cases a <;> simp_all [Reader.inProgress, activeCount]
  have h2 : 1 ≤ activeCount path (pre ++ post) := by
    unfold activeCount
    apply List.length_pos_of_mem (a := x)
    rw [List.mem_filter]
    refine ⟨hx, ?_⟩
    cases x <;> simp_all [Reader.inProgress]
  rw [activeCount_append] at h2
  omega

/-- C31 (sequential): if a read of a path never starts while another read of it is in progress, all reads of the path ever made return the
same answer, although the disk may change at any time. -/
theorem C31_sequential (disk : Str → Option Str) (s : CState) (h : SeqSteps (cInit disk) s) (path : Str) (a b : Option Str)
    (ha : .returned path a ∈ s.readers) (hb : .returned path b ∈ s.readers) : a = b := by
  have inv : ∀ path, activeCount path s.readers ≤ 1 ∧ (∀ r, .returned path r ∈ s.readers → s.cache path = some r) ∧
      ((∃ x ∈ s.readers, x = .reading path ∨ ∃ r, x = .storing path r) → s.cache path = none) := by
    clear ha hb a b path
    induction h with
    | refl => intro path; simp [cInit, activeCount]
    | @tail t u _ hstep hseq ih =>
      intro path
      obtain ⟨i1, i2, i3⟩ := ih path
      have cnt : ∀ (pre post : List Reader) (x y : Reader), t.readers = pre ++ x :: post →
          activeCount path [y] ≤ activeCount path [x] → activeCount path (pre ++ y :: post) ≤ 1 := by
        intro pre post x y h hxy
        rw [h] at i1
        have e : ∀ z : Reader, pre ++ z :: post = pre ++ ([z] ++ post) := by simp
        rw [e, activeCount_append, activeCount_append] at i1 ⊢
        omega
      cases hstep with
      | change => exact ⟨i1, i2, i3⟩
      | @start p =>
        refine ⟨?_, ?_, ?_⟩
        · by_cases hp : p = path
          · subst hp
            have := activeCount_zero p t.readers (hseq p rfl)
            rw [activeCount_append, this, activeCount_one]; simp
          · rw [activeCount_append, activeCount_one]; simp [hp, i1]
        · intro r hr; simp at hr; exact i2 r hr
        · rintro ⟨x, hx, hx'⟩
          simp at hx
          rcases hx with hx | rfl
          · exact i3 ⟨x, hx, hx'⟩
          · simp at hx'
      | @hit pre post p r hr hcache =>
        refine ⟨cnt _ _ _ _ hr (by simp [activeCount_one]), ?_, ?_⟩
        · intro r' hr'
          rcases mem_replace hr hr' with h | h
          · cases h; exact hcache
          · exact i2 r' h
        · rintro ⟨x, hx, hx'⟩
          rcases mem_replace hr hx with rfl | hx
          · simp at hx'
          · exact i3 ⟨x, hx, hx'⟩
      | @miss pre post p hr hcache =>
        refine ⟨cnt _ _ _ _ hr (by simp [activeCount_one]), ?_, ?_⟩
        · intro r' hr'
          rcases mem_replace hr hr' with h | h
          · cases h
          · exact i2 r' h
        · rintro ⟨x, hx, hx'⟩
          rcases mem_replace hr hx with rfl | hx
          · simp at hx'; subst hx'; exact hcache
          · exact i3 ⟨x, hx, hx'⟩
      | @read pre post p hr =>
        refine ⟨cnt _ _ _ _ hr (by simp [activeCount_one]), ?_, ?_⟩
        · intro r' hr'
          rcases mem_replace hr hr' with h | h
          · cases h
          · exact i2 r' h
        · rintro ⟨x, hx, hx'⟩
          rcases mem_replace hr hx with rfl | hx
          · simp at hx'; subst hx'; exact i3 ⟨_, by rw [hr]; simp, .inl rfl⟩
          · exact i3 ⟨x, hx, hx'⟩
      | @store pre post p r hr =>
        refine ⟨cnt _ _ _ _ hr (by simp [activeCount_one]), ?_, ?_⟩
        · intro r' hr'
          by_cases hp : path = p
          · subst hp
            simp only [if_true]
            have hnone := i3 ⟨_, by rw [hr]; simp, .inr ⟨r, rfl⟩⟩
            rcases mem_replace hr hr' with h | h
            · cases h; rfl
            · have := i2 r' h; rw [hnone] at this; cases this
          · simp only [hp, if_false]
            rcases mem_replace hr hr' with h | h
            · cases h; exact absurd rfl hp
            · exact i2 r' h
        · rintro ⟨x, hx, hx'⟩
          by_cases hp : path = p
          · subst hp
            exfalso
            rw [hr] at i1
            have hno := not_active_of_count i1 rfl
            have hx2 : x ∈ pre ++ post := by
              simp at hx ⊢
              rcases hx with hx | hx | hx
              · exact .inl hx
              · subst hx; simp at hx'
              · exact .inr hx
            apply hno x hx2
            rcases hx' with rfl | ⟨r', rfl⟩ <;> rfl
          · simp only [hp, if_false]
            rcases mem_replace hr hx with rfl | hx
            · simp at hx'
            · exact i3 ⟨x, hx, hx'⟩
  obtain ⟨_, h2, _⟩ := inv path
  have h1 := h2 a ha
  rw [h2 b hb] at h1
  cases h1; rfl

/-- C31 (concurrent, unchanging file): as long as the file at the path does not change on disk, every read of it, however concurrent,
returns what is on disk. -/
theorem C31_stable_disk (disk : Str → Option Str) (path : Str) (s : CState) (h : StableSteps path (cInit disk) s) (a : Option Str)
    (ha : .returned path a ∈ s.readers) : a = disk path := by
  have inv : s.disk path = disk path ∧ (∀ r, s.cache path = some r → r = disk path) ∧
      ∀ x ∈ s.readers, ∀ r, x = .storing path r ∨ x = .returned path r → r = disk path := by
    clear ha a
    induction h with
    | refl => simp [cInit]
    | @tail t u _ hstep hst ih =>
      obtain ⟨i1, i2, i3⟩ := ih
      refine ⟨hst.trans i1, ?_⟩
      have key : ∀ (pre post : List Reader) (x y : Reader), t.readers = pre ++ x :: post →
          (∀ r, y = .storing path r ∨ y = .returned path r → r = disk path) →
          ∀ z ∈ pre ++ y :: post, ∀ r, z = .storing path r ∨ z = .returned path r → r = disk path := by
        intro pre post x y h hy z hz r hr
        rcases mem_replace h hz with rfl | hz
        · exact hy r hr
        · exact i3 z hz r hr
      cases hstep with
      | change => exact ⟨i2, i3⟩
      | start =>
        refine ⟨i2, ?_⟩
        intro x hx r hr
        simp at hx
        rcases hx with hx | rfl
        · exact i3 x hx r hr
        · simp at hr
      | hit hr hc =>
        refine ⟨i2, key _ _ _ _ hr ?_⟩
        intro r h; simp at h; obtain ⟨rfl, rfl⟩ := h; exact i2 _ hc
      | miss hr hc => exact ⟨i2, key _ _ _ _ hr (by simp)⟩
      | read hr =>
        refine ⟨i2, key _ _ _ _ hr ?_⟩
        intro r h; simp at h; obtain ⟨rfl, rfl⟩ := h; exact i1
      | @store pre post p r hr =>
        have hs : ∀ r', p = path → r = r' → r' = disk path := by
          rintro r' rfl rfl; exact i3 _ (by rw [hr]; simp) _ (.inl rfl)
        refine ⟨?_, key _ _ _ _ hr ?_⟩
        · intro r' h
          simp only at h
          split at h
          · rename_i hp; cases h; exact hs _ hp.symm rfl
          · exact i2 _ h
        · intro r' h; simp at h; obtain ⟨rfl, rfl⟩ := h; exact hs _ rfl rfl
  exact inv.2.2 _ ha a (.inr rfl)

/-- C31 (limit): concurrent first reads while the file changes can return different answers. -/
theorem C31_race : ∃ s, CSteps (cInit fun _ => some "old".toList) s ∧
    s.readers = [.returned [] (some "old".toList), .returned [] (some "new".toList)] := by
  have r := CSteps.refl (s := cInit fun _ => some "old".toList)
  have r := r.tail (CStep.start (path := []))
  have r := r.tail (CStep.start (path := []))
  have r := r.tail (CStep.miss (pre := []) (post := [.loading []]) rfl rfl)
  have r := r.tail (CStep.miss (pre := [.reading []]) (post := []) rfl rfl)
  have r := r.tail (CStep.read (pre := []) (post := [.reading []]) rfl)
  have r := r.tail (CStep.change (d := fun _ => some "new".toList))
  have r := r.tail (CStep.read (pre := [.storing [] (some "old".toList)]) (post := []) rfl)
  have r := r.tail (CStep.store (pre := []) rfl)
  have r := r.tail (CStep.store (pre := [.returned [] (some "old".toList)]) (post := []) rfl)
  exact ⟨_, r, rfl⟩

/-- Non-vacuity of C31: a sequential history in which the file changes between two reads, both answered "old". -/
example : ∃ s, SeqSteps (cInit fun _ => some "old".toList) s ∧ s.disk [] = some "new".toList ∧
    s.readers = [.returned [] (some "old".toList), .returned [] (some "old".toList)] := by
  have r := SeqSteps.refl (s := cInit fun _ => some "old".toList)
  have r := r.tail (CStep.start (path := [])) (by simp [cInit])
  have r := r.tail (CStep.miss (pre := []) (post := []) rfl rfl) (by simp [cInit])
  have r := r.tail (CStep.read (pre := []) (post := []) rfl) (by simp)
  have r := r.tail (CStep.store (pre := []) (post := []) rfl) (by simp)
  have r := r.tail (CStep.change (d := fun _ => some "new".toList)) (by simp)
  have r := r.tail (CStep.start (path := [])) (by simp [Reader.inProgress])
  have r := r.tail (CStep.hit (pre := [.returned [] (some "old".toList)]) (post := []) rfl rfl) (by simp)
  exact ⟨_, r, rfl, rfl⟩

/-! ## C32 -/

variable {K : Type} [DecidableEq K]

theorem g_inv {s : GState K} (h : GReachable s) :
    (∀ k p, s.cache k = some p → s.heap[p]? = some k) ∧
    (∀ g ∈ s.getters, ∀ k p, (g = .storing k p → s.heap[p]? = some k) ∧ (g = .returned k p → s.cache k = some p)) := by
  induction h with
  | init => simp
  | @step s t _ hstep ih =>
    obtain ⟨i1, i2⟩ := ih
    have key : ∀ (pre post : List (Getter K)) (x y : Getter K), s.getters = pre ++ x :: post →
        (∀ (k : K) (p : Nat), (y = .storing k p → t.heap[p]? = some k) ∧ (y = .returned k p → t.cache k = some p)) →
        (∀ (k : K) (p : Nat), s.heap[p]? = some k → t.heap[p]? = some k) → (∀ k p, s.cache k = some p → t.cache k = some p) →
        ∀ g ∈ pre ++ y :: post, ∀ k p, (g = .storing k p → t.heap[p]? = some k) ∧ (g = .returned k p → t.cache k = some p) := by
      intro pre post x y h hy hh hc g hg k p
      rcases mem_replace h hg with rfl | hg
      · exact hy k p
      · exact ⟨fun e => hh _ _ ((i2 g hg k p).1 e), fun e => hc _ _ ((i2 g hg k p).2 e)⟩
    cases hstep with
    | start =>
      refine ⟨i1, ?_⟩
      intro g hg k p
      simp at hg
      rcases hg with hg | rfl
      · exact i2 g hg k p
      · simp
    | hit hr hc =>
      refine ⟨i1, key _ _ _ _ hr ?_ (fun _ _ h => h) (fun _ _ h => h)⟩
      intro k p; simp; rintro rfl rfl; exact hc
    | miss hr hc => exact ⟨i1, key _ _ _ _ hr (by simp) (fun _ _ h => h) (fun _ _ h => h)⟩
    | @parse pre post key' hr =>
      have hh : ∀ (k : K) (p : Nat), s.heap[p]? = some k → (s.heap ++ [key'])[p]? = some k := by
        intro k p h
        rw [List.getElem?_append_left]
        · exact h
        · exact (List.getElem?_eq_some_iff.1 h).1
      refine ⟨fun k p h => hh k p (i1 k p h), key _ _ _ _ hr ?_ hh (fun _ _ h => h)⟩
      intro k p; simp; rintro rfl rfl; simp
    | loaded hr hc =>
      refine ⟨i1, key _ _ _ _ hr ?_ (fun _ _ h => h) (fun _ _ h => h)⟩
      intro k p; simp; rintro rfl rfl; exact hc
    | @stored pre post key' ptr hr hc =>
      have hp : s.heap[ptr]? = some key' := (i2 _ (by rw [hr]; simp) key' ptr).1 rfl
      refine ⟨?_, key _ _ _ _ hr ?_ (fun _ _ h => h) ?_⟩
      · intro k p h
        simp only at h
        split at h
        · rename_i hk; cases h; rw [hk]; exact hp
        · exact i1 k p h
      · intro k p; simp; rintro rfl rfl; simp
      · intro k p h
        simp only
        split
        · rename_i hk; rw [hk, hc] at h; cases h
        · exact h

/-- C32: in every interleaving all callers asking for the same file with the same options and text get the same object. -/
theorem C32_same_object (s : GState K) (h : GReachable s) (key : K) (p q : Nat) (hp : .returned key p ∈ s.getters)
    (hq : .returned key q ∈ s.getters) : p = q := by
  have h1 := ((g_inv h).2 _ hp key p).2 rfl
  have h2 := ((g_inv h).2 _ hq key q).2 rfl
  rw [h1] at h2; cases h2; rfl

/-- C32: the object is the result of parsing what was asked for; in particular different keys never share an object. -/
theorem C32_right_object (s : GState K) (h : GReachable s) (key : K) (p : Nat) (hp : .returned key p ∈ s.getters) :
    s.heap[p]? = some key ∧ ∀ key' q, .returned key' q ∈ s.getters → key' ≠ key → q ≠ p := by
  have h1 := (g_inv h).1 _ _ (((g_inv h).2 _ hp key p).2 rfl)
  refine ⟨h1, ?_⟩
  rintro key' q hq hne rfl
  have h2 := (g_inv h).1 _ _ (((g_inv h).2 _ hq key' q).2 rfl)
  rw [h1] at h2; cases h2; exact hne rfl

/-- Non-vacuity of C32: two goroutines both miss and both parse; still they get one object. -/
example : ∃ s : GState Nat, GReachable s ∧ s.getters = [.returned 5 0, .returned 5 0] ∧ s.heap = [5, 5] := by
  have r := GReachable.init (K := Nat)
  have r := r.step (GStep.start (key := 5))
  have r := r.step (GStep.start (key := 5))
  have r := r.step (GStep.miss (pre := []) (post := [.loading 5]) rfl rfl)
  have r := r.step (GStep.miss (pre := [.parsing 5]) (post := []) rfl rfl)
  have r := r.step (GStep.parse (pre := []) (post := [.parsing 5]) rfl)
  have r := r.step (GStep.parse (pre := [.storing 5 0]) (post := []) rfl)
  have r := r.step (GStep.stored (pre := []) (post := [.storing 5 1]) rfl rfl)
  have r := r.step (GStep.loaded (pre := [.returned 5 0]) (post := []) rfl rfl)
  exact ⟨_, r, rfl, rfl⟩

/-! ## C33 -/

theorem hasPrefix_iff (s p : Str) : hasPrefix s p = true ↔ ∃ r, s = p ++ r := by
  induction p generalizing s with
  | nil => simp [hasPrefix]
  | cons b p ih =>
    cases s with
    | nil => simp [hasPrefix]
    | cons a s => simp [hasPrefix, ih]

theorem cutPrefix_eq_some (s p r : Str) : cutPrefix s p = some r ↔ s = p ++ r := by
  unfold cutPrefix
  split
  · rename_i h
    obtain ⟨q, rfl⟩ := (hasPrefix_iff _ _).1 h
    simp
  · rename_i h
    simp only [reduceCtorEq, false_iff]
    rintro rfl
    exact h ((hasPrefix_iff _ _).2 ⟨r, rfl⟩)

theorem cut_spec (s : Str) : '/' ∉ (cut s).1 ∧
    ((cut s).2 = true → ∃ rest, s = (cut s).1 ++ '/' :: rest) ∧ ((cut s).2 = false → s = (cut s).1) := by
  induction s with
  | nil => simp [cut]
  | cons c cs ih =>
    unfold cut
    split
    · rename_i h; subst h; simp
    · rename_i h
      refine ⟨?_, ?_, ?_⟩
      · simp only [List.mem_cons, not_or]; exact ⟨fun e => h e.symm, ih.1⟩
      · intro h'; obtain ⟨rest, hr⟩ := ih.2.1 h'; exact ⟨rest, by simp; exact hr⟩
      · intro h'; have := ih.2.2 h'; simp; exact this

theorem cut_noSlash (s : Str) (h : '/' ∉ s) : cut s = (s, false) := by
  induction s with
  | nil => rfl
  | cons c cs ih =>
    simp only [List.mem_cons, not_or] at h
    unfold cut
    rw [if_neg (fun e => h.1 e.symm), ih h.2]

theorem cut_slash (n rest : Str) (h : '/' ∉ n) : cut (n ++ '/' :: rest) = (n, true) := by
  induction n with
  | nil => simp [cut]
  | cons c cs ih =>
    simp only [List.mem_cons, not_or] at h
    rw [List.cons_append, cut, if_neg (fun e => h.1 e.symm), ih h.2]

theorem mem_addEntries (pre : Str) (vs : List (Str × Str)) (r : Entries) (n : Str) :
    (n ∈ (addEntries pre vs r).files ↔ n ∈ r.files ∨ ('/' ∉ n ∧ ∃ v ∈ vs, v.1 = pre ++ n)) ∧
    (n ∈ (addEntries pre vs r).directories ↔ n ∈ r.directories ∨ ('/' ∉ n ∧ ∃ v ∈ vs, ∃ rest, v.1 = pre ++ n ++ '/' :: rest)) := by
  induction vs generalizing r with
  | nil => simp [addEntries]
  | cons v vs ih =>
    obtain ⟨v, t⟩ := v
    unfold addEntries
    cases hc : cutPrefix v pre with
    | none =>
      have hno : ∀ r, v ≠ pre ++ r := by
        intro r h; rw [(cutPrefix_eq_some v pre r).2 h] at hc; cases hc
      have hno' : ∀ rest, v ≠ pre ++ n ++ '/' :: rest := by intro rest; rw [List.append_assoc]; exact hno _
      simp only [ih, List.mem_cons, exists_eq_or_imp, hno n, false_or, hno', exists_false, true_and]
    | some rest =>
      have hv := (cutPrefix_eq_some v pre rest).1 hc
      subst hv
      have hcut := cut_spec rest
      simp only
      cases hok : (cut rest).2 with
      | true =>
        obtain ⟨r', hr'⟩ := hcut.2.1 hok
        have hs : '/' ∈ rest := by rw [hr']; simp
        simp only [if_true, ih, List.mem_append, List.mem_cons, List.not_mem_nil, or_false, exists_eq_or_imp, List.append_assoc,
          List.append_cancel_left_eq]
        constructor
        · constructor
          · rintro (h | ⟨h1, h2⟩)
            · exact .inl h
            · exact .inr ⟨h1, .inr h2⟩
          · rintro (h | ⟨h1, rfl | h2⟩)
            · exact .inl h
            · exact absurd hs h1
            · exact .inr ⟨h1, h2⟩
        · constructor
          · rintro ((h | rfl) | ⟨h1, h2⟩)
            · exact .inl h
            · exact .inr ⟨hcut.1, .inl ⟨r', hr'⟩⟩
            · exact .inr ⟨h1, .inr h2⟩
          · rintro (h | ⟨h1, ⟨x, hx⟩ | h2⟩)
            · exact .inl (.inl h)
            · rw [hx, cut_slash n x h1]; exact .inl (.inr rfl)
            · exact .inr ⟨h1, h2⟩
      | false =>
        have hr' := hcut.2.2 hok
        have hs : '/' ∉ rest := by rw [hr']; exact hcut.1
        simp only [Bool.false_eq_true, if_false, ih, List.mem_append, List.mem_cons, List.not_mem_nil, or_false, exists_eq_or_imp, List.append_assoc,
          List.append_cancel_left_eq]
        constructor
        · constructor
          · rintro ((h | rfl) | ⟨h1, h2⟩)
            · exact .inl h
            · exact .inr ⟨hs, .inl rfl⟩
            · exact .inr ⟨h1, .inr h2⟩
          · rintro (h | ⟨h1, rfl | h2⟩)
            · exact .inl (.inl h)
            · exact .inl (.inr rfl)
            · exact .inr ⟨h1, h2⟩
        · constructor
          · rintro (h | ⟨h1, h2⟩)
            · exact .inl h
            · exact .inr ⟨h1, .inr h2⟩
          · rintro (h | ⟨h1, ⟨x, rfl⟩ | h2⟩)
            · exact .inl h
            · simp at hs
            · exact .inr ⟨h1, h2⟩

theorem dirPrefix_plain (normalize : Str → Str) (path : Str) (hn : normalize path = path) (hs : path.getLast? ≠ some '/') :
    dirPrefix normalize path = path ++ ['/'] := by
  simp [dirPrefix, hn, endsWithSlash, hs]

/-- C33: for a normalised path without trailing slash, the directory exists iff a virtual file lies below it or the base has it. -/
theorem C33_directory_exists (normalize : Str → Str) (files : List (Str × Str)) (fs : Fs σ) (s : σ) (path : Str)
    (hn : normalize path = path) (hs : path.getLast? ≠ some '/') :
    ((∃ v ∈ files, Below v.1 path) → overlayVfs normalize files fs (.directoryExists path) s = (.bool true, s)) ∧
    ((¬ ∃ v ∈ files, Below v.1 path) → overlayVfs normalize files fs (.directoryExists path) s = fs (.directoryExists path) s) := by
  have hb : files.any (fun v => hasPrefix v.1 (dirPrefix normalize path)) = true ↔ ∃ v ∈ files, Below v.1 path := by
    rw [List.any_eq_true, dirPrefix_plain normalize path hn hs]
    simp only [hasPrefix_iff, Below, List.append_assoc, List.singleton_append]
  constructor
  · intro h; simp only [overlayVfs]; rw [if_pos (hb.2 h)]
  · intro h; simp only [overlayVfs]; rw [if_neg (fun h' => h (hb.1 h'))]

/-- C33: the entries of a directory are the base's plus exactly the virtual children: files directly in it, and directories leading to a
virtual file. -/
theorem C33_entries (normalize : Str → Str) (files : List (Str × Str)) (fs : Fs σ) (s : σ) (path : Str) (base : Entries)
    (hn : normalize path = path) (hs : path.getLast? ≠ some '/') (hb : (fs (.getAccessibleEntries path) s).1 = .entries base) :
    ∃ r, (overlayVfs normalize files fs (.getAccessibleEntries path) s).1 = .entries r ∧
      (overlayVfs normalize files fs (.getAccessibleEntries path) s).2 = (fs (.getAccessibleEntries path) s).2 ∧
      (∀ n, n ∈ r.files ↔ n ∈ base.files ∨ ('/' ∉ n ∧ ∃ v ∈ files, v.1 = path ++ '/' :: n)) ∧
      (∀ n, n ∈ r.directories ↔ n ∈ base.directories ∨ ('/' ∉ n ∧ ∃ v ∈ files, Below v.1 (path ++ '/' :: n))) := by
  have h : overlayVfs normalize files fs (.getAccessibleEntries path) s =
      (.entries (addEntries (dirPrefix normalize path) files base), (fs (.getAccessibleEntries path) s).2) := by
    simp only [overlayVfs]; rw [hb]
  rw [h, dirPrefix_plain normalize path hn hs]
  refine ⟨_, rfl, rfl, ?_, ?_⟩
  · intro n; rw [(mem_addEntries _ _ _ _).1]; simp
  · intro n; rw [(mem_addEntries _ _ _ _).2]; simp [Below]

/-- C33 (coherence): on an empty base, listing and probing agree: a name without slash is listed as a file iff the file exists, and as a
directory iff the directory exists. -/
theorem C33_coherent (normalize : Str → Str) (files : List (Str × Str)) (path n : Str)
    (hn : normalize path = path) (hs : path.getLast? ≠ some '/') (hn' : normalize (path ++ '/' :: n) = path ++ '/' :: n)
    (hn0 : n ≠ []) (hsl : '/' ∉ n) :
    let empty : Fs Unit := fun c s => match c with
      | .getAccessibleEntries _ => (.entries ⟨[], []⟩, s)
      | _ => (.bool false, s)
    ∃ r, (overlayVfs normalize files empty (.getAccessibleEntries path) ()).1 = .entries r ∧
      (n ∈ r.files ↔ (overlayVfs normalize files empty (.fileExists (path ++ '/' :: n)) ()).1 = .bool true) ∧
      (n ∈ r.directories ↔ (overlayVfs normalize files empty (.directoryExists (path ++ '/' :: n)) ()).1 = .bool true) := by
  intro empty
  obtain ⟨r, h1, _, h2, h3⟩ := C33_entries normalize files empty () path ⟨[], []⟩ hn hs rfl
  refine ⟨r, h1, ?_, ?_⟩
  · rw [h2]
    simp only [List.not_mem_nil, false_or, hsl, not_false_eq_true, true_and, overlayVfs]
    split
    · rename_i hsome
      rw [Option.isSome_map, List.find?_isSome] at hsome
      simpa using hsome
    · rename_i hnone
      rw [Option.isSome_map, List.find?_isSome] at hnone
      simp only [decide_eq_true_eq] at hnone
      simp [empty]
      simpa using hnone
  · have hlast : (path ++ '/' :: n).getLast? ≠ some '/' := by
      rw [List.getLast?_append]
      cases n with
      | nil => exact absurd rfl hn0
      | cons a l =>
        have hl : ('/' :: a :: l).getLast? = some ((a :: l).getLast (by simp)) := by
          rw [List.getLast?_cons_cons, List.getLast?_eq_some_getLast (List.cons_ne_nil a l)]
        rw [hl]
        simp only [Option.some_or, ne_eq, Option.some.injEq]
        intro h; exact hsl (h ▸ List.getLast_mem _)
    obtain ⟨d1, d2⟩ := C33_directory_exists normalize files empty () (path ++ '/' :: n) hn' hlast
    rw [h3]
    simp only [List.not_mem_nil, false_or, hsl, not_false_eq_true, true_and]
    constructor
    · intro h; rw [d1 h]
    · intro h
      refine Classical.byContradiction fun hno => ?_
      rw [d2 hno] at h
      simp [empty] at h

/-- C33: virtual files can be read and probed but not modified: a modification attempt panics and changes nothing. -/
theorem C33_virtual_files_read_only (normalize : Str → Str) (files : List (Str × Str)) (fs : Fs σ) (s : σ) (path : Str)
    (h : ∃ v ∈ files, v.1 = path) (data : Str) (a m : Int) :
    (∃ text, (path, text) ∈ files ∧ overlayVfs normalize files fs (.readFile path) s = (.text (some text), s) ∧
      overlayVfs normalize files fs (.stat path) s = (.info (some (.virtual path text.length)), s)) ∧
    overlayVfs normalize files fs (.fileExists path) s = (.bool true, s) ∧
    overlayVfs normalize files fs (.realpath path) s = (.path path, s) ∧
    overlayVfs normalize files fs (.writeFile path data) s = (.panic, s) ∧
    overlayVfs normalize files fs (.appendFile path data) s = (.panic, s) ∧
    overlayVfs normalize files fs (.remove path) s = (.panic, s) ∧
    overlayVfs normalize files fs (.chtimes path a m) s = (.panic, s) := by
  obtain ⟨v, hv, rfl⟩ := h
  cases hf : files.find? (fun x => decide (x.1 = v.1)) with
  | none => rw [List.find?_eq_none] at hf; have := hf v hv; simp at this
  | some w =>
    have hw : w.1 = v.1 := by simpa using List.find?_some hf
    refine ⟨⟨w.2, ?_, ?_, ?_⟩, ?_, ?_, ?_, ?_, ?_, ?_⟩
    · rw [← hw]; exact List.mem_of_find?_eq_some hf
    all_goals simp [overlayVfs, hf]

/-- Non-vacuity of C33. -/
example : (overlayVfs id [("/p/a.ts".toList, "x".toList), ("/p/sub/b.ts".toList, "y".toList), ("/q.ts".toList, [])]
      (fun c (s : Unit) => match c with | .getAccessibleEntries _ => (.entries ⟨["z.ts".toList], []⟩, s) | _ => (.bool false, s))
      (.getAccessibleEntries "/p".toList) ()).1 = .entries ⟨["z.ts".toList, "a.ts".toList], ["sub".toList]⟩ ∧
    "/p".toList.getLast? ≠ some '/' := by decide

end Tsgolint.Vfs
