import Verif.Spec.Pipeline
import Verif.Proof.Framing
namespace Tsgolint.Pipeline
open Framing
variable {D F : Type}

/-- Diagnostics a worker still has to send. -/
def Worker.pend : Worker D F → List D
  | .linting _ _ rest => rest
  | _ => []

/-- Invariant of a running worker pool for the files `fs`; `old` are files linted by earlier jobs. -/
structure PoolInv (P : Params D F) (fs old : List F) (s : State D F) : Prop where
  diags : (s.seg ++ s.workers.flatMap Worker.pend ++ s.queue.flatMap P.diags).Perm (fs.flatMap P.diags)
  files : (s.log ++ s.queue).Perm (old ++ fs)
  order : ∀ c f p, Worker.linting c f p ∈ s.workers → ∃ e, P.diags f = e ++ p ∧ e.Sublist s.seg
  covered : ∀ f ∈ fs, f ∈ s.queue ∨ (∃ c p, Worker.linting c f p ∈ s.workers) ∨ (P.diags f).Sublist s.seg
  drains : s.queue ≠ [] → s.workloads ≠ [] ∨ ∃ w ∈ s.workers, w.held ≠ []
  doneEmpty : Worker.done ∈ s.workers → s.workloads = []
  size : s.workers.length = P.W
  excl : (s.workers.flatMap Worker.held ++ s.workloads).Nodup

/-- No pool is running. -/
def NoPool (s : State D F) : Prop := s.workers = [] ∧ s.workloads = [] ∧ s.queue = []

/-- The control invariant: `dn` are the completed jobs. -/
def Ctl (P : Params D F) (J dn : List (Job D F)) (s : State D F) : Prop :=
  match s.main with
  | .run => J = dn ++ s.jobs ∧ NoPool s ∧ s.seg = [] ∧ s.log.Perm (dn.flatMap Job.files)
  | .sending ds => ∃ all, J = dn ++ .internal all :: s.jobs ∧ all = s.seg ++ ds ∧ NoPool s ∧
      s.log.Perm (dn.flatMap Job.files)
  | .joining => ∃ fs cs, J = dn ++ .program fs cs :: s.jobs ∧ PoolInv P fs (dn.flatMap Job.files) s
  | .closing none => J = dn ∧ NoPool s ∧ s.seg = [] ∧ s.log.Perm (dn.flatMap Job.files)
  | .closing (some e) => (∃ js, J = dn ++ .fail e :: js) ∧ NoPool s ∧ s.seg = [] ∧ s.log.Perm (dn.flatMap Job.files)
  | .waitWriter => J = dn ∧ NoPool s ∧ s.seg = [] ∧ s.log.Perm (dn.flatMap Job.files)
  | .writeTiming _ _ => J = dn ∧ NoPool s ∧ s.seg = [] ∧ s.log.Perm (dn.flatMap Job.files)
  | .writeError _ => (∃ e js, J = dn ++ .fail e :: js) ∧ NoPool s ∧ s.seg = [] ∧ s.log.Perm (dn.flatMap Job.files)
  | .exit c => (J = dn ∨ (c = 1 ∧ ∃ e js, J = dn ++ .fail e :: js)) ∧ NoPool s ∧ s.seg = [] ∧ s.log.Perm (dn.flatMap Job.files)

theorem pool_start (P : Params D F) (fs old : List F) (cs : List Nat) (s : State D F) (js : List (Job D F))
    (hc : cs ≠ [] ∧ cs.Nodup) (hseg : s.seg = []) (hlog : s.log.Perm old) :
    PoolInv P fs old { s with main := .joining, jobs := js, queue := fs, workloads := cs,
                              workers := List.replicate P.W .idle } := by
  have hp : (List.replicate P.W (Worker.idle : Worker D F)).flatMap Worker.pend = [] := by
    rw [List.flatMap_eq_nil_iff]; intro w hw; rw [List.mem_replicate] at hw; rw [hw.2]; rfl
  have hh : (List.replicate P.W (Worker.idle : Worker D F)).flatMap Worker.held = [] := by
    rw [List.flatMap_eq_nil_iff]; intro w hw; rw [List.mem_replicate] at hw; rw [hw.2]; rfl
  constructor <;> simp only
  · simp [hseg, hp]
  · exact hlog.append_right _
  · intro c f p h; rw [List.mem_replicate] at h; simp at h
  · intro f hf; exact Or.inl hf
  · intro _; exact Or.inl hc.1
  · intro h; rw [List.mem_replicate] at h; simp at h
  · simp
  · simpa [hh] using hc.2

theorem pool_takeWorkload {P : Params D F} {fs old : List F} {s : State D F} {pre post c cs}
    (h : PoolInv P fs old s) (hw : s.workers = pre ++ .idle :: post) (hl : s.workloads = c :: cs) :
    PoolInv P fs old { s with workers := pre ++ .holding c :: post, workloads := cs } := by
  obtain ⟨h1, h2, h3, h4, h5, h6, h7, h8⟩ := h
  rw [hw] at h1 h3 h4 h5 h6 h7 h8
  rw [hl] at h6 h8
  constructor <;> simp only
  · simpa [Worker.pend] using h1
  · exact h2
  · intro c' f p hm; exact h3 c' f p (by simp at hm ⊢; exact hm)
  · intro f hf
    rcases h4 f hf with h | ⟨c', p, h⟩ | h
    · exact Or.inl h
    · exact Or.inr (Or.inl ⟨c', p, by simp at h ⊢; exact h⟩)
    · exact Or.inr (Or.inr h)
  · intro _; exact Or.inr ⟨.holding c, by simp, by simp [Worker.held]⟩
  · intro hd
    exact absurd (h6 (by simp at hd ⊢; exact hd)) (by simp)
  · simpa using h7
  · simp [Worker.held] at h8 ⊢
    refine (List.Perm.nodup_iff ?_).1 h8
    refine List.Perm.append_left _ ?_
    exact (List.perm_middle (l₁ := post.flatMap Worker.held) (l₂ := cs) (a := c))

theorem pool_noWorkload {P : Params D F} {fs old : List F} {s : State D F} {pre post}
    (h : PoolInv P fs old s) (hw : s.workers = pre ++ .idle :: post) (hl : s.workloads = []) :
    PoolInv P fs old { s with workers := pre ++ .done :: post } := by
  obtain ⟨h1, h2, h3, h4, h5, h6, h7, h8⟩ := h
  rw [hw] at h1 h3 h4 h5 h6 h7 h8
  constructor <;> simp only
  · simpa [Worker.pend] using h1
  · exact h2
  · intro c' f p hm; exact h3 c' f p (by simp at hm ⊢; exact hm)
  · intro f hf
    rcases h4 f hf with h | ⟨c', p, h⟩ | h
    · exact Or.inl h
    · exact Or.inr (Or.inl ⟨c', p, by simp at h ⊢; exact h⟩)
    · exact Or.inr (Or.inr h)
  · intro hq
    rcases h5 hq with h | ⟨w, hm, hh⟩
    · exact Or.inl h
    · refine Or.inr ⟨w, ?_, hh⟩
      simp at hm ⊢
      rcases hm with hm | hm | hm
      · exact Or.inl hm
      · subst hm; simp [Worker.held] at hh
      · exact Or.inr (Or.inr hm)
  · intro _; exact hl
  · simpa using h7
  · simpa [Worker.held] using h8

theorem pool_takeFile {P : Params D F} {fs old : List F} {s : State D F} {pre post c f q}
    (h : PoolInv P fs old s) (hw : s.workers = pre ++ .holding c :: post) (hl : s.queue = f :: q) :
    PoolInv P fs old { s with workers := pre ++ .linting c f (P.diags f) :: post, queue := q, log := s.log ++ [f] } := by
  obtain ⟨h1, h2, h3, h4, h5, h6, h7, h8⟩ := h
  rw [hw] at h1 h3 h4 h5 h6 h7 h8
  rw [hl] at h1 h2 h4
  constructor <;> simp only
  · refine List.Perm.trans ?_ h1
    simp [Worker.pend]
    refine List.Perm.append_left _ (List.Perm.append_left _ ?_)
    rw [← List.append_assoc, ← List.append_assoc]
    exact List.perm_append_comm.append_right _
  · simpa using h2
  · intro c' g p hm
    simp at hm
    rcases hm with hm | hm | hm
    · exact h3 c' g p (by simp [hm])
    · obtain ⟨rfl, rfl, rfl⟩ := hm; exact ⟨[], by simp, by simp⟩
    · exact h3 c' g p (by simp [hm])
  · intro g hg
    rcases h4 g hg with h | ⟨c', p, h⟩ | h
    · rcases List.mem_cons.1 h with rfl | h
      · exact Or.inr (Or.inl ⟨c, P.diags g, by simp⟩)
      · exact Or.inl h
    · exact Or.inr (Or.inl ⟨c', p, by simp at h ⊢; grind⟩)
    · exact Or.inr (Or.inr h)
  · intro _; exact Or.inr ⟨.linting c f (P.diags f), by simp, by simp [Worker.held]⟩
  · intro hd; exact h6 (by simp at hd ⊢; exact hd)
  · simpa using h7
  · simpa [Worker.held] using h8

theorem pool_noFile {P : Params D F} {fs old : List F} {s : State D F} {pre post c}
    (h : PoolInv P fs old s) (hw : s.workers = pre ++ .holding c :: post) (hl : s.queue = []) :
    PoolInv P fs old { s with workers := pre ++ .idle :: post } := by
  obtain ⟨h1, h2, h3, h4, h5, h6, h7, h8⟩ := h
  rw [hw] at h1 h3 h4 h5 h6 h7 h8
  constructor <;> simp only
  · simpa [Worker.pend] using h1
  · exact h2
  · intro c' g p hm; exact h3 c' g p (by simp at hm ⊢; exact hm)
  · intro g hg
    rcases h4 g hg with h | ⟨c', p, h⟩ | h
    · exact Or.inl h
    · exact Or.inr (Or.inl ⟨c', p, by simp at h ⊢; exact h⟩)
    · exact Or.inr (Or.inr h)
  · intro hq; exact absurd hl hq
  · intro hd; exact h6 (by simp at hd ⊢; exact hd)
  · simpa using h7
  · simp [Worker.held] at h8 ⊢
    exact h8.sublist (List.Sublist.append (List.Sublist.refl _) (List.sublist_cons_self _ _))

theorem pool_send {P : Params D F} {fs old : List F} {s : State D F} {pre post c f d ds}
    (h : PoolInv P fs old s) (hw : s.workers = pre ++ .linting c f (d :: ds) :: post) :
    PoolInv P fs old { s with workers := pre ++ .linting c f ds :: post, chan := s.chan ++ [d], seg := s.seg ++ [d] } := by
  obtain ⟨h1, h2, h3, h4, h5, h6, h7, h8⟩ := h
  rw [hw] at h1 h3 h4 h5 h6 h7 h8
  have mono : ∀ {e : List D}, e.Sublist s.seg → e.Sublist (s.seg ++ [d]) :=
    fun h => h.trans (List.sublist_append_left _ _)
  constructor <;> simp only
  · refine List.Perm.trans ?_ h1
    simp [Worker.pend]
    exact List.Perm.append_left _ List.perm_middle.symm
  · exact h2
  · intro c' g p hm
    simp at hm
    rcases hm with hm | hm | hm
    · obtain ⟨e, he1, he2⟩ := h3 c' g p (by simp [hm])
      exact ⟨e, he1, mono he2⟩
    · obtain ⟨rfl, rfl, rfl⟩ := hm
      obtain ⟨e, he1, he2⟩ := h3 c' g (d :: p) (by simp)
      exact ⟨e ++ [d], by simp [he1], he2.append (List.Sublist.refl _)⟩
    · obtain ⟨e, he1, he2⟩ := h3 c' g p (by simp [hm])
      exact ⟨e, he1, mono he2⟩
  · intro g hg
    rcases h4 g hg with h | ⟨c', p, h⟩ | h
    · exact Or.inl h
    · simp at h
      rcases h with h | h | h
      · exact Or.inr (Or.inl ⟨c', p, by simp [h]⟩)
      · obtain ⟨rfl, rfl, rfl⟩ := h
        exact Or.inr (Or.inl ⟨c', ds, by simp⟩)
      · exact Or.inr (Or.inl ⟨c', p, by simp [h]⟩)
    · exact Or.inr (Or.inr (mono h))
  · intro _; exact Or.inr ⟨.linting c f ds, by simp, by simp [Worker.held]⟩
  · intro hd; exact h6 (by simp at hd ⊢; exact hd)
  · simpa using h7
  · simpa [Worker.held] using h8

theorem pool_endFile {P : Params D F} {fs old : List F} {s : State D F} {pre post c f}
    (h : PoolInv P fs old s) (hw : s.workers = pre ++ .linting c f [] :: post) :
    PoolInv P fs old { s with workers := pre ++ .holding c :: post } := by
  obtain ⟨h1, h2, h3, h4, h5, h6, h7, h8⟩ := h
  rw [hw] at h1 h3 h4 h5 h6 h7 h8
  constructor <;> simp only
  · simpa [Worker.pend] using h1
  · exact h2
  · intro c' g p hm; exact h3 c' g p (by simp at hm ⊢; grind)
  · intro g hg
    rcases h4 g hg with h | ⟨c', p, h⟩ | h
    · exact Or.inl h
    · simp at h
      rcases h with h | h | h
      · exact Or.inr (Or.inl ⟨c', p, by simp [h]⟩)
      · obtain ⟨rfl, rfl, rfl⟩ := h
        obtain ⟨e, he1, he2⟩ := h3 c' g [] (by simp)
        simp at he1; subst he1
        exact Or.inr (Or.inr he2)
      · exact Or.inr (Or.inl ⟨c', p, by simp [h]⟩)
    · exact Or.inr (Or.inr h)
  · intro _; exact Or.inr ⟨.holding c, by simp, by simp [Worker.held]⟩
  · intro hd; exact h6 (by simp at hd ⊢; exact hd)
  · simpa using h7
  · simpa [Worker.held] using h8

/-- When all workers have returned, everything of the program has been sent. -/
theorem pool_join {P : Params D F} {fs old : List F} {s : State D F} (hW : 0 < P.W)
    (h : PoolInv P fs old s) (hd : ∀ w ∈ s.workers, w = .done) :
    s.queue = [] ∧ s.workloads = [] ∧ s.seg.Perm (fs.flatMap P.diags) ∧ (∀ f ∈ fs, (P.diags f).Sublist s.seg) ∧
      s.log.Perm (old ++ fs) := by
  obtain ⟨h1, h2, h3, h4, h5, h6, h7, h8⟩ := h
  have hmem : Worker.done ∈ s.workers := by
    match hw : s.workers with
    | [] => rw [hw] at h7; simp at h7; omega
    | w :: ws => have := hd w (by simp [hw]); simp [this]
  have hwl := h6 hmem
  have hq : s.queue = [] := by
    apply Classical.byContradiction
    intro hne
    rcases h5 hne with h | ⟨w, hw, hh⟩
    · exact h hwl
    · rw [hd w hw] at hh; simp [Worker.held] at hh
  have hp : s.workers.flatMap Worker.pend = [] := by
    rw [List.flatMap_eq_nil_iff]; intro w hw; rw [hd w hw]; rfl
  refine ⟨hq, hwl, ?_, ?_, ?_⟩
  · simpa [hq, hp] using h1
  · intro f hf
    rcases h4 f hf with h | ⟨c', p, h⟩ | h
    · simp [hq] at h
    · have := hd _ h; simp at this
    · exact h
  · simpa [hq] using h2

/-- The pool invariant does not depend on these fields. -/
theorem PoolInv.congr {P : Params D F} {fs old : List F} {s t : State D F} (h : PoolInv P fs old s)
    (e1 : t.seg = s.seg) (e2 : t.workers = s.workers) (e3 : t.queue = s.queue) (e4 : t.log = s.log)
    (e5 : t.workloads = s.workloads) : PoolInv P fs old t := by
  obtain ⟨h1, h2, h3, h4, h5, h6, h7, h8⟩ := h
  constructor <;> simp only [e1, e2, e3, e4, e5] <;> assumption

end Tsgolint.Pipeline
