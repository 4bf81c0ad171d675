import Verif.Spec.Worker
namespace Tsgolint.Worker
open Tsgolint.Report
variable {File Node Range : Type}

theorem modAt_append {α : Type} (f : α → α) (p : List α) (a : α) (l : List α) :
    modAt p.length f (p ++ a :: l) = p ++ f a :: l := by
  induction p with
  | nil => rfl
  | cons x p ih => simp [modAt, ih]

/-- the listeners of rules `rs` for kind `k`, closures at addresses `base`, `base+1`, … -/
def tags (file : File) (k : Kind) : Nat → List (Rule File Node Range) → List Tagged
  | _, [] => []
  | base, r :: rs => (if k ∈ r.listens file then [⟨r.name, base⟩] else []) ++ tags file k (base + 1) rs

theorem tags_append (file : File) (k : Kind) (base : Nat) (rs : List (Rule File Node Range)) (r : Rule File Node Range) :
    tags file k base (rs ++ [r]) = tags file k base rs ++ if k ∈ r.listens file then [⟨r.name, base + rs.length⟩] else [] := by
  induction rs generalizing base with
  | nil => simp [tags]
  | cons x rs ih =>
    simp only [List.cons_append, tags, ih, List.append_assoc, List.length_cons]
    have : base + 1 + rs.length = base + (rs.length + 1) := by omega
    rw [this]

theorem foldl_register (name : String) (id : Nat) (ks : List Kind) (hnd : ks.Nodup) (s : State File Node Range) :
    ks.foldl (register name id) s =
      { s with registry := fun k => s.registry k ++ if k ∈ ks then [⟨name, id⟩] else [] } := by
  induction ks generalizing s with
  | nil => simp
  | cons k ks ih =>
    rw [List.foldl_cons, ih (List.nodup_cons.1 hnd).2]
    simp only [register, State.mk.injEq, true_and, and_true]
    funext k'
    by_cases hk : k' = k
    · subst hk; simp [(List.nodup_cons.1 hnd).1]
    · simp [hk]

/-- state of the worker after starting rules `rs` of `file` -/
theorem foldl_start (P : Params File Node Range) (hs : ShuffleOk P) (file : File) (rs : List (Rule File Node Range))
    (hk : ∀ r ∈ rs, (r.listens file).Nodup) (s : State File Node Range) (done : List (Rule File Node Range)) (base : List (Instance File Node Range))
    (hf : s.builder.file = some file) (hheap : s.heap = base ++ done.map (fun r => ⟨r, file, []⟩))
    (hreg : ∀ k, s.registry k = tags file k base.length done) :
    let t := rs.foldl (startRule P file) s
    t.builder.file = some file ∧ t.heap = base ++ (done ++ rs).map (fun r => ⟨r, file, []⟩) ∧
    (∀ k, t.registry k = tags file k base.length (done ++ rs)) ∧
    t.out = s.out ++ rs.flatMap (fun r => attributed P r file (r.run file)) := by
  induction rs generalizing s done with
  | nil => simp [hf, hheap, hreg]
  | cons r rs ih =>
    have hnd : (P.shuffle s.heap.length (r.listens file)).Nodup := (hs _ _).nodup_iff.2 (hk r (by simp))
    have hst : startRule P file s r =
        { builder := ⟨some file, r.name⟩
          registry := fun k => s.registry k ++ if k ∈ r.listens file then [⟨r.name, s.heap.length⟩] else []
          heap := s.heap ++ [⟨r, file, []⟩]
          out := s.out ++ attributed P r file (r.run file) } := by
      simp only [startRule, say]
      rw [foldl_register _ _ _ hnd]
      simp only [State.mk.injEq, Builder.mk.injEq, hf, true_and, and_true, attributed]
      funext k
      simp [(hs _ _).mem_iff]
    rw [List.foldl_cons, hst]
    have := ih (fun r' hr' => hk r' (by simp [hr']))
      { builder := ⟨some file, r.name⟩
        registry := fun k => s.registry k ++ if k ∈ r.listens file then [⟨r.name, s.heap.length⟩] else []
        heap := s.heap ++ [⟨r, file, []⟩]
        out := s.out ++ attributed P r file (r.run file) } (done ++ [r]) rfl (by simp [hheap])
      (by intro k; simp only [hreg k, tags_append]; rw [hheap]; simp)
    simpa using this

/-- one event -/
theorem foldl_call (P : Params File Node Range) (file : File) (e : Kind × Node) (before : List (Kind × Node))
    (rs : List (Rule File Node Range)) (s : State File Node Range) (base : List (Instance File Node Range))
    (hf : s.builder.file = some file)
    (hheap : s.heap = base ++ rs.map (fun r => ⟨r, file, heard r file before⟩)) :
    let t := (tags file e.1 base.length rs).foldl (call P e.1 e.2) s
    t.builder.file = some file ∧ t.heap = base ++ rs.map (fun r => ⟨r, file, heard r file (before ++ [e])⟩) ∧
    t.registry = s.registry ∧ t.out = s.out ++ rs.flatMap (reaction P file before e) := by
  induction rs generalizing s base with
  | nil => simp [tags, hf, hheap]
  | cons r rs ih =>
    by_cases hl : e.1 ∈ r.listens file
    · have hc : call P e.1 e.2 s ⟨r.name, base.length⟩ =
          { builder := ⟨some file, r.name⟩, registry := s.registry
            heap := base ++ ⟨r, file, heard r file before ++ [e]⟩ :: rs.map (fun r => ⟨r, file, heard r file before⟩)
            out := s.out ++ reaction P file before e r } := by
        simp only [call, hheap, List.map_cons, modAt_append]
        simp [say, hf, reaction, hl, attributed]
      have := ih
        { builder := ⟨some file, r.name⟩, registry := s.registry
          heap := base ++ ⟨r, file, heard r file before ++ [e]⟩ :: rs.map (fun r => ⟨r, file, heard r file before⟩)
          out := s.out ++ reaction P file before e r }
        (base ++ [⟨r, file, heard r file before ++ [e]⟩]) rfl (by simp)
      simp only [tags, hl, ↓reduceIte, List.singleton_append, List.foldl_cons, hc]
      simp only [List.length_append, List.length_singleton] at this
      obtain ⟨h1, h2, h3, h4⟩ := this
      refine ⟨h1, ?_, h3, ?_⟩
      · rw [h2]; simp [heard, hl]
      · rw [h4]; simp
    · have := ih s (base ++ [⟨r, file, heard r file before⟩]) hf (by simp [hheap])
      simp only [tags, hl, ↓reduceIte, List.nil_append]
      simp only [List.length_append, List.length_singleton] at this
      obtain ⟨h1, h2, h3, h4⟩ := this
      refine ⟨h1, ?_, h3, ?_⟩
      · rw [h2]; simp [heard, hl]
      · rw [h4]; simp [reaction, hl]

theorem foldl_events (P : Params File Node Range) (file : File) (rs : List (Rule File Node Range))
    (evs before : List (Kind × Node)) (s : State File Node Range) (base : List (Instance File Node Range))
    (hf : s.builder.file = some file)
    (hheap : s.heap = base ++ rs.map (fun r => ⟨r, file, heard r file before⟩))
    (hreg : ∀ k, s.registry k = tags file k base.length rs) :
    (evs.foldl (runListeners P) s).out = s.out ++ reactions P file rs before evs := by
  induction evs generalizing s before with
  | nil => simp [reactions]
  | cons e evs ih =>
    rw [List.foldl_cons]
    have h := foldl_call P file e before rs s base hf hheap
    have hr : runListeners P s e = (tags file e.1 base.length rs).foldl (call P e.1 e.2) s := by rw [runListeners, hreg]
    rw [hr]
    obtain ⟨h1, h2, h3, h4⟩ := h
    rw [ih (before ++ [e]) _ h1 h2 (by rw [h3]; exact hreg), h4]
    simp [reactions]

theorem lintFile_spec (P : Params File Node Range) (hs : ShuffleOk P) (hk : KeysOk P) (s : State File Node Range) (file : File)
    (hreg : ∀ k, s.registry k = []) :
    (lintFile P s file).out = s.out ++ fileReport P (P.rules file) file ∧ ∀ k, (lintFile P s file).registry k = [] := by
  refine ⟨?_, fun _ => rfl⟩
  have h := foldl_start P hs file (P.rules file) (hk file) { s with builder := { s.builder with file := some file } } [] s.heap
    rfl (by simp) (by simpa [tags] using hreg)
  obtain ⟨h1, h2, h3, h4⟩ := h
  simp only [lintFile]
  rw [foldl_events P file (P.rules file) (P.events file) [] _ s.heap h1 (by simpa [heard] using h2) (by simpa using h3), h4]
  simp [fileReport]

theorem work_spec (P : Params File Node Range) (hs : ShuffleOk P) (hk : KeysOk P) (files : List File) :
    work P files = files.flatMap (fun f => fileReport P (P.rules f) f) := by
  suffices h : ∀ s : State File Node Range, (∀ k, s.registry k = []) →
      (files.foldl (lintFile P) s).out = s.out ++ files.flatMap (fun f => fileReport P (P.rules f) f) by
    simpa [work, init] using h init (fun _ => rfl)
  intro s hreg
  induction files generalizing s with
  | nil => simp
  | cons f fs ih =>
    obtain ⟨h1, h2⟩ := lintFile_spec P hs hk s f hreg
    rw [List.foldl_cons, ih _ h2, h1]
    simp

end Tsgolint.Worker
