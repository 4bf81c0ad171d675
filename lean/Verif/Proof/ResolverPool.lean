import Verif.Model.ResolverPool
namespace Tsgolint.ResolverPool
variable {F C : Type} [DecidableEq F]

def Worker.file : Worker F → List F
  | .busy f => [f]
  | _ => []

/-- `got` are the results already stored in the map, in order. -/
structure Inv (resolve : F → C) (files : List F) (W : Nat) (s : State F C) (got : List F) : Prop where
  perm : (got ++ s.outq.map (·.1) ++ s.workers.flatMap Worker.file ++ s.inq ++ s.todo).Perm files
  outs : ∀ p ∈ s.outq, p.2 = resolve p.1
  res : ∀ f, s.res f = if f ∈ got then some (resolve f) else none
  drain : s.main ≠ .sending → s.todo = [] ∧ s.inClosed = true
  closed : s.inClosed = true → s.main ≠ .sending
  stop : Worker.done ∈ s.workers → s.inq = [] ∧ s.inClosed = true
  size : s.workers.length = W
  outC : s.outClosed = true → (∀ w ∈ s.workers, w = .done)
  outM : s.outClosed = true → s.main ≠ .sending
  ret : s.main = .returned → s.outq = [] ∧ s.outClosed = true

theorem inv_init (resolve : F → C) (files : List F) (W : Nat) : Inv resolve files W (init W files) [] := by
  have : (List.replicate W (Worker.idle : Worker F)).flatMap Worker.file = [] := by
    rw [List.flatMap_eq_nil_iff]; intro w hw; rw [List.mem_replicate] at hw; rw [hw.2]; rfl
  constructor <;> simp [init, this]

theorem inv_step {resolve : F → C} {files : List F} {W n : Nat} {s t : State F C} {got : List F}
    (h : Inv resolve files W s got) (hst : Step resolve n s t) : ∃ got', Inv resolve files W t got' := by
  obtain ⟨h1, h2, h3, h4, hcl, h5, h6, h7, hom, h8⟩ := h
  cases hst with
  | put hm ht hl =>
    refine ⟨got, ⟨?_, h2, h3, by simp [hm], hcl, ?_, h6, h7, hom, by simp [hm]⟩⟩
    · simp only [ht] at h1; simp only; simpa [List.append_assoc] using h1
    · intro hd; exact absurd hm (hcl (h5 hd).2)
  | closeIn hm ht =>
    refine ⟨got, ⟨h1, h2, h3, by simp [ht], by simp, ?_, h6, h7, by simp, by simp⟩⟩
    intro hd; exact absurd hm (hcl (h5 hd).2)
  | @take pre post f fs hw hq =>
    rw [hw] at h1 h5 h6 h7
    rw [hq] at h1 h5
    refine ⟨got, ⟨?_, h2, h3, h4, hcl, ?_, by simpa using h6, ?_, hom, h8⟩⟩
    · refine List.Perm.trans ?_ h1
      simp [Worker.file]
      refine List.Perm.append_left _ (List.Perm.append_left _ (List.Perm.append_left _ ?_))
      exact (List.perm_middle (l₁ := post.flatMap Worker.file) (l₂ := fs ++ s.todo) (a := f)).symm
    · intro hd; have := h5 (by simp at hd ⊢; exact hd); simp at this
    · intro hc
      have := h7 hc .idle (by simp)
      simp at this
  | @stop pre post hw hq hc =>
    rw [hw] at h1 h5 h6 h7
    refine ⟨got, ⟨by simpa [Worker.file] using h1, h2, h3, h4, hcl, ?_, by simpa using h6, ?_, hom, h8⟩⟩
    · intro _; exact ⟨hq, hc⟩
    · intro ho
      have := h7 ho .idle (by simp)
      simp at this
  | @push pre post f hw hl =>
    rw [hw] at h1 h5 h6 h7
    refine ⟨got, ⟨?_, ?_, h3, h4, hcl, ?_, by simpa using h6, ?_, hom, ?_⟩⟩
    · refine List.Perm.trans ?_ h1
      simp [Worker.file]
      refine List.Perm.append_left _ (List.Perm.append_left _ ?_)
      exact List.perm_middle.symm
    · intro p hp
      rcases List.mem_append.1 hp with hp | hp
      · exact h2 p hp
      · simp at hp; rw [hp]
    · intro hd; exact h5 (by simp at hd ⊢; exact hd)
    · intro ho
      have := h7 ho (.busy f) (by simp)
      simp at this
    · intro hr
      have := h7 (h8 hr).2 (.busy f) (by simp)
      simp at this
  | closeOut hm ho hd =>
    exact ⟨got, ⟨h1, h2, h3, h4, hcl, h5, h6, fun _ => hd, fun _ => hm, fun hr => ⟨(h8 hr).1, rfl⟩⟩⟩
  | @get f c rest hm hq =>
    rw [hq] at h1 h2
    refine ⟨got ++ [f], ⟨?_, ?_, ?_, h4, hcl, h5, h6, h7, hom, by simp [hm]⟩⟩
    · simpa using h1
    · intro p hp; exact h2 p (by simp [hp])
    · intro x
      simp only [update]
      have hc := h2 (f, c) (by simp)
      simp only at hc
      by_cases hx : x = f
      · subst hx; simp [hc]
      · simp [hx, h3 x]
  | ret hm hq ho =>
    exact ⟨got, ⟨h1, h2, h3, fun _ => h4 (by simp [hm]), by simp, h5, h6, h7, by simp, fun _ => ⟨hq, ho⟩⟩⟩

theorem inv_reachable {resolve : F → C} {files : List F} {W : Nat} {s : State F C}
    (h : Reachable resolve W files s) : ∃ got, Inv resolve files W s got := by
  induction h with
  | init => exact ⟨[], inv_init resolve files W⟩
  | step _ hst ih => obtain ⟨got, ih⟩ := ih; exact inv_step ih hst

def wWorker : Worker F → Nat
  | .idle => 1
  | .busy _ => 4
  | .done => 0

def mu (s : State F C) : Nat :=
  (match s.main with | .sending => 2 | .draining => 1 | .returned => 0) + 5 * s.todo.length + 4 * s.inq.length +
    (s.workers.map wWorker).sum + 2 * s.outq.length + (if s.outClosed then 0 else 1)

theorem step_mu {resolve : F → C} {n : Nat} {s t : State F C} (h : Step resolve n s t) : mu t < mu s := by
  cases h with
  | put hm ht hl => simp [mu, hm, ht]; omega
  | closeIn hm ht => simp [mu, hm]
  | take hw hq => simp [mu, hw, hq, wWorker]; omega
  | stop hw hq hc => simp [mu, hw, wWorker]
  | push hw hl => simp [mu, hw, wWorker]; omega
  | closeOut hm ho hd => simp [mu, ho]
  | get hm hq => simp [mu, hm, hq]
  | ret hm hq ho => simp [mu, hm]

theorem run_mu {resolve : F → C} {n k : Nat} {s t : State F C} (h : Run resolve n k s t) : k + mu t ≤ mu s := by
  induction h with
  | zero => omega
  | succ _ hst ih => have := step_mu hst; omega

theorem progress {resolve : F → C} {files : List F} {W : Nat} {s : State F C} (_hW : 0 < W)
    (h : Reachable resolve W files s) (hx : s.main ≠ .returned) : ∃ t, Step resolve files.length s t := by
  obtain ⟨got, h1, h2, h3, h4, hcl, h5, h6, h7, hom, h8⟩ := inv_reachable h
  have hlen := h1.length_eq
  simp only [List.length_append, List.length_map] at hlen
  -- a worker that is not done can move once `in` is closed, or main can put
  have worker : s.main = .draining → (∃ w ∈ s.workers, w ≠ .done) → ∃ t, Step resolve files.length s t := by
    intro hm ⟨w, hw, hne⟩
    obtain ⟨pre, post, hw⟩ := List.append_of_mem hw
    cases w with
    | idle =>
      cases hq : s.inq with
      | nil => exact ⟨_, .stop hw hq (h4 (by simp [hm])).2⟩
      | cons f fs => exact ⟨_, .take hw hq⟩
    | busy f =>
      refine ⟨_, .push hw ?_⟩
      have : 1 ≤ (s.workers.flatMap Worker.file).length := by rw [hw]; simp [Worker.file]; omega
      omega
    | done => exact absurd rfl hne
  cases hm : s.main with
  | sending =>
    cases ht : s.todo with
    | nil => exact ⟨_, .closeIn hm ht⟩
    | cons f fs =>
      refine ⟨_, .put hm ht ?_⟩
      simp only [ht, List.length_cons] at hlen
      omega
  | draining =>
    cases hq : s.outq with
    | cons p rest => obtain ⟨f, c⟩ := p; exact ⟨_, .get hm hq⟩
    | nil =>
      cases ho : s.outClosed with
      | true => exact ⟨_, .ret hm hq ho⟩
      | false =>
        by_cases hd : ∀ w ∈ s.workers, w = .done
        · exact ⟨_, .closeOut (by simp [hm]) ho hd⟩
        · apply worker hm
          apply Classical.byContradiction
          intro hn
          apply hd
          intro w hw
          apply Classical.byContradiction
          intro hne
          exact hn ⟨w, hw, hne⟩
  | returned => exact absurd hm hx

end Tsgolint.ResolverPool
