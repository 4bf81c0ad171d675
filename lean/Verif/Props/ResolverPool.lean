import Verif.Proof.ResolverPool
/-! # C13: parallel tsconfig lookup equals the sequential lookup, for every schedule -/
namespace Tsgolint.ResolverPool
variable {F C : Type} [DecidableEq F]

/-- C13.  Whenever `FindTsConfigParallel` returns, the map sends every given file to its single-file lookup result and has no other
key — for every list of files, worker count ≥ 1 and schedule. -/
theorem C13_result (resolve : F → C) (W : Nat) (hW : 0 < W) (files : List F) (s : State F C)
    (h : Reachable resolve W files s) (hr : s.main = .returned) (f : F) :
    s.res f = if f ∈ files then some (resolve f) else none := by
  obtain ⟨got, h1, h2, h3, h4, hcl, h5, h6, h7, hom, h8⟩ := inv_reachable h
  obtain ⟨hq, ho⟩ := h8 hr
  have hd := h7 ho
  have hmem : Worker.done ∈ s.workers := by
    match hw : s.workers with
    | [] => rw [hw] at h6; simp at h6; omega
    | w :: ws => have := hd w (by simp [hw]); simp [this]
  have hin := (h5 hmem).1
  have htodo := (h4 (by simp [hr])).1
  have hb : s.workers.flatMap Worker.file = [] := by
    rw [List.flatMap_eq_nil_iff]; intro w hw; rw [hd w hw]; rfl
  have hp : got.Perm files := by simpa [hq, hb, hin, htodo] using h1
  rw [h3 f]
  simp [hp.mem_iff]

/-- C13 (safety at every instant).  The map never contains a wrong entry, nor one for a file that was not asked for. -/
theorem C13_never_wrong (resolve : F → C) (W : Nat) (files : List F) (s : State F C)
    (h : Reachable resolve W files s) (f : F) (c : C) (hf : s.res f = some c) : f ∈ files ∧ c = resolve f := by
  obtain ⟨got, h1, h2, h3, _⟩ := inv_reachable h
  rw [h3 f] at hf
  split at hf
  · rename_i hg
    refine ⟨h1.subset (by simp [hg]), by simpa using hf.symm⟩
  · simp at hf

/-- C13 (no deadlock). -/
theorem C13_no_deadlock (resolve : F → C) (W : Nat) (hW : 0 < W) (files : List F) (s : State F C)
    (h : Reachable resolve W files s) : s.main = .returned ∨ ∃ t, Step resolve files.length s t := by
  by_cases hx : s.main = .returned
  · exact Or.inl hx
  · exact Or.inr (progress hW h hx)

/-- C13 (termination): every schedule is finite, with a bound depending only on the input size and worker count. -/
theorem C13_terminates (resolve : F → C) (W : Nat) (files : List F) (k : Nat) (s : State F C)
    (h : Run resolve files.length k (init W files) s) : k ≤ 5 * files.length + W + 3 := by
  have := run_mu h
  have hi : mu (init W files : State F C) = 5 * files.length + W + 3 := by simp [mu, init, wWorker]; omega
  omega

/-- Non-vacuity: a complete run with a duplicated file. -/
example : ∃ s, Reachable (fun n : Nat => n + 1) 1 [7, 7] s ∧ s.main = .returned ∧ s.res 7 = some 8 := by
  have r := Reachable.init (resolve := fun n : Nat => n + 1) (W := 1) (files := [7, 7])
  have r := r.step (Step.put rfl rfl (by decide))
  have r := r.step (Step.take (pre := []) (post := []) rfl rfl)
  have r := r.step (Step.put rfl rfl (by decide))
  have r := r.step (Step.closeIn rfl rfl)
  have r := r.step (Step.push (pre := []) (post := []) rfl (by decide))
  have r := r.step (Step.take (pre := []) (post := []) rfl rfl)
  have r := r.step (Step.get rfl rfl)
  have r := r.step (Step.push (pre := []) (post := []) rfl (by decide))
  have r := r.step (Step.stop (pre := []) (post := []) rfl rfl rfl)
  have r := r.step (Step.closeOut (by decide) rfl (by simp))
  have r := r.step (Step.get rfl rfl)
  have r := r.step (Step.ret rfl rfl rfl)
  exact ⟨_, r, rfl, rfl⟩

end Tsgolint.ResolverPool
