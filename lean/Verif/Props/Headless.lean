import Verif.Proof.Headless
/-! # C29 (exit codes), C41 (debug option) -/
namespace Tsgolint.Headless
open Tsgolint.Emit Tsgolint.Report
variable {Node : Type}

/-- C41: every option string is, in exactly one way, a comma separated list of pieces without commas. -/
theorem C41_pieces (s : List Char) : ∃ ps, ps ≠ [] ∧ (∀ p ∈ ps, ',' ∉ p) ∧ s = join ',' ps :=
  ⟨split ',' s, split_ne_nil _ _, split_clean _ _, (join_split _ _).symm⟩

/-- C41: a comma separated list of pieces is accepted iff every piece is empty or `timings`; then timings are enabled iff `timings` is
listed. -/
theorem C41_debug_option (ps : List (List Char)) (hne : ps ≠ []) (h : ∀ p ∈ ps, ',' ∉ p) :
    parseDebugTimings (join ',' ps) =
      if ∀ p ∈ ps, p = [] ∨ p = "timings".toList then some (decide ("timings".toList ∈ ps)) else none := by
  unfold parseDebugTimings
  have hs := split_join ',' ps hne h
  split
  · rename_i h0
    rw [h0] at hs
    have : ps = [[]] := hs.symm
    subst this
    decide
  · rw [hs, debugLoop_spec]; simp

/-- Non-vacuity of C41. -/
example : parseDebugTimings "".toList = some false ∧ parseDebugTimings ",timings,".toList = some true ∧
    parseDebugTimings "timings,x".toList = none ∧ join ',' ["timings".toList, []] = "timings,".toList :=
  ⟨by decide, by decide, by decide, by decide⟩

theorem start_go {e : Env Node} {fx t p} (h : start e = .go fx t p) :
    ∃ debug j, e.flags = .parsed fx.fix fx.fixSuggestions debug ∧ parseDebugTimings debug = some t ∧
      e.traceFails = false ∧ e.cpuProfileFails = false ∧ e.getwdFails = false ∧
      e.stdin = some (some j) ∧ Payload.deserialize j = .ok p := by
  unfold start at h
  cases hf : e.flags with
  | help => simp [hf] at h
  | bad => simp [hf] at h
  | parsed fix fs debug =>
    simp only [hf] at h
    cases ht : parseDebugTimings debug with
    | none => simp [ht] at h
    | some timings =>
      simp only [ht] at h
      cases h1 : e.traceFails <;> simp only [h1, Bool.false_eq_true, if_true, if_false] at h <;> try cases h
      cases h2 : e.cpuProfileFails <;> simp only [h2, Bool.false_eq_true, if_true, if_false] at h <;> try cases h
      cases h3 : e.getwdFails <;> simp only [h3, Bool.false_eq_true, if_true, if_false] at h <;> try cases h
      cases hj : e.stdin with
      | none => simp [hj] at h
      | some j =>
        simp only [hj] at h
        cases j with
        | none => simp [Payload.deserializeBytes] at h
        | some j =>
          simp only [Payload.deserializeBytes, id] at h
          cases hp : Payload.deserialize j with
          | error x => simp [hp] at h
          | ok q =>
            simp only [hp] at h
            cases h
            exact ⟨debug, j, rfl, ht, rfl, rfl, rfl, rfl, hp⟩

theorem start_of {e : Env Node} {fix fs debug timings j p} (h : e.flags = .parsed fix fs debug) (h1 : parseDebugTimings debug = some timings)
    (h2 : e.traceFails = false) (h3 : e.cpuProfileFails = false) (h4 : e.getwdFails = false)
    (h5 : e.stdin = some (some j)) (h6 : Payload.deserialize j = .ok p) : start e = .go ⟨fix, fs⟩ timings p := by
  simp [start, h, h1, h2, h3, h4, h5, Payload.deserializeBytes, h6]

/-- C29: whatever the schedule, if the process exits, its code is 0 iff help was asked for or options, profiling, working directory,
stdin, payload, linting and timing message all succeeded (and nothing panicked); 2 iff the flags are malformed or the process panicked;
otherwise 1.  Lint findings do not occur in the conditions: they never change the code.  (If linting both fails with an error and
hands over a diagnostic that makes the writer panic, either code is possible.) -/
theorem C29_exit_code (e : Env Node) (he : e.Ok) (c : Nat) (out : Framing.Bytes) (h : Exits e c out) :
    (c = 0 ↔ e.flags = .help ∨ Succeeds e) ∧
    (c = 2 → e.flags = .bad ∨ ∃ fx t p, start e = .go fx t p ∧ Crashes e p fx) ∧
    (e.flags = .bad ∨ (∃ fx t p, start e = .go fx t p ∧ Crashes e p fx ∧ ∀ m, (actions e p).2 ≠ .error m) → c = 2) ∧
    (c = 0 ∨ c = 1 ∨ c = 2) := by
  have succ_go : Succeeds e → ∃ fx t p, start e = .go fx t p ∧ (actions e p).2 = .returned ∧ ¬ Crashes e p fx ∧
      (t = true → e.marshalTimings.isSome) := by
    rintro ⟨fix, fs, debug, t, j, p, h1, h2, h3, h4, h5, h6, h7, h8, h9, h10⟩
    exact ⟨_, _, _, start_of h1 h2 h3 h4 h5 h6 h7, h8, h9, h10⟩
  cases h with
  | @early code msg hs =>
    have hns : ¬ Succeeds e := by
      intro h; obtain ⟨_, _, _, h, _⟩ := succ_go h; rw [hs] at h; cases h
    have hnp : ¬ ∃ fx t p, start e = .go fx t p ∧ Crashes e p fx := by
      rintro ⟨_, _, _, h, _⟩; rw [hs] at h; cases h
    have hnp' : ¬ ∃ fx t p, start e = .go fx t p ∧ Crashes e p fx ∧ ∀ m, (actions e p).2 ≠ .error m := by
      rintro ⟨_, _, _, h, _⟩; rw [hs] at h; cases h
    have hcode : (c = 0 ∧ e.flags = .help) ∨ (c = 2 ∧ e.flags = .bad) ∨ (c = 1 ∧ ∃ a b d, e.flags = .parsed a b d) := by
      unfold start at hs
      split at hs
      · cases hs; exact .inl ⟨rfl, ‹_›⟩
      · cases hs; exact .inr (.inl ⟨rfl, ‹_›⟩)
      · rename_i a b d hf
        refine .inr (.inr ⟨?_, a, b, d, hf⟩)
        split at hs
        · cases hs; rfl
        · split at hs
          · cases hs; rfl
          · split at hs
            · cases hs; rfl
            · split at hs
              · cases hs; rfl
              · split at hs
                · cases hs; rfl
                · split at hs
                  · cases hs; rfl
                  · cases hs
    rcases hcode with ⟨rfl, hf⟩ | ⟨rfl, hf⟩ | ⟨rfl, a, b, d, hf⟩
    · exact ⟨by simp [hf], by simp, by simp only [hf, hnp']; simp, by simp⟩
    · exact ⟨by simp [hf, hns], by simp [hf], by simp, by simp⟩
    · exact ⟨by simp [hf, hns], by simp, by simp only [hf, hnp']; simp, by simp⟩
  | @late fx t p s _ hs hnp hur hcv hr hx =>
    obtain ⟨debug, j, g1, g2, g3, g4, g5, g6, g7⟩ := start_go hs
    have hf1 : e.flags ≠ .help := by rw [g1]; simp
    have hf2 : e.flags ≠ .bad := by rw [g1]; simp
    have hnc : (actions e p).2 = .returned → ¬ Crashes e p fx := by
      rintro hret (⟨m, h⟩ | h | ⟨d, hd, h⟩)
      · exact hnp m h
      · exact hur h
      · exact hcv hret d hd h
    have hsucc : Succeeds e ↔ (actions e p).2 = .returned ∧ (t = true → e.marshalTimings.isSome) := by
      constructor
      · intro h
        obtain ⟨fx', t', p', h1, h2, _, h3⟩ := succ_go h
        rw [hs] at h1; cases h1; exact ⟨h2, h3⟩
      · rintro ⟨h1, h2⟩; exact ⟨_, _, debug, t, j, p, g1, g2, g3, g4, g5, g6, g7, h1, hnc h1, h2⟩
    have hcr : (∃ fx t p, start e = .go fx t p ∧ Crashes e p fx ∧ ∀ m, (actions e p).2 ≠ .error m) ↔
        Crashes e p fx ∧ ∀ m, (actions e p).2 ≠ .error m := by
      constructor
      · rintro ⟨_, _, _, h, h'⟩; rw [hs] at h; cases h; exact h'
      · intro h; exact ⟨_, _, _, hs, h⟩
    simp only [hf1, hf2, false_or, hsucc, hcr]
    cases ha : (actions e p).2 with
    | panic m => exact absurd ha (hnp m)
    | error m =>
      have hj : jobs e p = (actions e p).1.map (jobOf e) ++ .fail (e.marshalError ("error running linter: " ++ m)) :: [] := by
        unfold jobs; rw [ha]
      have hgood : ∀ j ∈ (actions e p).1.map (jobOf e), j.Good := by
        intro j hj
        obtain ⟨a, _, rfl⟩ := List.mem_map.1 hj
        cases a with
        | internal d => trivial
        | lint prog files => exact he.checkers prog
      have := (Pipeline.C08_error_output _ _ (jobs_ok e he p) he.workers _ _ _ hj hgood s hr c hx).1
      subst this; simp
    | returned =>
      have hnc := hnc ha
      simp only [true_and, hnc, false_and, false_implies]
      cases htm : (pipeline e fx t p).timing with
      | none =>
        have h0 := Pipeline.C07_exit_zero _ _ (jobs_good e he p ha) he.workers (by rw [htm]; simp) s hr c hx
        subst h0
        have ht : t = false := by
          cases t
          · rfl
          · simp [pipeline] at htm
        simp [ht]
      | some m =>
        have ht : t = true ∧ m = e.marshalTimings := by
          cases t
          · simp [pipeline] at htm
          · simp [pipeline] at htm; exact ⟨rfl, htm.symm⟩
        obtain ⟨rfl, rfl⟩ := ht
        cases hmt : e.marshalTimings with
        | some b =>
          have h0 := Pipeline.C07_exit_zero _ _ (jobs_good e he p ha) he.workers (by rw [htm, hmt]; simp) s hr c hx
          subst h0; simp
        | none =>
          have h1 := Pipeline.exit_one_of_timing _ _ (jobs_good e he p ha) he.workers (by rw [htm, hmt]) s hr c hx
          subst h1; simp
  | @panic fx t p s hs hp hr =>
    have hns : ¬ Succeeds e := by
      intro h
      obtain ⟨fx', t', p', h1, _, h2, _⟩ := succ_go h
      rw [hs] at h1; cases h1; exact h2 hp
    obtain ⟨debug, j, g1, _⟩ := start_go hs
    have hf1 : e.flags ≠ .help := by rw [g1]; simp
    exact ⟨by simp [hns, hf1], fun _ => .inr ⟨fx, t, p, hs, hp⟩, fun _ => rfl, by simp⟩

end Tsgolint.Headless
