import Verif.Proof.PipelineLive
/-!
# C07, C08, C16, C17: the concurrent pipeline

`P` ranges over all worker counts, channel capacities, encoders and per-file diagnostics; `J` over all sequences of jobs; a
`Reachable` state is one reached by any schedule.
-/
namespace Tsgolint.Pipeline
open Framing
variable {D F : Type}

/-- C07.  A run that returns 0 has written, for every job in order, exactly the diagnostics of that job (see `SegOk`), each as one
frame, followed by the timing frame if requested — and nothing else. -/
theorem C07_success_output (P : Params D F) (J : List (Job D F)) (hJ : ∀ j ∈ J, j.Ok) (hW : 0 < P.W)
    (s : State D F) (hr : Reachable P J s) (hx : s.main = .exit 0) :
    ∃ segs, SegsOk P.diags J segs ∧
      s.out = writeAll (messages P.enc segs.flatten ++ timingMessages P.timing) := by
  obtain ⟨dn, hs, hc⟩ := ctl_reachable hJ hW hr
  obtain ⟨got, h1, h2, h3⟩ := out_reachable hJ hW hr
  simp only [Ctl, hx] at hc
  simp only [hx] at h3
  obtain ⟨hc1, hc2, hc3, hc4⟩ := hc
  have hJ' : J = dn := by
    rcases hc1 with h | ⟨h, _⟩
    · exact h
    · simp at h
  subst hJ'
  rcases h3 with ⟨g1, g2, g3⟩ | ⟨h, _⟩
  · refine ⟨s.segs, hs, ?_⟩
    have hch := (h2 g1).1
    have : got = s.segs.flatten := by
      simpa [State.sent, hc3, hch] using h1.symm
    rw [g2, framesOf_eq, timingFrame_eq, ← writeAll_append, this]
  · simp at h

/-- C07 (what a reader of stdout sees).  After a successful run a reader decodes precisely those messages, nothing left over. -/
theorem C07_success_decoded (P : Params D F) (J : List (Job D F)) (hJ : ∀ j ∈ J, j.Ok) (hW : 0 < P.W)
    (s : State D F) (hr : Reachable P J s) (hx : s.main = .exit 0)
    (hfit : (∀ d p, P.enc d = some p → p.length < 2 ^ 32) ∧ (∀ p, P.timing = some (some p) → p.length < 2 ^ 32)) :
    ∃ segs, SegsOk P.diags J segs ∧
      decode s.out = (wire (messages P.enc segs.flatten ++ timingMessages P.timing), []) := by
  obtain ⟨segs, h1, h2⟩ := C07_success_output P J hJ hW s hr hx
  refine ⟨segs, h1, ?_⟩
  rw [h2]
  have hf : Fits (messages P.enc segs.flatten ++ timingMessages P.timing) := by
    intro m hm
    rcases List.mem_append.1 hm with hm | hm
    · simp only [messages, List.mem_map, List.mem_filterMap] at hm
      obtain ⟨p, ⟨d, _, hd⟩, rfl⟩ := hm
      exact hfit.1 d p hd
    · unfold timingMessages at hm
      split at hm
      · rename_i p hp; simp at hm; subst hm; exact hfit.2 p hp
      · simp at hm
  have := decode_writeAll_append _ hf []
  simpa [decode_short (b := []) (by simp)] using this

/-- C07 (every instant / crash point).  As long as no error is being written, stdout is at every reachable state a byte prefix of
the frame stream of the diagnostics sent so far (plus the timing frame). -/
theorem C07_prefix_at_every_instant (P : Params D F) (J : List (Job D F)) (hJ : ∀ j ∈ J, j.Good) (hW : 0 < P.W)
    (s : State D F) (hr : Reachable P J s) :
    s.out <+: writeAll (messages P.enc s.sent ++ timingMessages P.timing) := by
  have hok : ∀ j ∈ J, j.Ok := by
    intro j hj; have := hJ j hj; cases j <;> simp_all [Job.Good, Job.Ok]
  obtain ⟨dn, hs, hc⟩ := ctl_reachable hok hW hr
  obtain ⟨got, h1, h2, h3⟩ := out_reachable hok hW hr
  rw [writeAll_append, ← framesOf_eq, ← timingFrame_eq, h1, framesOf_append]
  have hbase : s.out ++ s.buf = framesOf P got → s.out <+: framesOf P got ++ framesOf P s.chan ++ timingFrame P := by
    intro h; rw [← h]; simp [List.append_assoc]
  have noFail : ∀ dn e js, J = dn ++ .fail e :: js → False := by
    intro dn e js h
    have := hJ (.fail e) (by rw [h]; simp)
    simp [Job.Good] at this
  split at h3
  · exact hbase h3.2
  · obtain ⟨g1, g2, g3, _⟩ := h3
    have := (h2 g1).1
    rw [this]; simp only [framesOf, List.flatMap_nil, List.append_nil]
    simp only [framesOf] at g3
    rw [← g3]; exact List.prefix_append _ _
  · obtain ⟨_, a, b, e, _, _, _, dn', js, h, _⟩ := h3
    exact (noFail dn' e js h).elim
  · rcases h3 with ⟨g1, g2, g3⟩ | ⟨_, a, b, e, _, _, _, dn', js, h, _⟩
    · have := (h2 g1).1
      rw [g2, this]; simp [framesOf]
    · exact (noFail dn' e js h).elim
  · exact hbase h3.2

/-- C07 (crash point, decoded).  A reader that gets whatever reached stdout before a crash decodes a prefix of the messages of the
diagnostics sent so far, never a wrong message. -/
theorem C07_crash_decoded (P : Params D F) (J : List (Job D F)) (hJ : ∀ j ∈ J, j.Good) (hW : 0 < P.W)
    (s : State D F) (hr : Reachable P J s)
    (hfit : (∀ d p, P.enc d = some p → p.length < 2 ^ 32) ∧ (∀ p, P.timing = some (some p) → p.length < 2 ^ 32)) :
    ∃ done rest, messages P.enc s.sent ++ timingMessages P.timing = done ++ rest ∧ (decode s.out).1 = wire done := by
  have hp := C07_prefix_at_every_instant P J hJ hW s hr
  obtain ⟨d, r, tl, h1, h2, h3⟩ := prefix_split _ _ hp
  have hf : Fits (messages P.enc s.sent ++ timingMessages P.timing) := by
    intro m hm
    rcases List.mem_append.1 hm with hm | hm
    · simp only [messages, List.mem_map, List.mem_filterMap] at hm
      obtain ⟨p, ⟨d, _, hd⟩, rfl⟩ := hm
      exact hfit.1 d p hd
    · unfold timingMessages at hm
      split at hm
      · rename_i p hp; simp at hm; subst hm; exact hfit.2 p hp
      · simp at hm
  refine ⟨d, r, h1, ?_⟩
  have htl : decode tl = ([], tl) := by
    rcases h3 with ⟨_, rfl⟩ | ⟨t, p, r', hr', ht, hl⟩
    · exact decode_short (by simp)
    · exact decode_partial_frame t p tl (hf (t, p) (by rw [h1, hr']; simp)) ht hl
  have hd : Fits d := fun m hm => hf m (by rw [h1]; simp [hm])
  rw [h2, decode_writeAll_append d hd tl, htl]; simp

/-- C07 (no deadlock).  In every reachable state the process has exited or some goroutine can move. -/
theorem C07_no_deadlock (P : Params D F) (J : List (Job D F)) (hJ : ∀ j ∈ J, j.Ok) (hW : 0 < P.W) (hcap : 0 < P.cap)
    (s : State D F) (hr : Reachable P J s) : (∃ c, s.main = .exit c) ∨ ∃ t, Step P s t := by
  by_cases h : ∃ c, s.main = .exit c
  · exact Or.inl h
  · exact Or.inr (progress hJ hW hcap hr (fun c hc => h ⟨c, hc⟩))

/-- C07 (termination).  There is a bound on the number of steps of every schedule, so every maximal schedule ends in an exit. -/
theorem C07_terminates (P : Params D F) (J : List (Job D F)) :
    ∃ bound, ∀ n s, Run P n (init J) s → n ≤ bound :=
  ⟨mu P (init J), fun n s h => by have := run_mu h; omega⟩

/-- C07 (exit code).  A run without failing job whose timing payload can be marshalled can only exit with 0; findings never
change the code. -/
theorem C07_exit_zero (P : Params D F) (J : List (Job D F)) (hJ : ∀ j ∈ J, j.Good) (hW : 0 < P.W)
    (ht : P.timing ≠ some none) (s : State D F) (hr : Reachable P J s) (c : Nat) (hx : s.main = .exit c) : c = 0 := by
  have hok : ∀ j ∈ J, j.Ok := by
    intro j hj; have := hJ j hj; cases j <;> simp_all [Job.Good, Job.Ok]
  obtain ⟨got, h1, h2, h3⟩ := out_reachable hok hW hr
  simp only [hx] at h3
  have htk : timingOk P = true := by
    unfold timingOk
    split
    · rfl
    · rename_i m hm
      cases m with
      | none => exact absurd hm ht
      | some p => rfl
  rcases h3 with ⟨_, _, h, _⟩ | ⟨_, a, b, e, _, _, _, dn', js, h, _⟩
  · simpa [htk] using h
  · have := hJ (.fail e) (by rw [h]; simp)
    simp [Job.Good] at this

/-- A run without failing job whose timing payload cannot be marshalled can only exit with 1. -/
theorem exit_one_of_timing (P : Params D F) (J : List (Job D F)) (hJ : ∀ j ∈ J, j.Good) (hW : 0 < P.W)
    (ht : P.timing = some none) (s : State D F) (hr : Reachable P J s) (c : Nat) (hx : s.main = .exit c) : c = 1 := by
  have hok : ∀ j ∈ J, j.Ok := by
    intro j hj; have := hJ j hj; cases j <;> simp_all [Job.Good, Job.Ok]
  obtain ⟨got, h1, h2, h3⟩ := out_reachable hok hW hr
  simp only [hx] at h3
  have htk : timingOk P = false := by
    unfold timingOk; rw [ht]; rfl
  rcases h3 with ⟨_, _, h, _⟩ | ⟨_, a, b, e, _, _, _, dn', js, h, _⟩
  · simpa [htk] using h
  · have := hJ (.fail e) (by rw [h]; simp)
    simp [Job.Good] at this

/-- C08.  If the linter returns an error then at exit (code 1) stdout is an interleaving of the complete error frame with a
prefix of the frame stream of the diagnostics reported before the error. Nothing else is ever written. -/
theorem C08_error_output (P : Params D F) (J : List (Job D F)) (hJ : ∀ j ∈ J, j.Ok) (hW : 0 < P.W)
    (dn js : List (Job D F)) (e : Option Bytes) (hfail : J = dn ++ .fail e :: js) (hdn : ∀ j ∈ dn, j.Good)
    (s : State D F) (hr : Reachable P J s) (c : Nat) (hx : s.main = .exit c) :
    c = 1 ∧ ∃ segs a, SegsOk P.diags dn segs ∧ a <+: writeAll (messages P.enc segs.flatten) ∧
      Interleaving a (writeMessage .error e).1 s.out := by
  obtain ⟨dn2, hs2, hc⟩ := ctl_reachable hJ hW hr
  obtain ⟨got, h1, h2, h3⟩ := out_reachable hJ hW hr
  simp only [Ctl, hx] at hc
  simp only [hx] at h3
  have segsNoFail : ∀ (l : List (Job D F)) sg, SegsOk P.diags l sg → ∀ e', Job.fail e' ∉ l := by
    intro l sg h
    induction h with
    | nil => simp
    | snoc _ hj ih =>
      intro e' hm
      rcases List.mem_append.1 hm with hm | hm
      · exact ih e' hm
      · simp at hm; subst hm; exact hj
  obtain ⟨hc1, hc2, hc3, hc4⟩ := hc
  have hne : J ≠ dn2 := by
    intro h
    exact segsNoFail dn2 _ hs2 e (by rw [← h, hfail]; simp)
  have hc1' : c = 1 := by
    rcases hc1 with h | ⟨h, _⟩
    · exact absurd h hne
    · exact h
  -- the split at the first failure is unique
  have uniq : ∀ (d1 d2 : List (Job D F)) e1 e2 j1 j2, (∀ e', Job.fail e' ∉ d1) → (∀ e', Job.fail e' ∉ d2) →
      d1 ++ Job.fail e1 :: j1 = d2 ++ Job.fail e2 :: j2 → d1 = d2 ∧ e1 = e2 := by
    intro d1
    induction d1 with
    | nil =>
      intro d2 e1 e2 j1 j2 _ h2 he
      cases d2 with
      | nil => simp at he; exact ⟨rfl, he.1⟩
      | cons x xs => simp at he; exact absurd (by rw [he.1]; simp) (h2 e1)
    | cons y ys ih =>
      intro d2 e1 e2 j1 j2 h1 h2 he
      cases d2 with
      | nil => simp at he; exact absurd (by rw [he.1]; simp) (h1 e2)
      | cons x xs =>
        simp at he
        obtain ⟨rfl, he⟩ := he
        have := ih xs e1 e2 j1 j2 (fun e' hm => h1 e' (by simp [hm])) (fun e' hm => h2 e' (by simp [hm])) he
        exact ⟨by rw [this.1], this.2⟩
  have hdnf : ∀ e', Job.fail e' ∉ dn := by
    intro e' hm; have := hdn _ hm; simp [Job.Good] at this
  refine ⟨hc1', ?_⟩
  rcases hc1 with h | ⟨_, e2, js2, h⟩
  · exact absurd h hne
  · rcases h3 with ⟨_, _, _, g4⟩ | ⟨_, a, b, e', g1, g2, g3, dn3, js3, g4, g5⟩
    · -- the timing path cannot be reached with a failing job
      exact (segsNoFail _ _ g4 e (by rw [hfail]; simp)).elim
    · have hu3 := uniq dn3 dn e' e js3 js (segsNoFail _ _ g5) hdnf (by rw [← g4, hfail])
      refine ⟨s.segs, a, hu3.1 ▸ g5, ?_, ?_⟩
      · have : s.sent = s.segs.flatten := by simp [State.sent, hc3]
        rw [← this, ← framesOf_eq, h1, framesOf_append, ← g2]
        simp [List.append_assoc]
      · have e1 := hu3.2
        subst e1
        rw [g3] at g1; exact g1

/-- C16.  When a run exits successfully every file of every program has been linted exactly once (as often as it was listed). -/
theorem C16_each_file_linted_once (P : Params D F) (J : List (Job D F)) (hJ : ∀ j ∈ J, j.Ok) (hW : 0 < P.W)
    (s : State D F) (hr : Reachable P J s) (hx : s.main = .exit 0) : s.log.Perm (J.flatMap Job.files) := by
  obtain ⟨dn, hs, hc⟩ := ctl_reachable hJ hW hr
  simp only [Ctl, hx] at hc
  obtain ⟨hc1, hc2, hc3, hc4⟩ := hc
  rcases hc1 with h | ⟨h, _⟩
  · rw [h]; exact hc4
  · simp at h

/-- C16 (one program).  `RunLinterOnProgram` itself: it can only return (the `join` step) when exactly the files of that program
have been linted in addition to the earlier ones, and all their diagnostics have been handed over. -/
theorem C16_program_returns_complete (P : Params D F) (J : List (Job D F)) (hJ : ∀ j ∈ J, j.Ok) (hW : 0 < P.W)
    (s : State D F) (hr : Reachable P J s) (hm : s.main = .joining) (hd : ∀ w ∈ s.workers, w = .done) :
    ∃ before fs cs after, J = before ++ .program fs cs :: after ∧
      s.log.Perm (before.flatMap Job.files ++ fs) ∧ s.seg.Perm (fs.flatMap P.diags) := by
  obtain ⟨dn, hs, hc⟩ := ctl_reachable hJ hW hr
  simp only [Ctl, hm] at hc
  obtain ⟨fs, cs, h1, h2⟩ := hc
  obtain ⟨_, _, j3, _, j5⟩ := pool_join hW h2 hd
  exact ⟨dn, fs, cs, s.jobs, h1, j5, j3⟩

/-- C16 (at every instant).  No file is ever started more often than it is listed. -/
theorem C16_never_started_twice (P : Params D F) [DecidableEq F] (J : List (Job D F)) (hJ : ∀ j ∈ J, j.Ok) (hW : 0 < P.W)
    (s : State D F) (hr : Reachable P J s) (f : F) : s.log.count f ≤ (J.flatMap Job.files).count f := by
  obtain ⟨dn, hs, hc⟩ := ctl_reachable hJ hW hr
  have base : ∀ {l : List (Job D F)} {tail}, J = l ++ tail → s.log.Perm (l.flatMap Job.files) →
      s.log.count f ≤ (J.flatMap Job.files).count f := by
    intro l tail he hp
    rw [hp.count_eq, he]; simp
  unfold Ctl at hc
  split at hc
  · exact base hc.1 hc.2.2.2
  · obtain ⟨all, h1, _, _, h4⟩ := hc; exact base h1 h4
  · obtain ⟨fs, cs, h1, h2⟩ := hc
    have := h2.files.count_eq f
    rw [h1]
    simp [Job.files] at this ⊢
    omega
  · exact base (tail := []) (by simp [hc.1]) hc.2.2.2
  · obtain ⟨⟨js, h1⟩, _, _, h4⟩ := hc; exact base h1 h4
  · exact base (tail := []) (by simp [hc.1]) hc.2.2.2
  · exact base (tail := []) (by simp [hc.1]) hc.2.2.2
  · obtain ⟨⟨e, js, h1⟩, _, _, h4⟩ := hc; exact base h1 h4
  · obtain ⟨h | ⟨_, e, js, h1⟩, _, _, h4⟩ := hc
    · exact base (tail := []) (by simp [h]) h4
    · exact base h1 h4

/-- C17.  At every instant of every schedule no checker is held by two workers: two workers at different positions never hold the
same checker. -/
theorem C17_checker_exclusive (P : Params D F) (J : List (Job D F)) (hJ : ∀ j ∈ J, j.Ok) (hW : 0 < P.W)
    (s : State D F) (hr : Reachable P J s) (a b c : List (Worker D F)) (w w' : Worker D F)
    (hw : s.workers = a ++ w :: b ++ w' :: c) (k : Nat) (h1 : k ∈ w.held) (h2 : k ∈ w'.held) : False := by
  obtain ⟨dn, hs, hc⟩ := ctl_reachable hJ hW hr
  have hm := joining_of_worker (pre := a) (w := w) (post := b ++ w' :: c) hc (by simp [hw])
  simp only [Ctl, hm] at hc
  obtain ⟨fs, cs, _, h⟩ := hc
  have hn := h.excl
  rw [hw] at hn
  simp only [List.flatMap_append, List.flatMap_cons, List.append_assoc] at hn
  have hn := hn.sublist (List.sublist_append_right _ _)
  rw [List.nodup_append] at hn
  exact hn.2.2 k h1 k (by simp [h2]) rfl

/-! ## Non-vacuity and negative witnesses -/

/-- One worker, channel of capacity one, every diagnostic marshals to the byte 65. -/
def exP : Params Unit Unit := { W := 1, cap := 1, enc := fun _ => some [65], diags := fun _ => [()], timing := none }

def exJ : List (Job Unit Unit) := [.internal [()], .fail (some [66])]

/-- C08 (negative, loss).  The process can exit after an error with a diagnostic that was reported but never written. -/
theorem C08_diagnostic_can_be_lost :
    ∃ s, Reachable exP exJ s ∧ s.main = .exit 1 ∧ s.sent = [()] ∧ decode s.out = ([(0, [66])], []) := by
  have r := Reachable.init (P := exP) (jobs := exJ)
  have r := r.step (Step.startInternal rfl rfl)
  have r := r.step (Step.sendInternal rfl (by decide))
  have r := r.step (Step.endInternal rfl)
  have r := r.step (Step.fail rfl rfl)
  have r := r.step (Step.closeErr rfl)
  have r := r.step (Step.writeError (a := errorFrame (some [66])) (b := []) rfl (by decide))
  have r := r.step (Step.exitErr rfl)
  refine ⟨_, r, rfl, rfl, ?_⟩
  show decode (frame .error [66] ++ []) = _
  rw [decode_frame .error [66] [] (by simp)]
  simp [decode_short, MsgType.byte]

/-- C08 (negative, corruption).  The error frame can land inside a diagnostic frame; a reader then decodes a diagnostic message
that nobody reported (every diagnostic here has payload `[65]`). -/
theorem C08_frames_can_be_corrupted :
    ∃ s, Reachable exP exJ s ∧ s.main = .exit 1 ∧ (1, [1]) ∈ (decode s.out).1 ∧ ∀ d, exP.enc d ≠ some [1] := by
  have r := Reachable.init (P := exP) (jobs := exJ)
  have r := r.step (Step.startInternal rfl rfl)
  have r := r.step (Step.sendInternal rfl (by decide))
  have r := r.step (Step.recv (by intro c h; cases h) rfl rfl)
  have r := r.step (Step.flush (a := [1, 0, 0, 0, 1]) (b := [65]) (by intro c h; cases h) rfl rfl (by decide))
  have r := r.step (Step.endInternal rfl)
  have r := r.step (Step.fail rfl rfl)
  have r := r.step (Step.closeErr rfl)
  have r := r.step (Step.writeError (a := errorFrame (some [66])) (b := []) rfl (by decide))
  have r := r.step (Step.exitErr rfl)
  refine ⟨_, r, rfl, ?_, ?_⟩
  · show (1, [1]) ∈ (decode (frame .diagnostic [1] ++ [0, 0, 0, 0, 66])).1
    rw [decode_frame .diagnostic [1] _ (by simp)]
    simp [MsgType.byte]
  · intro d h; simp [exP] at h

/-- Non-vacuity of C07/C16/C17: a concrete successful run with a program of one file. -/
example : ∃ s, Reachable exP [.program [()] [0]] s ∧ s.main = .exit 0 ∧
    (∀ j ∈ [(Job.program [()] [0] : Job Unit Unit)], j.Good) := by
  have r := Reachable.init (P := exP) (jobs := [.program [()] [0]])
  have r := r.step (Step.startProgram rfl rfl)
  have r := r.step (Step.takeWorkload (pre := []) (post := []) rfl rfl)
  have r := r.step (Step.takeFile (pre := []) (post := []) rfl rfl)
  have r := r.step (Step.send (pre := []) (post := []) rfl (by decide))
  have r := r.step (Step.endFile (pre := []) (post := []) rfl)
  have r := r.step (Step.noFile (pre := []) (post := []) rfl rfl)
  have r := r.step (Step.noWorkload (pre := []) (post := []) rfl rfl)
  have r := r.step (Step.join rfl (by simp))
  have r := r.step (Step.finish rfl rfl)
  have r := r.step (Step.closeOk rfl)
  have r := r.step (Step.recv (by intro c h; cases h) rfl rfl)
  have r := r.step (Step.flush (a := [1, 0, 0, 0, 1, 65]) (b := []) (by intro c h; cases h) rfl rfl (by decide))
  have r := r.step (Step.writerExit (by intro c h; cases h) rfl rfl rfl rfl)
  have r := r.step (Step.waited rfl rfl)
  have r := r.step (Step.exitOk rfl)
  exact ⟨_, r, rfl, by simp [Job.Good]⟩

end Tsgolint.Pipeline
