import Verif.Proof.PipelineInv
namespace Tsgolint.Pipeline
open Framing
variable {D F : Type}

def wd (P : Params D F) (d : D) : Nat := (diagFrame P d).length
/-- Weight of diagnostics not yet sent. -/
def wUnsent (P : Params D F) (ds : List D) : Nat := (ds.map (fun d => wd P d + 2)).sum
/-- Weight of diagnostics in the channel. -/
def wChan (P : Params D F) (ds : List D) : Nat := (ds.map (fun d => wd P d + 1)).sum
def wFiles (P : Params D F) (fs : List F) : Nat := (fs.map (fun f => 2 + wUnsent P (P.diags f))).sum
def wWorker (P : Params D F) : Worker D F → Nat
  | .idle => 1
  | .holding _ => 2
  | .linting _ _ rest => 3 + wUnsent P rest
  | .done => 0
def wWorkers (P : Params D F) (ws : List (Worker D F)) : Nat := (ws.map (wWorker P)).sum
def wJob (P : Params D F) : Job D F → Nat
  | .internal ds => 2 + wUnsent P ds
  | .program fs cs => 2 + P.W + 2 * cs.length + wFiles P fs
  | .fail e => (errorFrame e).length
def wJobs (P : Params D F) (js : List (Job D F)) : Nat := (js.map (wJob P)).sum
def wMain (P : Params D F) : Main D → Nat
  | .run => 6 + (timingFrame P).length
  | .sending ds => 7 + (timingFrame P).length + wUnsent P ds
  | .joining => 7 + (timingFrame P).length
  | .closing none => 4 + (timingFrame P).length
  | .closing (some e) => 3 + (errorFrame e).length
  | .waitWriter => 3 + (timingFrame P).length
  | .writeTiming rest _ => 1 + rest.length
  | .writeError rest => 1 + rest.length
  | .exit _ => 0

/-- Termination measure. -/
def mu (P : Params D F) (s : State D F) : Nat :=
  wMain P s.main + wJobs P s.jobs + wWorkers P s.workers + 2 * s.workloads.length + wFiles P s.queue +
    wChan P s.chan + s.buf.length + (if s.writerExited then 0 else 1)

theorem wWorkers_mid (P : Params D F) (pre post : List (Worker D F)) (w : Worker D F) :
    wWorkers P (pre ++ w :: post) = wWorkers P pre + wWorker P w + wWorkers P post := by
  simp [wWorkers]; omega

theorem step_mu {P : Params D F} {s t : State D F} (h : Step P s t) : mu P t < mu P s := by
  cases h with
  | startInternal hm hj => simp [mu, hm, hj, wMain, wJobs, wJob]; omega
  | sendInternal hm hl => simp [mu, hm, wMain, wUnsent, wChan]; omega
  | endInternal hm => simp [mu, hm, wMain, wUnsent]
  | startProgram hm hj =>
    have : wWorkers P (List.replicate P.W (Worker.idle : Worker D F)) = P.W := by
      simp [wWorkers, wWorker]
    simp [mu, hm, hj, wMain, wJobs, wJob, this]; omega
  | join hm hd => simp [mu, hm, wMain, wWorkers, wFiles]; omega
  | fail hm hj => simp [mu, hm, hj, wMain, wJobs, wJob]; omega
  | finish hm hj => simp [mu, hm, hj, wMain]
  | closeErr hm => simp [mu, hm, wMain]
  | closeOk hm => simp [mu, hm, wMain]
  | waited hm he => simp [mu, hm, wMain]
  | @writeTiming a b ok hm hne =>
    have := List.length_pos_iff.2 hne
    simp [mu, hm, wMain]; omega
  | exitOk hm => simp [mu, hm, wMain]
  | @writeError a b hm hne =>
    have := List.length_pos_iff.2 hne
    simp [mu, hm, wMain]; omega
  | exitErr hm => simp [mu, hm, wMain]
  | takeWorkload hw hl => simp [mu, hw, hl, wWorkers_mid, wWorker]; omega
  | noWorkload hw hl => simp [mu, hw, wWorkers_mid, wWorker]
  | takeFile hw hl => simp [mu, hw, hl, wWorkers_mid, wWorker, wFiles]; omega
  | noFile hw hl => simp [mu, hw, wWorkers_mid, wWorker]
  | send hw hl => simp [mu, hw, wWorkers_mid, wWorker, wUnsent, wChan]; omega
  | endFile hw => simp [mu, hw, wWorkers_mid, wWorker, wUnsent]
  | recv hx hw hch => simp [mu, hch, wChan, wd]; omega
  | @flush a b hx hw hb hne =>
    have := List.length_pos_iff.2 hne
    simp [mu, hb]; omega
  | writerExit hx hw hcl hch hb => simp [mu, hw]

theorem run_mu {P : Params D F} {n : Nat} {s t : State D F} (h : Run P n s t) : n + mu P t ≤ mu P s := by
  induction h with
  | zero => omega
  | succ _ hst ih => have := step_mu hst; omega

/-- Progress: a reachable state that has not exited can always make a step. -/
theorem progress {P : Params D F} {J : List (Job D F)} (hJ : ∀ j ∈ J, j.Ok) (hW : 0 < P.W) (hcap : 0 < P.cap)
    {s : State D F} (h : Reachable P J s) (hx : ∀ c, s.main ≠ .exit c) : ∃ t, Step P s t := by
  have hout := out_reachable hJ hW h
  have hctl := ctl_reachable hJ hW h
  -- while the channel is open and full the writer can receive
  have recvIf : s.main.early = true → ¬ s.chan.length < P.cap → ∃ t, Step P s t := by
    intro he hl
    rw [outInv_early he] at hout
    obtain ⟨got, h1, h2, h3, h4⟩ := hout
    cases hch : s.chan with
    | nil => simp [hch] at hl; omega
    | cons d ds =>
      refine ⟨_, Step.recv hx ?_ hch⟩
      cases hw : s.writerExited with
      | false => rfl
      | true => have := h2 hw; simp [this] at hch
  cases hm : s.main with
  | run =>
    cases hj : s.jobs with
    | nil => exact ⟨_, .finish hm hj⟩
    | cons j js =>
      cases j with
      | internal ds => exact ⟨_, .startInternal hm hj⟩
      | program fs cs => exact ⟨_, .startProgram hm hj⟩
      | fail e => exact ⟨_, .fail hm hj⟩
  | sending ds =>
    cases ds with
    | nil => exact ⟨_, .endInternal hm⟩
    | cons d ds =>
      by_cases hl : s.chan.length < P.cap
      · exact ⟨_, .sendInternal hm hl⟩
      · exact recvIf (by simp [hm, Main.early]) hl
  | joining =>
    by_cases hd : ∀ w ∈ s.workers, w = .done
    · exact ⟨_, .join hm hd⟩
    · have : ∃ w ∈ s.workers, w ≠ .done := by
        apply Classical.byContradiction
        intro hn
        apply hd
        intro w hw
        apply Classical.byContradiction
        intro hne
        exact hn ⟨w, hw, hne⟩
      obtain ⟨w, hw, hne⟩ := this
      obtain ⟨pre, post, hw⟩ := List.append_of_mem hw
      cases w with
      | idle =>
        cases hl : s.workloads with
        | nil => exact ⟨_, .noWorkload hw hl⟩
        | cons c cs => exact ⟨_, .takeWorkload hw hl⟩
      | holding c =>
        cases hl : s.queue with
        | nil => exact ⟨_, .noFile hw hl⟩
        | cons f fs => exact ⟨_, .takeFile hw hl⟩
      | linting c f rest =>
        cases rest with
        | nil => exact ⟨_, .endFile hw⟩
        | cons d ds =>
          by_cases hl : s.chan.length < P.cap
          · exact ⟨_, .send hw hl⟩
          · exact recvIf (by simp [hm, Main.early]) hl
      | done => exact absurd rfl hne
  | closing e =>
    cases e with
    | none => exact ⟨_, .closeOk hm⟩
    | some e => exact ⟨_, .closeErr hm⟩
  | waitWriter =>
    cases hw : s.writerExited with
    | true => exact ⟨_, .waited hm hw⟩
    | false =>
      cases hch : s.chan with
      | cons d ds => exact ⟨_, .recv hx hw hch⟩
      | nil =>
        cases hb : s.buf with
        | cons x xs => exact ⟨_, .flush (a := x :: xs) (b := []) hx hw (by simp [hb]) (by simp)⟩
        | nil =>
          simp only [OutInv, hm] at hout
          obtain ⟨got, h1, h2, h3, h4⟩ := hout
          exact ⟨_, .writerExit hx hw h3 hch hb⟩
  | writeTiming rest ok =>
    cases rest with
    | nil => exact ⟨_, .exitOk hm⟩
    | cons x xs => exact ⟨_, .writeTiming (a := x :: xs) (b := []) (by simp [hm]; rfl) (by simp)⟩
  | writeError rest =>
    cases rest with
    | nil => exact ⟨_, .exitErr hm⟩
    | cons x xs => exact ⟨_, .writeError (a := x :: xs) (b := []) (by simp [hm]) (by simp)⟩
  | exit c => exact absurd hm (hx c)

theorem Run.reachable {P : Params D F} {J : List (Job D F)} {n : Nat} {s t : State D F} (h : Run P n s t)
    (hr : Reachable P J s) : Reachable P J t := by
  induction h with
  | zero => exact hr
  | succ _ hst ih => exact .step (ih hr) hst

end Tsgolint.Pipeline
