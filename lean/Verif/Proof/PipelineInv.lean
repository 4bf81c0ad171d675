import Verif.Proof.Pipeline
namespace Tsgolint.Pipeline
open Framing
variable {D F : Type}

/-- Control invariant, with completed jobs existentially. -/
def CtlInv (P : Params D F) (J : List (Job D F)) (s : State D F) : Prop :=
  ∃ dn, SegsOk P.diags dn s.segs ∧ Ctl P J dn s

theorem joining_of_worker {P : Params D F} {J dn : List (Job D F)} {s : State D F} (h : Ctl P J dn s)
    {pre post : List (Worker D F)} {w : Worker D F} (hw : s.workers = pre ++ w :: post) : s.main = .joining := by
  unfold Ctl at h
  have hne : s.workers ≠ [] := by simp [hw]
  split at h <;> simp_all [NoPool]

theorem ctl_step {P : Params D F} {J : List (Job D F)} (hJ : ∀ j ∈ J, j.Ok) (hW : 0 < P.W) {s t : State D F}
    (h : CtlInv P J s) (hst : Step P s t) : CtlInv P J t := by
  obtain ⟨dn, hs, hc⟩ := h
  cases hst with
  | startInternal hm hj =>
    simp only [Ctl, hm] at hc
    refine ⟨dn, hs, ?_⟩
    simp only [Ctl]
    exact ⟨_, by rw [hc.1, hj], by simp [hc.2.2.1], hc.2.1, hc.2.2.2⟩
  | sendInternal hm hl =>
    simp only [Ctl, hm] at hc
    obtain ⟨all, h1, h2, h3, h4⟩ := hc
    refine ⟨dn, hs, ?_⟩
    simp only [Ctl]
    exact ⟨all, h1, by simp [h2], h3, h4⟩
  | endInternal hm =>
    simp only [Ctl, hm] at hc
    obtain ⟨all, h1, h2, h3, h4⟩ := hc
    refine ⟨dn ++ [.internal all], hs.snoc (by simp [SegOk, h2]), ?_⟩
    simp only [Ctl]
    exact ⟨by simp [h1], h3, trivial, by simpa [Job.files] using h4⟩
  | @startProgram fs cs js hm hj =>
    simp only [Ctl, hm] at hc
    obtain ⟨h1, h2, h3, h4⟩ := hc
    refine ⟨dn, hs, ?_⟩
    simp only [Ctl]
    refine ⟨fs, cs, by rw [h1, hj], ?_⟩
    have hok := hJ (.program fs cs) (by rw [h1, hj]; simp)
    exact pool_start P fs _ cs _ _ hok h3 h4
  | join hm hd =>
    simp only [Ctl, hm] at hc
    obtain ⟨fs, cs, h1, h2⟩ := hc
    obtain ⟨j1, j2, j3, j4, j5⟩ := pool_join hW h2 hd
    refine ⟨dn ++ [.program fs cs], hs.snoc (j := .program fs cs) ⟨j3, j4⟩, ?_⟩
    simp only [Ctl]
    exact ⟨by simp [h1], ⟨rfl, rfl, rfl⟩, trivial, by simpa [Job.files] using j5⟩
  | fail hm hj =>
    simp only [Ctl, hm] at hc
    refine ⟨dn, hs, ?_⟩
    simp only [Ctl]
    exact ⟨⟨_, by rw [hc.1, hj]⟩, hc.2⟩
  | finish hm hj =>
    simp only [Ctl, hm] at hc
    refine ⟨dn, hs, ?_⟩
    simp only [Ctl]
    exact ⟨by rw [hc.1, hj]; simp, hc.2⟩
  | closeErr hm =>
    simp only [Ctl, hm] at hc
    refine ⟨dn, hs, ?_⟩
    simp only [Ctl]
    exact ⟨⟨_, hc.1⟩, hc.2⟩
  | closeOk hm =>
    simp only [Ctl, hm] at hc
    exact ⟨dn, hs, by simp only [Ctl]; exact hc⟩
  | waited hm _ =>
    simp only [Ctl, hm] at hc
    exact ⟨dn, hs, by simp only [Ctl]; exact hc⟩
  | writeTiming hm _ =>
    simp only [Ctl, hm] at hc
    exact ⟨dn, hs, by simp only [Ctl]; exact hc⟩
  | exitOk hm =>
    simp only [Ctl, hm] at hc
    exact ⟨dn, hs, by simp only [Ctl]; exact ⟨Or.inl hc.1, hc.2⟩⟩
  | writeError hm _ =>
    simp only [Ctl, hm] at hc
    exact ⟨dn, hs, by simp only [Ctl]; exact hc⟩
  | exitErr hm =>
    simp only [Ctl, hm] at hc
    exact ⟨dn, hs, by simp only [Ctl]; exact ⟨Or.inr ⟨trivial, hc.1⟩, hc.2⟩⟩
  | takeWorkload hw hl =>
    have hm := joining_of_worker hc hw
    simp only [Ctl, hm] at hc
    obtain ⟨fs, cs, h1, h2⟩ := hc
    exact ⟨dn, hs, by simp only [Ctl, hm]; exact ⟨fs, cs, h1, (pool_takeWorkload h2 hw hl).congr rfl rfl rfl rfl rfl⟩⟩
  | noWorkload hw hl =>
    have hm := joining_of_worker hc hw
    simp only [Ctl, hm] at hc
    obtain ⟨fs, cs, h1, h2⟩ := hc
    exact ⟨dn, hs, by simp only [Ctl, hm]; exact ⟨fs, cs, h1, (pool_noWorkload h2 hw hl).congr rfl rfl rfl rfl rfl⟩⟩
  | takeFile hw hl =>
    have hm := joining_of_worker hc hw
    simp only [Ctl, hm] at hc
    obtain ⟨fs, cs, h1, h2⟩ := hc
    exact ⟨dn, hs, by simp only [Ctl, hm]; exact ⟨fs, cs, h1, (pool_takeFile h2 hw hl).congr rfl rfl rfl rfl rfl⟩⟩
  | noFile hw hl =>
    have hm := joining_of_worker hc hw
    simp only [Ctl, hm] at hc
    obtain ⟨fs, cs, h1, h2⟩ := hc
    exact ⟨dn, hs, by simp only [Ctl, hm]; exact ⟨fs, cs, h1, (pool_noFile h2 hw hl).congr rfl rfl rfl rfl rfl⟩⟩
  | send hw _ =>
    have hm := joining_of_worker hc hw
    simp only [Ctl, hm] at hc
    obtain ⟨fs, cs, h1, h2⟩ := hc
    exact ⟨dn, hs, by simp only [Ctl, hm]; exact ⟨fs, cs, h1, (pool_send h2 hw).congr rfl rfl rfl rfl rfl⟩⟩
  | endFile hw =>
    have hm := joining_of_worker hc hw
    simp only [Ctl, hm] at hc
    obtain ⟨fs, cs, h1, h2⟩ := hc
    exact ⟨dn, hs, by simp only [Ctl, hm]; exact ⟨fs, cs, h1, (pool_endFile h2 hw).congr rfl rfl rfl rfl rfl⟩⟩
  | recv _ _ _ =>
    refine ⟨dn, hs, ?_⟩
    simp only [Ctl] at hc ⊢
    split at hc <;> simp_all only [NoPool]
    all_goals first
      | exact hc
      | (obtain ⟨fs, cs, h1, h2⟩ := hc; exact ⟨fs, cs, h1, h2.congr rfl rfl rfl rfl rfl⟩)
      | simp_all
  | flush _ _ _ _ =>
    refine ⟨dn, hs, ?_⟩
    simp only [Ctl] at hc ⊢
    split at hc <;> simp_all only [NoPool]
    all_goals first
      | exact hc
      | (obtain ⟨fs, cs, h1, h2⟩ := hc; exact ⟨fs, cs, h1, h2.congr rfl rfl rfl rfl rfl⟩)
      | simp_all
  | writerExit _ _ _ _ _ =>
    refine ⟨dn, hs, ?_⟩
    simp only [Ctl] at hc ⊢
    split at hc <;> simp_all only [NoPool]
    all_goals first
      | exact hc
      | (obtain ⟨fs, cs, h1, h2⟩ := hc; exact ⟨fs, cs, h1, h2.congr rfl rfl rfl rfl rfl⟩)
      | simp_all

theorem ctl_init (P : Params D F) (J : List (Job D F)) : CtlInv P J (init J) :=
  ⟨[], .nil, by simp [Ctl, init, NoPool]⟩

theorem ctl_reachable {P : Params D F} {J : List (Job D F)} (hJ : ∀ j ∈ J, j.Ok) (hW : 0 < P.W) {s : State D F}
    (h : Reachable P J s) : CtlInv P J s := by
  induction h with
  | init => exact ctl_init P J
  | step _ hst ih => exact ctl_step hJ hW ih hst

/-- Bytes of all frames of a list of diagnostics. -/
def framesOf (P : Params D F) (ds : List D) : Bytes := ds.flatMap (diagFrame P)

/-- The first failing job is `fail e` and exactly the jobs before it have been completed. -/
def FailedWith (P : Params D F) (J : List (Job D F)) (segs : List (List D)) (e : Option Bytes) : Prop :=
  ∃ dn js, J = dn ++ .fail e :: js ∧ SegsOk P.diags dn segs

/-- Output invariant: `got` are the diagnostics received by the writer. -/
def OutInv (P : Params D F) (J : List (Job D F)) (s : State D F) : Prop :=
  ∃ got, s.sent = got ++ s.chan ∧
    (s.writerExited = true → s.chan = [] ∧ s.buf = [] ∧ s.closed = true) ∧
    match s.main with
    | .waitWriter => s.closed = true ∧ s.out ++ s.buf = framesOf P got
    | .writeTiming rest ok => s.writerExited = true ∧ ok = timingOk P ∧ s.out ++ rest = framesOf P got ++ timingFrame P ∧
        SegsOk P.diags J s.segs
    | .writeError rest => s.closed = true ∧ ∃ a b e, Interleaving a b s.out ∧ a ++ s.buf = framesOf P got ∧
        b ++ rest = errorFrame e ∧ FailedWith P J s.segs e
    | .exit c => (s.writerExited = true ∧ s.out = framesOf P got ++ timingFrame P ∧ (c = if timingOk P then 0 else 1) ∧
        SegsOk P.diags J s.segs) ∨
        (c = 1 ∧ ∃ a b e, Interleaving a b s.out ∧ a ++ s.buf = framesOf P got ∧ b = errorFrame e ∧ FailedWith P J s.segs e)
    | _ => s.closed = false ∧ s.out ++ s.buf = framesOf P got

theorem Interleaving.left_list {α : Type} {a b c : List α} (h : Interleaving a b c) (xs : List α) :
    Interleaving (a ++ xs) b (c ++ xs) := by
  induction xs generalizing a c with
  | nil => simpa using h
  | cons x xs ih => simpa using ih (h.left (x := x))

theorem Interleaving.right_list {α : Type} {a b c : List α} (h : Interleaving a b c) (xs : List α) :
    Interleaving a (b ++ xs) (c ++ xs) := by
  induction xs generalizing b c with
  | nil => simpa using h
  | cons x xs ih => simpa using ih (h.right (x := x))

theorem Interleaving.left_only {α : Type} (a : List α) : Interleaving a [] a := by
  simpa using (Interleaving.nil (α := α)).left_list a

theorem framesOf_append (P : Params D F) (a b : List D) : framesOf P (a ++ b) = framesOf P a ++ framesOf P b := by
  simp [framesOf]

/-- Steps that only move `main` among phases before the channel is closed, or only touch the pool, keep the output invariant. -/
theorem out_same {P : Params D F} {J : List (Job D F)} {s t : State D F} (h : OutInv P J s)
    (e1 : t.sent = s.sent) (e2 : t.chan = s.chan) (e3 : t.buf = s.buf) (e4 : t.out = s.out) (e5 : t.closed = s.closed)
    (e6 : t.writerExited = s.writerExited)
    (e7 : t.segs = s.segs)
    (hm : t.main = s.main) : OutInv P J t := by
  unfold OutInv at h ⊢
  rw [e1, e2, e3, e4, e5, e6, e7, hm]
  exact h

/-- The phases before the channel is closed. -/
def Main.early : Main D → Bool
  | .run => true
  | .sending _ => true
  | .joining => true
  | .closing _ => true
  | _ => false

theorem outInv_early {P : Params D F} {J : List (Job D F)} {s : State D F} (he : s.main.early = true) :
    OutInv P J s ↔ ∃ got, s.sent = got ++ s.chan ∧ (s.writerExited = true → s.chan = [] ∧ s.buf = [] ∧ s.closed = true) ∧
      s.closed = false ∧ s.out ++ s.buf = framesOf P got := by
  unfold OutInv
  cases h : s.main <;> simp_all [Main.early]

theorem out_step {P : Params D F} {J : List (Job D F)} {s t : State D F}
    (hc : CtlInv P J s) (h : OutInv P J s) (hst : Step P s t) : OutInv P J t := by
  cases hst with
  | startInternal hm hj =>
    rw [outInv_early (by simp [hm, Main.early])] at h
    rw [outInv_early (by simp [Main.early])]
    simpa [State.sent] using h
  | sendInternal hm hl =>
    rw [outInv_early (by simp [hm, Main.early])] at h
    rw [outInv_early (by simp [Main.early])]
    obtain ⟨got, h1, h2, h3, h4⟩ := h
    refine ⟨got, ?_, ?_, h3, h4⟩
    · simp only [State.sent] at h1 ⊢; rw [← List.append_assoc, h1]; simp
    · intro hx; have := h2 hx; simp_all
  | endInternal hm =>
    rw [outInv_early (by simp [hm, Main.early])] at h
    rw [outInv_early (by simp [Main.early])]
    simpa [State.sent] using h
  | startProgram hm hj =>
    rw [outInv_early (by simp [hm, Main.early])] at h
    rw [outInv_early (by simp [Main.early])]
    simpa [State.sent] using h
  | join hm hd =>
    rw [outInv_early (by simp [hm, Main.early])] at h
    rw [outInv_early (by simp [Main.early])]
    simpa [State.sent] using h
  | fail hm hj =>
    rw [outInv_early (by simp [hm, Main.early])] at h
    rw [outInv_early (by simp [Main.early])]
    simpa [State.sent] using h
  | finish hm hj =>
    rw [outInv_early (by simp [hm, Main.early])] at h
    rw [outInv_early (by simp [Main.early])]
    simpa [State.sent] using h
  | @closeErr e hm =>
    rw [outInv_early (by simp [hm, Main.early])] at h
    obtain ⟨got, h1, h2, h3, h4⟩ := h
    refine ⟨got, h1, ?_, ?_⟩
    · intro hx; have := h2 hx; simp_all
    · obtain ⟨dn, hs, hc⟩ := hc
      simp only [Ctl, hm] at hc
      obtain ⟨js, hjs⟩ := hc.1
      exact ⟨rfl, s.out, [], e, Interleaving.left_only _, h4, by simp, dn, js, hjs, hs⟩
  | closeOk hm =>
    rw [outInv_early (by simp [hm, Main.early])] at h
    obtain ⟨got, h1, h2, h3, h4⟩ := h
    refine ⟨got, h1, ?_, ?_⟩
    · intro hx; have := h2 hx; simp_all
    · exact ⟨rfl, h4⟩
  | waited hm he =>
    simp only [OutInv, hm] at h
    obtain ⟨got, h1, h2, h3, h4⟩ := h
    obtain ⟨dn, hs, hc⟩ := hc
    simp only [Ctl, hm] at hc
    refine ⟨got, h1, h2, he, rfl, ?_, by rw [hc.1]; exact hs⟩
    have := h2 he
    simp only
    rw [← h4, this.2.1]; simp
  | @writeTiming a b ok hm hne =>
    simp only [OutInv, hm] at h
    obtain ⟨got, h1, h2, h3, h4, h5, h6⟩ := h
    exact ⟨got, h1, h2, h3, h4, by simp only; rw [← h5]; simp, h6⟩
  | exitOk hm =>
    simp only [OutInv, hm] at h
    obtain ⟨got, h1, h2, h3, h4, h5, h6⟩ := h
    refine ⟨got, h1, h2, Or.inl ⟨h3, ?_, by rw [h4], h6⟩⟩
    simpa using h5
  | @writeError a b hm hne =>
    simp only [OutInv, hm] at h
    obtain ⟨got, h1, h2, h3, x, y, e, h4, h5, h6, h7⟩ := h
    refine ⟨got, h1, h2, h3, x, y ++ a, e, h4.right_list a, h5, ?_, h7⟩
    rw [← h6]; simp
  | exitErr hm =>
    simp only [OutInv, hm] at h
    obtain ⟨got, h1, h2, h3, x, y, e, h4, h5, h6, h7⟩ := h
    exact ⟨got, h1, h2, Or.inr ⟨rfl, x, y, e, h4, h5, by simpa using h6, h7⟩⟩
  | takeWorkload hw hl => exact out_same h rfl rfl rfl rfl rfl rfl rfl rfl
  | noWorkload hw hl => exact out_same h rfl rfl rfl rfl rfl rfl rfl rfl
  | takeFile hw hl => exact out_same h rfl rfl rfl rfl rfl rfl rfl rfl
  | noFile hw hl => exact out_same h rfl rfl rfl rfl rfl rfl rfl rfl
  | endFile hw => exact out_same h rfl rfl rfl rfl rfl rfl rfl rfl
  | send hw hl =>
    obtain ⟨dn, _, hc⟩ := hc
    have hm := joining_of_worker hc hw
    rw [outInv_early (by simp [hm, Main.early])] at h
    rw [outInv_early (by simp [hm, Main.early])]
    obtain ⟨got, h1, h2, h3, h4⟩ := h
    refine ⟨got, ?_, ?_, h3, h4⟩
    · simp only [State.sent] at h1 ⊢; rw [← List.append_assoc, h1]; simp
    · intro hx; have := h2 hx; simp_all
  | @recv d ds hx hw hch =>
    obtain ⟨got, h1, h2, h3⟩ := h
    refine ⟨got ++ [d], by simp only [State.sent] at h1 ⊢; rw [h1, hch]; simp, by simp [hw], ?_⟩
    have hf : framesOf P (got ++ [d]) = framesOf P got ++ diagFrame P d := by simp [framesOf]
    rw [hf]
    simp only
    split at h3
    · exact ⟨h3.1, by rw [← h3.2]; simp⟩
    · simp_all
    · obtain ⟨g1, a, b, e, g2, g3, g4⟩ := h3
      exact ⟨g1, a, b, e, g2, by rw [← g3]; simp, g4⟩
    · simp_all
    · exact ⟨h3.1, by rw [← h3.2]; simp⟩
  | @flush a b hx hw hb hne =>
    obtain ⟨got, h1, h2, h3⟩ := h
    refine ⟨got, h1, by simp [hw], ?_⟩
    simp only
    split at h3
    · exact ⟨h3.1, by rw [← h3.2, hb]; simp⟩
    · simp_all
    · obtain ⟨g1, x, y, e, g2, g3, g4⟩ := h3
      exact ⟨g1, x ++ a, y, e, g2.left_list a, by rw [← g3, hb]; simp, g4⟩
    · simp_all
    · exact ⟨h3.1, by rw [← h3.2, hb]; simp⟩
  | writerExit hx hw hcl hch hb =>
    obtain ⟨got, h1, h2, h3⟩ := h
    refine ⟨got, h1, fun _ => ⟨hch, hb, hcl⟩, ?_⟩
    simp only
    split at h3
    · exact h3
    · simp_all
    · exact h3
    · simp_all
    · exact h3

theorem out_reachable {P : Params D F} {J : List (Job D F)} (hJ : ∀ j ∈ J, j.Ok) (hW : 0 < P.W) {s : State D F}
    (h : Reachable P J s) : OutInv P J s := by
  induction h with
  | init => exact ⟨[], by simp [init, State.sent], by simp [init], by simp [init, framesOf]⟩
  | step hr hst ih => exact out_step (ctl_reachable hJ hW hr) ih hst

theorem framesOf_eq (P : Params D F) (ds : List D) : framesOf P ds = writeAll (messages P.enc ds) := by
  induction ds with
  | nil => simp [framesOf, messages, writeAll]
  | cons d ds ih =>
    simp only [framesOf, List.flatMap_cons] at ih ⊢
    rw [ih]
    simp only [messages, diagFrame]
    cases h : P.enc d with
    | none => simp [h, writeMessage]
    | some p => simp [h, writeAll]

theorem timingFrame_eq (P : Params D F) : timingFrame P = writeAll (timingMessages P.timing) := by
  unfold timingFrame timingMessages
  cases h : P.timing with
  | none => simp [writeAll]
  | some m => cases m <;> simp [writeAll, writeMessage]

end Tsgolint.Pipeline
