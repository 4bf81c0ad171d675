import Verif.Proof.EndToEnd
/-! # C49: the whole headless run, from stdin to stdout -/
namespace Tsgolint.Headless
open Tsgolint.Emit Tsgolint.Report
variable {Node : Type}

theorem names_of_lookup (prog : Run.Program) (hf : ∀ n f, prog.getSourceFile n = some f → f.name = n) :
    ∀ (l : List String) (files : List Run.File), l.map prog.getSourceFile = files.map some → files.map (·.name) = l := by
  intro l
  induction l with
  | nil => intro files h; cases files <;> simp_all
  | cons n l ih =>
    intro files h
    cases files with
    | nil => simp at h
    | cons f fs =>
      simp only [List.map_cons, List.cons.injEq] at h ⊢
      exact ⟨hf n f h.1, ih fs h.2⟩

/-- C49: if the process exits with 0, its stdout consists of diagnostic messages for `ds`, then the timing message if asked for, where
* the linted files are exactly those the client asked for (each once), except files of an invalid tsconfig;
* each is linted with the rules of the last request naming it: the rule diagnostics of `ds` are, as a multiset, what these rules report,
  and each file's are in order;
* the other diagnostics of `ds` are, as a multiset, the problems of each invalid tsconfig (each tsconfig once) and the requested
  TypeScript diagnostics of each program.
This holds for every schedule, every map enumeration order and every flush pattern. -/
theorem C49_end_to_end (e : Env Node) (he : e.Ok) (hn : (e.rules.map (·.name)).Nodup) {fx t p s}
    (hs : start e = .go fx t p) (hret : (actions e p).2 = .returned) (hok : ¬ Crashes e p fx)
    (hr : Pipeline.Reachable (pipeline e fx t p) (jobs e p) s) (hx : s.main = .exit 0) :
    ∃ (ds : List AnyDiag) (groups : List (Run.Program × List Run.File)) (configs : List String),
      s.out = Framing.writeAll (Pipeline.messages (fun d => (convert e.valid fx d).bind e.marshal) ds ++
        Pipeline.timingMessages (if t then some e.marshalTimings else none)) ∧
      (∀ d ∈ ds, convert e.valid fx d ≠ none) ∧
      (∀ g ∈ groups, Group e p g.1 g.2) ∧
      ((groups.flatMap (·.2)).map (·.name)).Nodup ∧
      (∀ n, n ∈ (groups.flatMap (·.2)).map (·.name) ↔ Asked p n ∧ Lintable e n) ∧
      (ds.filter AnyDiag.isRule).Perm ((groups.flatMap (·.2)).flatMap (dueDiagnostics e p fx)) ∧
      (∀ f ∈ groups.flatMap (·.2), (dueDiagnostics e p fx f).Sublist ds) ∧
      configs.Nodup ∧ (∀ c, c ∈ configs ↔ c ≠ "" ∧ ∃ n, Asked p n ∧ e.tsconfig n = c) ∧
      (ds.filterMap AnyDiag.asInternal).Perm (configs.flatMap (configProblems e) ++
        groups.flatMap fun g => Run.reportTs e.ts g.1 g.2 ⟨p.reportSyntactic, p.reportSemantic⟩) := by
  have hfiles : ∀ n, n ∈ (Workload.collect p.configs).files ↔ Asked p n := by
    intro n; rw [Workload.C11_requested_files, List.mem_map]; rfl
  have hko := he.order (Workload.collect p.configs).files
  have hbp : ∀ n c, n ∈ (workload e p).programs c ↔ (Asked p n ∧ e.tsconfig n = c ∧ c ≠ "") := by
    intro n c; rw [← hfiles]; exact (Workload.C12_buckets e.sorter e.tsconfig _ _ hko n c).1
  have hbu : ∀ n, n ∈ (workload e p).unmatched ↔ (Asked p n ∧ e.tsconfig n = "") := by
    intro n; rw [← hfiles]; exact (Workload.C12_buckets e.sorter e.tsconfig _ _ hko n "").2
  have hun : (workload e p).unmatched.Nodup := by
    rw [List.nodup_iff_count]
    intro n
    by_cases hm : n ∈ (workload e p).unmatched
    · have h := (hbu n).1 hm
      exact Nat.le_of_eq ((Workload.C12_exactly_once e.sorter e.tsconfig _ _ hko n ((hfiles n).2 h.1)).2 h.2).1
    · rw [List.count_eq_zero_of_not_mem hm]; omega
  obtain ⟨segs, hsegs, hout⟩ := Pipeline.C07_success_output _ _ (jobs_ok e he p) he.workers s hr hx
  have hjobs : jobs e p = (actions e p).1.map (jobOf e) := by unfold jobs; rw [hret]; simp
  obtain ⟨hperm, hsub⟩ := segs_of_actions e p fx _ _ hsegs _ hjobs
  obtain ⟨parts, files, hparts, hlook, hact⟩ := Run.C28_returned _ _ _ _ _ _ hret
  obtain ⟨hpn1, hpn2⟩ := he.programOrder p
  obtain ⟨hnam1, hnam2⟩ := programs_names e _ (workload e p).programs _
    (fun c _ c' _ n h1 h2 => ((hbp n c).1 h1).2.1.symm.trans ((hbp n c').1 h2).2.1) hpn1 parts hparts
  obtain ⟨hint, hgrp⟩ := programs_groups e _ (workload e p).programs _ parts hparts
  have hact' : (actions e p).1 = parts.flatten ++ (Run.reportTs e.ts (e.ts.inferred (workload e p).unmatched) files
      ⟨p.reportSyntactic, p.reportSemantic⟩).map .internal ++ [.lint (e.ts.inferred (workload e p).unmatched) files] := hact
  have hfn : files.map (·.name) = (workload e p).unmatched := by
    exact names_of_lookup _ (fun n f => he.found (workload e p).unmatched n f) _ _ hlook
  have hgroups : groupsOf (actions e p).1 = groupsOf parts.flatten ++ [(e.ts.inferred (workload e p).unmatched, files)] := by
    rw [hact', groupsOf_append, groupsOf_append, groupsOf_internal]; simp [groupsOf]
  have hlin : lintedBy (actions e p).1 = lintedBy parts.flatten ++ files := by
    rw [hact', lintedBy_append, lintedBy_append, lintedBy_internal]; simp [lintedBy]
  have hdue : ∀ f ∈ lintedBy (actions e p).1, fileDiags e p fx f = dueDiagnostics e p fx f := by
    intro f hf
    refine fileDiags_eq e he hn p fx f fun hnone => hok (.inr (.inl ?_))
    rw [lintedBy_eq, List.mem_flatMap] at hf
    obtain ⟨⟨prog, fs⟩, hg, hff⟩ := hf
    rw [groupsOf, List.mem_filterMap] at hg
    obtain ⟨a, ha, hag⟩ := hg
    cases a with
    | internal d => cases hag
    | lint prog' fs' => cases hag; exact ⟨prog, fs, ha, f, hff, hnone⟩
  have hhanded : handed e p fx = (actions e p).1.flatMap (contribution e p fx) := by
    unfold handed; congr 1
  refine ⟨segs.flatten, groupsOf (actions e p).1, e.programOrder p, hout, ?_, ?_, ?_, ?_, ?_, ?_, hpn1, ?_, ?_⟩
  · intro d hd hc
    exact hok (.inr (.inr ⟨d, by rw [hhanded]; exact hperm.mem_iff.1 hd, hc⟩))
  · intro g hg
    rw [hgroups, List.mem_append] at hg
    rcases hg with hg | hg
    · obtain ⟨c, hc, h1, h2, h3, h4⟩ := hgrp g hg
      have hne := (hpn2 c).1 hc
      have hc0 : c ≠ "" := by
        obtain ⟨n, hn⟩ := List.exists_mem_of_ne_nil _ hne
        exact ((hbp n c).1 hn).2.2
      refine .config hc0 h1 h2 h3 fun n => ?_
      rw [h4, hbp]
      exact ⟨fun h => ⟨h.1, h.2.1⟩, fun h => ⟨h.1, h.2, hc0⟩⟩
    · simp only [List.mem_singleton] at hg
      subst hg
      exact .inferred hun hbu hlook
  · rw [← lintedBy_eq, hlin, List.map_append, hfn, List.nodup_append]
    refine ⟨hnam1, hun, ?_⟩
    intro a ha b hb hab
    subst hab
    obtain ⟨c, _, _, hm⟩ := (hnam2 a).1 ha
    have h1 := (hbp a c).1 hm
    have h2 := (hbu a).1 hb
    exact h1.2.2 (h1.2.1 ▸ h2.2)
  · intro n
    rw [← lintedBy_eq, hlin, List.map_append, hfn, List.mem_append, hnam2, hbu]
    constructor
    · rintro (⟨c, _, ⟨prog, hp⟩, hm⟩ | ⟨h1, h2⟩)
      · have h1 := (hbp n c).1 hm
        exact ⟨h1.1, .inr ⟨prog, by rw [h1.2.1]; exact hp⟩⟩
      · exact ⟨h1, .inl h2⟩
    · rintro ⟨h1, h2⟩
      by_cases hc : e.tsconfig n = ""
      · exact .inr ⟨h1, hc⟩
      · rcases h2 with h2 | ⟨prog, hp⟩
        · exact absurd h2 hc
        · have hm := (hbp n (e.tsconfig n)).2 ⟨h1, rfl, hc⟩
          exact .inl ⟨e.tsconfig n, (hpn2 _).2 (List.ne_nil_of_mem hm), ⟨prog, hp⟩, hm⟩
  · rw [← lintedBy_eq]
    have h1 := (hperm.filter AnyDiag.isRule)
    rw [contribution_rules] at h1
    have h2 : (lintedBy (actions e p).1).flatMap (fileDiags e p fx) = (lintedBy (actions e p).1).flatMap (dueDiagnostics e p fx) := by
      rw [List.flatMap_def, List.flatMap_def, List.map_congr_left hdue]
    rwa [h2] at h1
  · intro f hf
    rw [← lintedBy_eq] at hf
    rw [← hdue f hf]
    exact hsub f hf
  · intro c
    rw [hpn2]
    constructor
    · intro h
      obtain ⟨n, hn⟩ := List.exists_mem_of_ne_nil _ h
      have := (hbp n c).1 hn
      exact ⟨this.2.2, n, this.1, this.2.1⟩
    · rintro ⟨hc, n, h1, h2⟩
      exact List.ne_nil_of_mem ((hbp n c).2 ⟨h1, h2, hc⟩)
  · have h1 := hperm.filterMap AnyDiag.asInternal
    rw [contribution_internals] at h1
    refine h1.trans ?_
    rw [hgroups, hact', internalsOf_append, internalsOf_append, internalsOf_internal]
    have : internalsOf [.lint (e.ts.inferred (workload e p).unmatched) files] = [] := rfl
    rw [this, List.append_nil, List.flatMap_append, List.flatMap_singleton, ← List.append_assoc]
    exact hint.append_right _

/-! Non-vacuity of C29 and C49: one file without tsconfig, one rule that reports a range, fixes off. -/

def dedup : List String → List String
  | [] => []
  | a :: l => if a ∈ l then dedup l else a :: dedup l

theorem mem_dedup (l : List String) (x : String) : x ∈ dedup l ↔ x ∈ l := by
  induction l with
  | nil => simp [dedup]
  | cons a l ih => unfold dedup; split <;> simp_all

theorem nodup_dedup (l : List String) : (dedup l).Nodup := by
  induction l with
  | nil => simp [dedup]
  | cons a l ih => unfold dedup; split <;> simp_all [mem_dedup]

def exRule : RuleImpl Unit where
  name := "no-foo"
  run _ := []
  listens _ := [7]
  react _ _ := [.range ⟨3, 5⟩ ⟨"foo", "Do not foo.", ""⟩]

def exProgram : Run.Program where
  diagnostics := []
  files := []
  syntactic _ := []
  semantic _ _ := []
  filterNoEmit l := l
  includeOf _ := []
  getSourceFile n := some ⟨0, n⟩

def exTs : Run.Ts where
  resolve c := c
  fileExists _ := true
  parseDiagnostics _ := []
  configErrors _ := []
  newProgram _ := none
  inferred _ := exProgram
  sortDedup l := l

def exEnv : Env Unit where
  flags := .parsed false false []
  traceFails := false
  cpuProfileFails := false
  getwdFails := false
  stdin := some (some (.obj [("version", .int 2), ("configs", .arr [.obj [("file_paths", .arr [.str "/a.ts"]),
    ("rules", .arr [.obj [("name", .str "no-foo")]])]])]))
  ts := exTs
  contains _ _ := false
  suppress := false
  tsconfig _ := ""
  order := dedup
  programOrder _ := []
  sorter := .ofMergeSort _ (by intro a b c; simp only [Workload.byLength]; omega) (by intro a b; simp only [Workload.byLength]; omega)
  rules := [⟨"no-foo", fun _ => exRule⟩]
  trim _ _ := ⟨0, 0⟩
  events _ := [(7, ())]
  shuffle _ l := l
  valid _ := true
  marshal _ := some [65]
  marshalError _ := some [66]
  marshalTimings := none
  checkers _ := [0]
  workers := 1

def exPayload : Payload.Payload := ⟨2, [⟨["/a.ts"], [⟨"no-foo", none⟩]⟩], [], false, false⟩

theorem exEnv_ok : exEnv.Ok where
  order l := ⟨nodup_dedup l, mem_dedup l⟩
  programOrder p := by
    refine ⟨List.nodup_nil, fun c => ?_⟩
    simp only [exEnv, List.not_mem_nil, false_iff, Decidable.not_not]
    cases h : (workload exEnv p).programs c with
    | nil => exact h
    | cons f fs =>
      have := (Workload.C12_buckets exEnv.sorter exEnv.tsconfig _ _ ⟨nodup_dedup _, mem_dedup _⟩ f c).1.1
        (by show f ∈ (workload exEnv p).programs c; rw [h]; simp)
      exact absurd this.2.1.symm this.2.2
  shuffle _ _ := .refl _
  keys := by simp [exEnv, exRule]
  checkers := by simp [exEnv]
  workers := by decide
  found := by
    intro l n f h
    have h : some (⟨0, n⟩ : Run.File) = some f := h
    cases h; rfl

theorem exEnv_start : start exEnv = .go ⟨false, false⟩ false exPayload := rfl

theorem exEnv_jobs : jobs exEnv exPayload = [.program [⟨0, "/a.ts"⟩] [0]] := rfl

example : exEnv.Ok ∧ (exEnv.rules.map (·.name)).Nodup ∧ start exEnv = .go ⟨false, false⟩ false exPayload ∧
    (actions exEnv exPayload).2 = .returned ∧ ¬ Crashes exEnv exPayload ⟨false, false⟩ ∧
    ∃ s, Pipeline.Reachable (pipeline exEnv ⟨false, false⟩ false exPayload) (jobs exEnv exPayload) s ∧ s.main = .exit 0 ∧
      s.out = [1, 0, 0, 0, 1, 65] ∧ Exits exEnv 0 s.out := by
  have hu : ¬ unknownRule exEnv exPayload := by
    rintro ⟨prog, files, h, f, hf, hnone⟩
    have ha : (actions exEnv exPayload).1 = [.lint exProgram [⟨0, "/a.ts"⟩]] := rfl
    rw [ha, List.mem_singleton] at h
    cases h
    rw [List.mem_singleton] at hf
    subst hf
    have hx : (rulesFor exEnv exPayload ⟨0, "/a.ts"⟩).isSome = true := rfl
    rw [hnone] at hx; cases hx
  have hcv : ∀ d ∈ handed exEnv exPayload ⟨false, false⟩, convert exEnv.valid ⟨false, false⟩ d ≠ none := by
    have : (handed exEnv exPayload ⟨false, false⟩).all (fun d => (convert exEnv.valid ⟨false, false⟩ d).isSome) = true := rfl
    intro d hd hn
    have := List.all_eq_true.1 this d hd
    rw [hn] at this; cases this
  have hret : (actions exEnv exPayload).2 = .returned := rfl
  refine ⟨exEnv_ok, by simp [exEnv], exEnv_start, hret, ?_, ?_⟩
  · rintro (⟨m, h⟩ | h | ⟨d, hd, h⟩)
    · rw [hret] at h; cases h
    · exact hu h
    · exact hcv d hd h
  · have r := Pipeline.Reachable.init (P := pipeline exEnv ⟨false, false⟩ false exPayload) (jobs := jobs exEnv exPayload)
    have r := r.step (Pipeline.Step.startProgram rfl rfl)
    have r := r.step (Pipeline.Step.takeWorkload (pre := []) (post := []) rfl rfl)
    have r := r.step (Pipeline.Step.takeFile (pre := []) (post := []) rfl rfl)
    have r := r.step (Pipeline.Step.send (pre := []) (post := []) rfl (by decide))
    have r := r.step (Pipeline.Step.endFile (pre := []) (post := []) rfl)
    have r := r.step (Pipeline.Step.noFile (pre := []) (post := []) rfl rfl)
    have r := r.step (Pipeline.Step.noWorkload (pre := []) (post := []) rfl rfl)
    have r := r.step (Pipeline.Step.join rfl (by intro w hw; simpa using hw))
    have r := r.step (Pipeline.Step.finish rfl rfl)
    have r := r.step (Pipeline.Step.closeOk rfl)
    have r := r.step (Pipeline.Step.recv (by intro c h; cases h) rfl rfl)
    have r := r.step (Pipeline.Step.flush (a := [1, 0, 0, 0, 1, 65]) (b := []) (by intro c h; cases h) rfl rfl (by decide))
    have r := r.step (Pipeline.Step.writerExit (by intro c h; cases h) rfl rfl rfl rfl)
    have r := r.step (Pipeline.Step.waited rfl rfl)
    have r := r.step (Pipeline.Step.exitOk (ok := true) rfl)
    refine ⟨_, r, rfl, rfl, ?_⟩
    exact .late exEnv_start (fun m h => by rw [hret] at h; cases h) hu (fun _ => hcv) r rfl

end Tsgolint.Headless
