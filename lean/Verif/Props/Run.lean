import Verif.Spec.Run
/-! # C27 (TypeScript diagnostics) and C28 (programs) -/
namespace Tsgolint.Run
open Tsgolint.Emit (Range Internal)

theorem mem_semanticOf {ts : Ts} (h : DedupOk ts) (p : Program) (files : List File) (f : File) (d : Diag) :
    d ∈ semanticOf ts p files f ↔ d ∈ p.filterNoEmit (p.semantic files f) ∨ d ∈ p.includeOf f := by
  unfold semanticOf
  simp only [Bool.and_eq_true, decide_eq_true_eq]
  split
  · rename_i h0
    rw [List.length_eq_zero_iff.1 h0.1, List.length_eq_zero_iff.1 h0.2]; simp
  · split
    · rw [h, List.mem_append]
    · rw [List.mem_append]

/-- C27: an internal diagnostic is reported for a program's files iff it is the rendering of a requested (by its flag) TypeScript
diagnostic of a linted file that is located in that very file; it carries that file's path, the TS code and the text. -/
theorem C27_exactly_requested (ts : Ts) (h : DedupOk ts) (p : Program) (files : List File) (te : TypeErrors) (i : Internal) :
    i ∈ reportTs ts p files te ↔
      ∃ f ∈ files, ∃ d, Requested p files te f d ∧ d.file = some f.name ∧
        i = ⟨d.loc, "TS" ++ toString d.code, d.message, "", some f.name⟩ := by
  have hof : ∀ f ds, i ∈ ofFile f ds ↔ ∃ d ∈ ds, d.file = some f.name ∧ i = ⟨d.loc, "TS" ++ toString d.code, d.message, "", some f.name⟩ := by
    intro f ds
    simp only [ofFile, List.mem_map, List.mem_filter, Bool.and_eq_true, beq_iff_eq, tsDiag]
    constructor
    · rintro ⟨d, ⟨hd, _, hf⟩, rfl⟩; exact ⟨d, hd, hf, rfl⟩
    · rintro ⟨d, hd, hf, rfl⟩; exact ⟨d, ⟨hd, by simp [hf], hf⟩, rfl⟩
  unfold reportTs Requested
  rw [List.mem_append]
  constructor
  · rintro (hi | hi)
    · cases hs : te.syntactic <;> simp only [hs, if_true, Bool.false_eq_true, if_false, List.not_mem_nil, List.mem_flatMap] at hi
      obtain ⟨f, hf, hi⟩ := hi
      obtain ⟨d, hd, hfn, hi⟩ := (hof _ _).1 hi
      exact ⟨f, hf, d, .inl ⟨rfl, hd⟩, hfn, hi⟩
    · cases hs : te.semantic <;> simp only [hs, if_true, Bool.false_eq_true, if_false, List.not_mem_nil, List.mem_flatMap] at hi
      obtain ⟨f, hf, hi⟩ := hi
      obtain ⟨d, hd, hfn, hi⟩ := (hof _ _).1 hi
      exact ⟨f, hf, d, .inr ⟨rfl, (mem_semanticOf h p files f d).1 hd⟩, hfn, hi⟩
  · rintro ⟨f, hf, d, hd | hd, hfn, hi⟩
    · left; rw [if_pos hd.1, List.mem_flatMap]
      exact ⟨f, hf, (hof _ _).2 ⟨d, hd.2, hfn, hi⟩⟩
    · right; rw [if_pos hd.1, List.mem_flatMap]
      exact ⟨f, hf, (hof _ _).2 ⟨d, (mem_semanticOf h p files f d).2 hd.2, hfn, hi⟩⟩

/-- C27: a diagnostic occurring several times among a file's syntactic diagnostics is reported as often, and files do not disturb each
other: with one file appended, its diagnostics are appended. -/
theorem C27_syntactic_per_file (ts : Ts) (p : Program) (files : List File) (f : File) :
    reportTs ts p (files ++ [f]) ⟨true, false⟩ =
      reportTs ts p files ⟨true, false⟩ ++
        ((p.syntactic f).filter fun d => d.file = some f.name).map fun d =>
          ⟨d.loc, "TS" ++ toString d.code, d.message, "", some f.name⟩ := by
  have : ∀ ds : List Diag, (ds.filter fun d => d.file.isSome && d.file == some f.name) = ds.filter fun d => d.file = some f.name := by
    intro ds; apply List.filter_congr; intro d _
    cases hd : d.file with
    | none => simp
    | some n => by_cases hn : n = f.name <;> simp [hn]
  simp [reportTs, ofFile, tsDiag, this]

/-- Non-vacuity of C27: a program whose file 0 has an error of its own and one located elsewhere. -/
def exampleProgram : Program where
  diagnostics := []
  files := [⟨0, "/a.ts"⟩, ⟨1, "/lib.d.ts"⟩, ⟨2, "/b.ts"⟩]
  syntactic f := if f.ptr = 0 then [⟨some "/a.ts", ⟨1, 2⟩, 1005, "';' expected."⟩] else []
  semantic fs f := if f ∈ fs then [⟨some "/lib.d.ts", ⟨0, 9⟩, 2300, "Duplicate"⟩, ⟨some f.name, ⟨4, 5⟩, 2304, "Cannot find name"⟩] else []
  filterNoEmit l := l
  includeOf _ := []
  getSourceFile n := if n = "/u.ts" then some ⟨3, "/u.ts"⟩ else none

def exampleTs : Ts where
  resolve c := c
  fileExists c := c ≠ "/none.json"
  parseDiagnostics c := if c = "/bad.json" then [⟨none, ⟨0, 1⟩, 1, "broken"⟩] else []
  configErrors _ := []
  newProgram _ := some exampleProgram
  inferred _ := exampleProgram
  sortDedup l := l

example : DedupOk exampleTs ∧
    reportTs exampleTs exampleProgram [⟨0, "/a.ts"⟩] ⟨true, true⟩ =
      [⟨⟨1, 2⟩, "TS1005", "';' expected.", "", some "/a.ts"⟩, ⟨⟨4, 5⟩, "TS2304", "Cannot find name", "", some "/a.ts"⟩] ∧
    reportTs exampleTs exampleProgram [⟨0, "/a.ts"⟩] ⟨false, false⟩ = [] :=
  ⟨fun _ _ => Iff.rfl, by decide, by decide⟩

theorem pick_spec (files : List File) : ∀ set : List String,
    (pick files set).1.Sublist files ∧ ((pick files set).1.map (·.name)).Nodup ∧
    (∀ n, n ∈ (pick files set).1.map (·.name) ↔ n ∈ set ∧ ∃ f ∈ files, f.name = n) ∧
    (∀ n, n ∈ (pick files set).2 ↔ n ∈ set ∧ ∀ f ∈ files, f.name ≠ n) := by
  induction files with
  | nil => intro set; simp [pick]
  | cons f fs ih =>
    intro set
    unfold pick
    split
    · rename_i hin
      obtain ⟨a, b, c, d⟩ := ih (set.filter (· ≠ f.name))
      refine ⟨a.cons_cons _, ?_, ?_, ?_⟩
      · rw [List.map_cons, List.nodup_cons]
        refine ⟨fun hm => ?_, b⟩
        have := ((c _).1 hm).1
        simp at this
      · intro n
        rw [List.map_cons, List.mem_cons, c, List.mem_filter]
        by_cases hn : n = f.name
        · subst hn; simp [hin]
        · have hn' : ¬ f.name = n := fun h => hn h.symm
          simp [hn, hn']
      · intro n
        show n ∈ (pick fs (set.filter (· ≠ f.name))).2 ↔ _
        rw [d, List.mem_filter]
        by_cases hn : n = f.name
        · subst hn; simp
        · have hn' : ¬ f.name = n := fun h => hn h.symm
          simp [hn, hn']
    · rename_i hout
      obtain ⟨a, b, c, d⟩ := ih set
      refine ⟨a.cons _, b, ?_, ?_⟩
      · intro n
        rw [c]
        constructor
        · rintro ⟨h1, g, h2, h3⟩; exact ⟨h1, g, by simp [h2], h3⟩
        · rintro ⟨h1, g, h2, h3⟩
          rcases List.mem_cons.1 h2 with rfl | h2
          · exact absurd (h3 ▸ h1) hout
          · exact ⟨h1, g, h2, h3⟩
      · intro n
        rw [d]
        constructor
        · rintro ⟨h1, h2⟩
          refine ⟨h1, ?_⟩
          intro g hg h
          rcases List.mem_cons.1 hg with rfl | hg
          · exact hout (h ▸ h1)
          · exact h2 g hg h
        · rintro ⟨h1, h2⟩; exact ⟨h1, fun g hg => h2 g (by simp [hg])⟩

theorem programs_returned (ts : Ts) (contains : String → String → Bool) (suppress : Bool) (te : TypeErrors)
    (order : List (String × List String)) (h : (programs ts contains suppress te order).2 = .returned) :
    ∃ parts, List.Forall₂ (Handles ts contains suppress te) order parts ∧
      (programs ts contains suppress te order).1 = parts.flatten := by
  induction order with
  | nil => exact ⟨[], .nil, rfl⟩
  | cons e rest ih =>
    obtain ⟨config, paths⟩ := e
    unfold programs at h ⊢
    split at h
    · cases h
    · rename_i ds hc
      obtain ⟨parts, hp, he⟩ := ih h
      refine ⟨ds.map .internal :: parts, .cons (.invalid hc) hp, ?_⟩
      simp [he]
    · rename_i p hc
      obtain ⟨s1, s2, s3, s4⟩ := pick_spec p.files paths
      by_cases hm : (pick p.files paths).2.length > 0
      · simp [hm] at h
      · simp only [hm, if_false] at h
        have hm0 : (pick p.files paths).2 = [] := by
          rw [← List.length_eq_zero_iff]; omega
        obtain ⟨parts, hp, he⟩ := ih h
        refine ⟨onProgram ts te p (pick p.files paths).1 :: parts, .cons (.linted hc ⟨s1, s2, ?_⟩) hp, ?_⟩
        · intro n
          rw [s3]
          refine ⟨fun h => h.1, fun h => ⟨h, ?_⟩⟩
          by_cases hx : ∃ f ∈ p.files, f.name = n
          · exact hx
          · exfalso
            have := (s4 n).2 ⟨h, fun f hf hn => hx ⟨f, hf, hn⟩⟩
            rw [hm0] at this; cases this
        · simp [hm, he]

theorem programs_stops (ts : Ts) (contains : String → String → Bool) (suppress : Bool) (te : TypeErrors)
    (order : List (String × List String)) :
    (programs ts contains suppress te order).2 ≠ .returned ↔ ∃ e ∈ order, Stops ts contains suppress e := by
  induction order with
  | nil => simp [programs]
  | cons e rest ih =>
    obtain ⟨config, paths⟩ := e
    unfold programs
    simp only [List.mem_cons, exists_eq_or_imp]
    cases hc : createProgram ts contains suppress config with
    | error m => simp [Stops, hc]
    | invalid ds =>
      simp only
      rw [ih]; simp [Stops, hc]
    | ok p =>
      simp only
      obtain ⟨s1, s2, s3, s4⟩ := pick_spec p.files paths
      by_cases hm : (pick p.files paths).2.length > 0
      · simp only [hm, if_true, ne_eq, reduceCtorEq, not_false_eq_true, true_iff]
        left; right
        obtain ⟨n, hn⟩ := List.exists_mem_of_length_pos hm
        obtain ⟨h1, h2⟩ := (s4 n).1 hn
        exact ⟨p, hc, n, h1, h2⟩
      · simp only [hm, if_false, ih]
        constructor
        · intro h; exact .inr h
        · rintro (h | h)
          · exfalso
            rcases h with ⟨m, h⟩ | ⟨q, h, f, hf, hq⟩
            · rw [hc] at h; cases h
            · rw [hc] at h; cases h
              have := (s4 f).2 ⟨hf, hq⟩
              exact hm (List.length_pos_of_mem this)
          · exact h

theorem lookups_some {p : Program} {l : List String} {r : List File} (h : lookups p l = some r) :
    l.map p.getSourceFile = r.map some := by
  induction l generalizing r with
  | nil => simp [lookups] at h; subst h; rfl
  | cons f fs ih =>
    unfold lookups at h
    cases hf : p.getSourceFile f with
    | none => rw [hf] at h; cases h
    | some sf =>
      rw [hf] at h
      cases hl : lookups p fs with
      | none => rw [hl] at h; cases h
      | some r' => rw [hl] at h; cases h; simp [hf, ih hl]

theorem lookups_none {p : Program} {l : List String} : lookups p l = none ↔ ∃ f ∈ l, p.getSourceFile f = none := by
  induction l with
  | nil => simp [lookups]
  | cons f fs ih =>
    unfold lookups
    cases hf : p.getSourceFile f with
    | none => simp [hf]
    | some sf => simp [hf, ih]

/-- C28: if `RunLinter` returns normally, then every program of the workload was handled — an invalid one by reporting exactly its
configuration diagnostics and linting nothing, any other one by reporting its TypeScript diagnostics and linting exactly the
requested files, one source file per name —, in that order, and after them the unmatched files were linted in the inferred program,
each found there.  So an invalid program has no influence on the others, and no requested file is dropped silently. -/
theorem C28_returned (ts : Ts) (contains : String → String → Bool) (suppress : Bool) (te : TypeErrors)
    (order : List (String × List String)) (unmatched : List String)
    (h : (runLinter ts contains suppress te order unmatched).2 = .returned) :
    ∃ parts files, List.Forall₂ (Handles ts contains suppress te) order parts ∧
      unmatched.map (ts.inferred unmatched).getSourceFile = files.map some ∧
      (runLinter ts contains suppress te order unmatched).1 =
        parts.flatten ++ (reportTs ts (ts.inferred unmatched) files te).map .internal ++ [.lint (ts.inferred unmatched) files] := by
  unfold runLinter at h ⊢
  cases ha : (programs ts contains suppress te order).2 with
  | returned =>
    simp only [ha] at h ⊢
    obtain ⟨parts, hp, he⟩ := programs_returned ts contains suppress te order ha
    unfold inferred at h ⊢
    cases hl : lookups (ts.inferred unmatched) unmatched with
    | none => simp [hl] at h
    | some files => exact ⟨parts, files, hp, lookups_some hl, by simp [he, onProgram, hl]⟩
  | error m => simp [ha] at h
  | panic m => simp [ha] at h

/-- C28: the run is cut short iff some program cannot be created at all (tsconfig unreadable), or a requested file is not in its
program, or an unmatched file is not in the inferred program; invalid configurations never cut it short. -/
theorem C28_stops_iff (ts : Ts) (contains : String → String → Bool) (suppress : Bool) (te : TypeErrors)
    (order : List (String × List String)) (unmatched : List String) :
    (runLinter ts contains suppress te order unmatched).2 ≠ .returned ↔
      (∃ e ∈ order, Stops ts contains suppress e) ∨ ∃ f ∈ unmatched, (ts.inferred unmatched).getSourceFile f = none := by
  rw [← programs_stops ts contains suppress te order]
  unfold runLinter
  cases ha : (programs ts contains suppress te order).2 with
  | returned =>
    simp only [ne_eq, not_true_eq_false, false_or]
    rw [← lookups_none]
    unfold inferred
    cases hl : lookups (ts.inferred unmatched) unmatched <;> simp [ha, hl]
  | error m => simp [ha]
  | panic m => simp [ha]

/-- C28: the program map is enumerated in an unspecified order; a run that returns normally does so for every order, and does the same
things up to order. -/
theorem C28_order_independent (ts : Ts) (contains : String → String → Bool) (suppress : Bool) (te : TypeErrors)
    (order order' : List (String × List String)) (unmatched : List String) (hp : order.Perm order')
    (h : (runLinter ts contains suppress te order unmatched).2 = .returned) :
    (runLinter ts contains suppress te order' unmatched).2 = .returned ∧
    (runLinter ts contains suppress te order unmatched).1.Perm (runLinter ts contains suppress te order' unmatched).1 := by
  have key : ∀ o : List (String × List String), (∀ e ∈ o, ¬ Stops ts contains suppress e) →
      (programs ts contains suppress te o) = (o.flatMap fun e => (programs ts contains suppress te [e]).1, .returned) := by
    intro o ho
    induction o with
    | nil => rfl
    | cons e rest ih =>
      obtain ⟨config, paths⟩ := e
      have ih := ih fun e he => ho e (by simp [he])
      have hs := ho (config, paths) (by simp)
      rw [List.flatMap_cons]
      conv => lhs; unfold programs
      conv => rhs; lhs; lhs; unfold programs
      cases hc : createProgram ts contains suppress config with
      | error m => exact absurd (.inl ⟨m, hc⟩) hs
      | invalid ds => simp [ih, programs]
      | ok p =>
        simp only
        obtain ⟨s1, s2, s3, s4⟩ := pick_spec p.files paths
        by_cases hm : (pick p.files paths).2.length > 0
        · exfalso
          obtain ⟨n, hn⟩ := List.exists_mem_of_length_pos hm
          obtain ⟨h1, h2⟩ := (s4 n).1 hn
          exact hs (.inr ⟨p, hc, n, h1, h2⟩)
        · simp [hm, ih, programs]
  have hns : ∀ e ∈ order, ¬ Stops ts contains suppress e := by
    intro e he hs
    exact (C28_stops_iff ts contains suppress te order unmatched).2 (.inl ⟨e, he, hs⟩) h
  have h1 := key order hns
  have h2 := key order' fun e he => hns e (hp.mem_iff.2 he)
  unfold runLinter at h ⊢
  rw [h1] at h
  simp only [h1, h2] at h ⊢
  exact ⟨h, (List.Perm.flatMap_right _ hp).append_right _⟩

/-- C28: when is a configuration invalid?  Errors found while parsing always count, other configuration errors and program
diagnostics only unless suppressed. -/
theorem C28_invalid_iff (ts : Ts) (contains : String → String → Bool) (suppress : Bool) (config : String)
    (hex : ts.fileExists (ts.resolve config) = true) (p : Program) (hp : ts.newProgram config = some p) :
    (∃ ds, createProgram ts contains suppress config = .invalid ds) ↔
      ts.parseDiagnostics config ≠ [] ∨ (suppress = false ∧ (ts.configErrors config ≠ [] ∨ p.diagnostics ≠ [])) := by
  unfold createProgram
  rw [hp]
  simp only [hex]
  have hl : ∀ l : List Diag, l ≠ [] ↔ l.length > 0 := by intro l; cases l <;> simp
  rw [hl, hl, hl]
  by_cases h1 : (ts.parseDiagnostics config).length > 0 <;> by_cases h2 : (ts.configErrors config).length > 0 <;>
    by_cases h3 : p.diagnostics.length > 0 <;> cases suppress <;> simp [h1, h2, h3]

/-- C28: and then exactly the diagnostics of one of the three stages are reported, each once, as a `tsconfig-error` carrying the text
and range and the diagnostic's own file if it has one, otherwise the tsconfig path. -/
theorem C28_invalid_diagnostics (ts : Ts) (contains : String → String → Bool) (suppress : Bool) (config : String) (ds : List Internal)
    (h : createProgram ts contains suppress config = .invalid ds) :
    ∃ src : List Diag, (src = ts.parseDiagnostics config ∨ src = ts.configErrors config ∨
        ∃ p, ts.newProgram config = some p ∧ src = p.diagnostics) ∧ src ≠ [] ∧ ds.length = src.length ∧
      ∀ i (h1 : i < ds.length) (h2 : i < src.length), ds[i].id = "tsconfig-error" ∧ ds[i].range = src[i].loc ∧
        ((src[i].file = none ∨ src[i].file = some "") → ds[i].filePath = some (ts.resolve config)) ∧
        (∀ f, src[i].file = some f → f ≠ "" → ds[i].filePath = some f) ∧
        (ds[i].help = src[i].message ∨ ∃ note, ds[i].help = src[i].message ++ note) := by
  have hmain : ∀ (help : String → String), (∀ m, help m = m ∨ ∃ note, help m = m ++ note) → ∀ src : List Diag,
      ds = src.map (configDiag (ts.resolve config) help) → ds.length = src.length ∧
      ∀ i (h1 : i < ds.length) (h2 : i < src.length), ds[i].id = "tsconfig-error" ∧ ds[i].range = src[i].loc ∧
        ((src[i].file = none ∨ src[i].file = some "") → ds[i].filePath = some (ts.resolve config)) ∧
        (∀ f, src[i].file = some f → f ≠ "" → ds[i].filePath = some f) ∧
        (ds[i].help = src[i].message ∨ ∃ note, ds[i].help = src[i].message ++ note) := by
    intro help hh src hds
    subst hds
    refine ⟨by simp, ?_⟩
    intro i h1 h2
    simp only [List.getElem_map, configDiag]
    refine ⟨trivial, trivial, ?_, ?_, hh _⟩
    · rintro (hf | hf) <;> simp [hf]
    · intro f hf hne; simp [hf, hne]
  have hl : ∀ l : List Diag, l.length > 0 → l ≠ [] := by intro l; cases l <;> simp
  unfold createProgram at h
  simp only at h
  split at h
  · cases h
  · split at h
    · rename_i hpos
      cases h
      exact ⟨_, .inl rfl, hl _ hpos, hmain id (fun m => .inl rfl) _ rfl⟩
    · split at h
      · rename_i hpos
        cases h
        simp only [Bool.and_eq_true, decide_eq_true_eq] at hpos
        exact ⟨_, .inr (.inl rfl), hl _ hpos.1, hmain id (fun m => .inl rfl) _ rfl⟩
      · split at h
        · cases h
        · rename_i p hp
          split at h
          · rename_i hpos
            cases h
            simp only [Bool.and_eq_true, decide_eq_true_eq] at hpos
            refine ⟨_, .inr (.inr ⟨p, hp, rfl⟩), hl _ hpos.1, hmain _ ?_ _ rfl⟩
            intro m; unfold enhance
            by_cases hcn : contains m "Please remove it from your configuration." = true
            · right; rw [if_pos hcn, String.append_assoc]; exact ⟨_, rfl⟩
            · left; rw [if_neg hcn]
          · cases h

/-- Non-vacuity of C28: an invalid program between two good ones, an unmatched file; and a missing file. -/
example : (runLinter exampleTs (fun _ _ => false) false ⟨false, false⟩
      [("/ok.json", ["/b.ts", "/a.ts"]), ("/bad.json", ["/x.ts"])] ["/u.ts"]).2 = .returned ∧
    (runLinter exampleTs (fun _ _ => false) false ⟨false, false⟩ [("/ok.json", ["/b.ts", "/c.ts"])] []).2 = .panic ["/c.ts"] ∧
    (runLinter exampleTs (fun _ _ => false) false ⟨false, false⟩ [("/none.json", ["/b.ts"])] []).2 =
      .error "couldn't read tsconfig at /none.json" ∧
    (runLinter exampleTs (fun _ _ => false) false ⟨false, false⟩
      [("/ok.json", ["/b.ts", "/a.ts"]), ("/bad.json", ["/x.ts"])] ["/u.ts"]).1.map
        (fun | .internal d => [d.help] | .lint _ fs => fs.map (·.name)) = [["/a.ts", "/b.ts"], ["broken"], ["/u.ts"]] := by
  refine ⟨by rfl, by rfl, by rfl, by rfl⟩

end Tsgolint.Run
