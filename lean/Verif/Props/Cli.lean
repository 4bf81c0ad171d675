import Verif.Model.Cli
import Verif.Model.RuleNames
import Verif.Props.Workload
/-!
# C109: the command line
-/
namespace Tsgolint.Cli

/-! ### Which files -/

theorem hasPrefix_iff : ∀ (p t : Text), hasPrefix p t = true ↔ ∃ rest, t = p ++ rest
  | [], t => by simp [hasPrefix]
  | _ :: _, [] => by simp [hasPrefix]
  | p :: ps, c :: cs => by
    simp only [hasPrefix, Bool.and_eq_true, beq_iff_eq, hasPrefix_iff ps cs, List.cons_append, List.cons.injEq]
    constructor
    · rintro ⟨rfl, rest, rfl⟩; exact ⟨rest, rfl, rfl⟩
    · rintro ⟨rest, rfl, rfl⟩; exact ⟨rfl, rest, rfl⟩

theorem contains_iff (word : Text) : ∀ t : Text, contains word t = true ↔ ∃ a b, t = a ++ word ++ b
  | [] => by
    rw [contains, hasPrefix_iff]
    constructor
    · rintro ⟨rest, h⟩; exact ⟨[], rest, by simpa using h⟩
    · rintro ⟨a, b, h⟩
      have h := h.symm
      simp only [List.append_eq_nil_iff] at h
      exact ⟨[], by simp [h.1.2]⟩
  | c :: cs => by
    rw [contains, Bool.or_eq_true, hasPrefix_iff, contains_iff word cs]
    constructor
    · rintro (⟨rest, h⟩ | ⟨a, b, rfl⟩)
      · exact ⟨[], rest, by simpa using h⟩
      · exact ⟨c :: a, b, rfl⟩
    · rintro ⟨a, b, h⟩
      cases a with
      | nil => exact .inl ⟨b, by simpa using h⟩
      | cons x xs =>
        simp only [List.cons_append, List.cons.injEq] at h
        exact .inr ⟨xs, b, h.2⟩

/-- **C109** A file is linted exactly if it is in the directory of the configuration file and no directory on its path is called `node_modules` -/
theorem selected_iff (cwd : Text) (s : Source) : selected cwd s = true ↔
    (∃ name, s.path = cwd ++ name) ∧ ¬ ∃ a b, s.path = a ++ "/node_modules/".toList ++ b := by
  unfold selected
  rw [Bool.and_eq_true, Bool.not_eq_true', ← Bool.not_eq_true, contains_iff, hasPrefix_iff, and_comm]
  rfl

/-- **C109** A project that is itself in a directory `node_modules` has no files to lint -/
theorem inside_node_modules (a b : Text) (files : List Source) : select (a ++ "/node_modules/".toList ++ b) files = [] := by
  rw [select, List.filter_eq_nil_iff]
  intro s _ h
  obtain ⟨⟨name, hn⟩, hno⟩ := (selected_iff _ _).1 h
  exact hno ⟨a, b ++ name, by rw [hn]; simp [List.append_assoc]⟩

/-- **C109** `--list-files` prints a line for each file to lint, with its path from the directory on -/
theorem listing_line (cwd : Text) (s : Source) (files : List Source) (name : Text) (h : s.path = cwd ++ name) :
    listing cwd (s :: files) = (if selected cwd s then "Found file: ".toList ++ name ++ ['\n'] else []) ++ listing cwd files := by
  unfold listing select
  rw [List.filter_cons]
  split
  · simp [h]
  · simp

/-! ### The run -/

variable {D : Type}

/-- **C109** Without `--tsconfig` the file `tsconfig.json` of the current directory is taken, an empty one if there is none; with it, the file must exist -/
theorem config_iff (E : Env D) (cwd tsconfig file : String) (empty : Bool) : config E cwd tsconfig = some (file, empty) ↔
    (tsconfig = "" ∧ file = E.resolve cwd "tsconfig.json" ∧ (empty = true ↔ ¬ E.exists_ file = true)) ∨
    (tsconfig ≠ "" ∧ file = E.resolve cwd tsconfig ∧ E.exists_ file = true ∧ empty = false) := by
  unfold config
  by_cases h : tsconfig = ""
  · simp only [h, if_true, Option.some.injEq, Prod.mk.injEq, true_and, ne_eq, not_true_eq_false, false_and, or_false]
    constructor
    · rintro ⟨rfl, rfl⟩; simp
    · rintro ⟨rfl, he⟩
      refine ⟨rfl, ?_⟩
      cases hx : E.exists_ (E.resolve cwd "tsconfig.json") <;> cases empty <;> simp_all
  · simp only [h, if_false, ne_eq, not_false_eq_true, true_and, false_and, false_or]
    cases hx : E.exists_ (E.resolve cwd tsconfig) with
    | false => simp; rintro rfl hc; simp [hx] at hc
    | true =>
      simp only [if_true, Option.some.injEq, Prod.mk.injEq]
      constructor
      · rintro ⟨rfl, rfl⟩; exact ⟨rfl, hx, rfl⟩
      · rintro ⟨rfl, -, rfl⟩; exact ⟨rfl, rfl⟩

/-- The options were understood, nothing failed, and there is a program for the configuration `file` -/
def Ready (E : Env D) (listFiles timings : Bool) (directory : Text) (sources : List Source) : Prop :=
  ∃ tsconfig debug single cwd file empty, E.flags = .parsed false tsconfig listFiles debug single ∧
    Headless.parseDebugTimings debug = some timings ∧ E.traceFails = false ∧ E.profileFails = false ∧
    E.cwd = some cwd ∧ config E cwd tsconfig = some (file, empty) ∧ E.program file empty = some sources ∧ directory = E.directory file

theorem run_cases (E : Env D) :
    (E.flags = .bad ∧ run E = .early 2) ∨ ((∃ t l d s, E.flags = .parsed true t l d s) ∧ run E = .early 0) ∨
    (∃ listFiles timings directory sources, Ready E listFiles timings directory sources ∧
      run E = match E.lint (E.sorter.sort (select directory sources)) with
        | .failed => .lintFailed (if listFiles then some (listing directory sources) else none)
        | .done ds => .finished (E.sorter.sort (select directory sources)) (if listFiles then some (listing directory sources) else none) ds timings) ∨
    (E.flags ≠ .bad ∧ (¬ ∃ t l d s, E.flags = .parsed true t l d s) ∧ (¬ ∃ listFiles timings directory sources, Ready E listFiles timings directory sources) ∧ run E = .early 1) := by
  unfold run
  cases hf : E.flags with
  | bad => simp
  | parsed help tsconfig listFiles debug single =>
    right
    cases help with
    | true => simp
    | false =>
      right
      simp only [Bool.false_eq_true, if_false]
      have hnot : ¬ ∃ t l d s, (Flags.parsed false tsconfig listFiles debug single) = Flags.parsed true t l d s := by rintro ⟨t, l, d, s, h⟩; simp at h
      have unready : (∀ timings cwd file empty sources, Headless.parseDebugTimings debug = some timings → E.traceFails = false → E.profileFails = false →
          E.cwd = some cwd → config E cwd tsconfig = some (file, empty) → E.program file empty = some sources → False) →
          ¬ ∃ listFiles timings directory sources, Ready E listFiles timings directory sources := by
        rintro h ⟨l, t, dir, src, tsc, d, s, cwd, file, empty, h1, h2, h3, h4, h5, h6, h7, -⟩
        rw [hf] at h1
        simp only [Flags.parsed.injEq, true_and] at h1
        obtain ⟨rfl, rfl, rfl, rfl⟩ := h1
        exact h t cwd file empty src h2 h3 h4 h5 h6 h7
      cases hd : Headless.parseDebugTimings debug with
      | none => exact .inr ⟨by simp, hnot, unready (by intro t _ _ _ _ h; simp [hd] at h), rfl⟩
      | some timings =>
        simp only []
        cases ht : E.traceFails with
        | true => exact .inr ⟨by simp, hnot, unready (by intro t _ _ _ _ _ h; simp [ht] at h), rfl⟩
        | false =>
          cases hp : E.profileFails with
          | true => exact .inr ⟨by simp, hnot, unready (by intro t _ _ _ _ _ _ h; simp [hp] at h), rfl⟩
          | false =>
            simp only [Bool.false_eq_true, if_false]
            cases hc : E.cwd with
            | none => exact .inr ⟨by simp, hnot, unready (by intro t _ _ _ _ _ _ _ h; simp [hc] at h), rfl⟩
            | some cwd =>
              simp only []
              cases hcf : config E cwd tsconfig with
              | none => exact .inr ⟨by simp, hnot, unready (by
                  intro t cwd' file empty sources _ _ _ h1 h2
                  rw [hc] at h1; cases h1; rw [hcf] at h2; cases h2), rfl⟩
              | some fe =>
                obtain ⟨file, empty⟩ := fe
                simp only [lintConfig]
                cases hpr : E.program file empty with
                | none => exact .inr ⟨by simp, hnot, unready (by
                    intro t cwd' file' empty' sources _ _ _ h1 h2 h3
                    rw [hc] at h1; cases h1; rw [hcf] at h2; cases h2; rw [hpr] at h3; cases h3), rfl⟩
                | some sources =>
                  exact .inl ⟨listFiles, timings, E.directory file, sources, ⟨tsconfig, debug, single, cwd, file, empty, hf, hd, ht, hp, hc, hcf, hpr, rfl⟩, rfl⟩

theorem ready_unique (E : Env D) {l t dir src l' t' dir' src'} (h : Ready E l t dir src) (h' : Ready E l' t' dir' src') : l = l' ∧ t = t' ∧ dir = dir' ∧ src = src' := by
  obtain ⟨tsc, d, s, cwd, file, empty, h1, h2, -, -, h5, h6, h7, h8⟩ := h
  obtain ⟨tsc', d', s', cwd', file', empty', g1, g2, -, -, g5, g6, g7, g8⟩ := h'
  rw [h1] at g1; simp only [Flags.parsed.injEq, true_and] at g1
  obtain ⟨rfl, rfl, rfl, rfl⟩ := g1
  rw [h2] at g2; cases g2
  rw [h5] at g5; cases g5
  rw [h6] at g6; cases g6
  rw [h7] at g7; cases g7
  exact ⟨rfl, rfl, h8.trans g8.symm, rfl⟩

/-- **C109** The exit code: 2 exactly for bad options; 0 exactly for help or if everything up to the end of the linter went well, whatever it found; otherwise 1 -/
theorem exit_iff (E : Env D) :
    ((run E).code = 2 ↔ E.flags = .bad) ∧
    ((run E).code = 0 ↔ (∃ t l d s, E.flags = .parsed true t l d s) ∨
      ∃ listFiles timings directory sources ds, Ready E listFiles timings directory sources ∧ E.lint (E.sorter.sort (select directory sources)) = .done ds) ∧
    ((run E).code = 0 ∨ (run E).code = 1 ∨ (run E).code = 2) := by
  rcases run_cases E with ⟨hf, hr⟩ | ⟨⟨t, l, d, s, hf⟩, hr⟩ | ⟨l, t, dir, src, hready, hr⟩ | ⟨h1, h2, h3, hr⟩
  · have hc : (run E).code = 2 := by rw [hr]; rfl
    rw [hc]
    refine ⟨⟨fun _ => hf, fun _ => rfl⟩, ⟨nofun, ?_⟩, .inr (.inr rfl)⟩
    rintro (⟨t, l, d, s, h⟩ | ⟨l, t, dir, src, ds, ⟨tsc, d, s, cwd, file, empty, h, -⟩, -⟩)
    · rw [hf] at h; cases h
    · rw [hf] at h; cases h
  · have hc : (run E).code = 0 := by rw [hr]; rfl
    rw [hc]
    exact ⟨⟨nofun, fun h => by rw [hf] at h; cases h⟩, ⟨fun _ => .inl ⟨t, l, d, s, hf⟩, fun _ => rfl⟩, .inl rfl⟩
  · have hflags : E.flags ≠ .bad ∧ ¬ ∃ t l d s, E.flags = .parsed true t l d s := by
      obtain ⟨tsc, d, s, cwd, file, empty, h, -⟩ := hready
      rw [h]
      exact ⟨nofun, by rintro ⟨_, _, _, _, h⟩; cases h⟩
    cases hl : E.lint (E.sorter.sort (select dir src)) with
    | failed =>
      rw [hl] at hr
      have hc : (run E).code = 1 := by rw [hr]; rfl
      rw [hc]
      refine ⟨⟨nofun, fun h => absurd h hflags.1⟩, ⟨nofun, ?_⟩, .inr (.inl rfl)⟩
      rintro (h | ⟨l', t', dir', src', ds, h, h'⟩)
      · exact absurd h hflags.2
      · obtain ⟨-, -, rfl, rfl⟩ := ready_unique E hready h
        rw [hl] at h'; cases h'
    | done ds =>
      rw [hl] at hr
      have hc : (run E).code = 0 := by rw [hr]; rfl
      rw [hc]
      exact ⟨⟨nofun, fun h => absurd h hflags.1⟩, ⟨fun _ => .inr ⟨l, t, dir, src, ds, hready, hl⟩, fun _ => rfl⟩, .inl rfl⟩
  · have hc : (run E).code = 1 := by rw [hr]; rfl
    rw [hc]
    refine ⟨⟨nofun, fun h => absurd h h1⟩, ⟨nofun, ?_⟩, .inr (.inl rfl)⟩
    rintro (h | ⟨l, t, dir, src, ds, h, -⟩)
    · exact absurd h h2
    · exact absurd ⟨l, t, dir, src, h⟩ h3

/-- **C109** What is found never changes the exit code -/
theorem findings_ignored (E E' : Env D) (h : ∀ files ds, E.lint files = .done ds → ∃ ds', E'.lint files = .done ds') (h' : ∀ files, E.lint files = .failed → E'.lint files = .failed)
    (he : E' = { E with lint := E'.lint }) : (run E').code = (run E).code := by
  rw [he]
  have key : ∀ file empty l t, (lintConfig { E with lint := E'.lint } file empty l t).code = (lintConfig E file empty l t).code := by
    intro file empty l t
    simp only [lintConfig]
    cases E.program file empty with
    | none => rfl
    | some src =>
      simp only []
      cases hl : E.lint (E.sorter.sort (select (E.directory file) src)) with
      | failed => simp only [h' _ hl, Outcome.code]
      | done ds => obtain ⟨ds', hds⟩ := h _ ds hl; simp only [hds, Outcome.code]
  have hcfg : ∀ a b, config { E with lint := E'.lint } a b = config E a b := fun _ _ => rfl
  unfold run
  simp only [hcfg]
  cases E.flags with
  | bad => rfl
  | parsed help tsc l d s =>
    cases help with
    | true => rfl
    | false =>
      simp only [Bool.false_eq_true, if_false]
      cases Headless.parseDebugTimings d with
      | none => rfl
      | some t =>
        cases E.traceFails with
        | true => rfl
        | false =>
          cases E.profileFails with
          | true => rfl
          | false =>
            cases E.cwd with
            | none => rfl
            | some cwd =>
              simp only [Bool.false_eq_true, if_false]
              cases config E cwd tsc with
              | none => rfl
              | some fe => exact key fe.1 fe.2 l t

/-- **C109** The linter gets each file of the program that is to be linted once, the largest first, and the summary is about these files and what was found in them -/
theorem finished_iff (E : Env D) (files : List Source) (listed : Option Text) (ds : List D) (timings : Bool)
    (h : run E = .finished files listed ds timings) : ∃ listFiles directory sources, Ready E listFiles timings directory sources ∧
      files.Perm (sources.filter (selected directory)) ∧ files.Pairwise (fun a b => b.size ≤ a.size) ∧ E.lint files = .done ds ∧
      (listed = if listFiles then some (listing directory sources) else none) := by
  rcases run_cases E with ⟨-, hr⟩ | ⟨-, hr⟩ | ⟨l, t, dir, src, hready, hr⟩ | ⟨-, -, -, hr⟩
  · rw [hr] at h; cases h
  · rw [hr] at h; cases h
  · cases hl : E.lint (E.sorter.sort (select dir src)) with
    | failed => rw [hl] at hr; simp only at hr; rw [hr] at h; cases h
    | done ds' =>
      rw [hl] at hr
      simp only at hr
      rw [hr] at h
      simp only [Outcome.finished.injEq] at h
      obtain ⟨rfl, rfl, rfl, rfl⟩ := h
      refine ⟨l, dir, src, hready, E.sorter.perm _, ?_, hl, rfl⟩
      refine (E.sorter.sorted _).imp ?_
      intro a b hab
      unfold bySize at hab
      omega
  · rw [hr] at h; cases h

/-! ### Timings -/

theorem columnWidth_ge (title : Text) (cells : List Text) : title.length ≤ columnWidth title cells ∧ ∀ c ∈ cells, c.length ≤ columnWidth title cells := by
  unfold columnWidth
  generalize title.length = n
  induction cells generalizing n with
  | nil => simp
  | cons c cs ih =>
    simp only [List.foldl_cons]
    obtain ⟨h1, h2⟩ := ih (max n c.length)
    refine ⟨by omega, ?_⟩
    intro x hx
    rcases List.mem_cons.1 hx with rfl | hx
    · omega
    · exact h2 x hx

theorem padRight_length (w : Nat) (t : Text) (h : t.length ≤ w) : (padRight w t).length = w := by simp [padRight]; omega
theorem padLeft_length (w : Nat) (t : Text) (h : t.length ≤ w) : (padLeft w t).length = w := by simp [padLeft]; omega

/-- **C109** The lines of the table of timings are equally long, if no rule took 1000 seconds or more and shares have at most 7 characters -/
theorem table_aligned (lines : List Line) (hm : ∀ l ∈ lines, l.millis.length ≤ 10) (hr : ∀ l ∈ lines, l.relative.length ≤ 7) :
    ∀ x ∈ table lines, x.length = columnWidth "Rule".toList (lines.map Line.name) + columnWidth "Calls".toList (lines.map Line.calls) + 24 := by
  unfold table
  cases hl : lines.isEmpty with
  | true => simp
  | false =>
    obtain ⟨hn1, hn2⟩ := columnWidth_ge "Rule".toList (lines.map Line.name)
    obtain ⟨hc1, hc2⟩ := columnWidth_ge "Calls".toList (lines.map Line.calls)
    simp only [Bool.false_eq_true, if_false]
    intro x hx
    rcases List.mem_cons.1 hx with rfl | hx
    · have h1 := padRight_length _ "Rule".toList hn1
      have h2 := padLeft_length _ "Calls".toList hc1
      have h3 := padLeft_length 10 "Time (ms)".toList (by decide)
      have h4 := padLeft_length 8 "Relative".toList (by decide)
      simp only [titles, List.length_append, h1, h2, h3, h4, List.length_cons, List.length_nil]
      omega
    · rcases List.mem_cons.1 hx with rfl | hx
      · have h := fun n => padRight_length n (List.replicate n '-') (by simp)
        simp only [ruler, List.length_append, h, List.length_cons, List.length_nil]
        omega
      · obtain ⟨l, hlm, rfl⟩ := List.mem_map.1 hx
        have h1 := padRight_length _ l.name (hn2 _ (List.mem_map_of_mem hlm))
        have h2 := padLeft_length _ l.calls (hc2 _ (List.mem_map_of_mem hlm))
        have h3 := padLeft_length 10 l.millis (hm l hlm)
        have h4 := padLeft_length 7 l.relative (hr l hlm)
        simp only [tableLine, List.length_append, h1, h2, h3, h4, List.length_cons, List.length_nil]
        omega

/-- **C109** There is one line per record, in their order, below the titles and the ruler -/
theorem table_lines (lines : List Line) (h : lines ≠ []) : ∃ names calls, table lines = titles names calls :: ruler names calls :: lines.map (tableLine names calls) ∧
    ∀ l ∈ lines, l.name.length ≤ names ∧ l.calls.length ≤ calls := by
  obtain ⟨-, hn⟩ := columnWidth_ge "Rule".toList (lines.map Line.name)
  obtain ⟨-, hc⟩ := columnWidth_ge "Calls".toList (lines.map Line.calls)
  refine ⟨columnWidth "Rule".toList (lines.map Line.name), columnWidth "Calls".toList (lines.map Line.calls), ?_, fun l hl => ⟨hn _ (List.mem_map_of_mem hl), hc _ (List.mem_map_of_mem hl)⟩⟩
  unfold table
  rw [if_neg (by simpa using h)]

/-- **C109** The summary's words -/
theorem plural_iff (word : String) (n : Nat) : (n = 1 → plural word n = word) ∧ (n ≠ 1 → plural word n = word ++ "s") := by
  unfold plural
  constructor
  · intro h; simp [h]
  · intro h; simp [h]

/-! ### The rules -/

/-- **C109** No two rules have the same name -/
theorem names_distinct : ruleNames.Nodup := by decide +kernel

/-- **C109** The names are short enough for the printer's spaces (see C108) -/
theorem names_short : ∀ n ∈ ruleNames, n.length ≤ 99 := by decide +kernel

/-- **C109** Every rule is found under its name -/
theorem rule_found {Run : Type} (all : List (Workload.Registered Run)) (hall : all.map (·.name) = ruleNames) (r : Workload.Registered Run) (hr : r ∈ all) :
    Workload.byName all r.name = some r := (Workload.byName_spec all (hall ▸ names_distinct) _ r).2 ⟨hr, rfl⟩

/-! ### Examples -/

def sampleSources : List Source := [⟨"/p/a.ts".toList, 3⟩, ⟨"/p/node_modules/x.ts".toList, 9⟩, ⟨"/lib.d.ts".toList, 9⟩, ⟨"/p/s/b.ts".toList, 5⟩]

/-- a run that finds two things -/
def sampleEnv : Env Nat where
  flags := .parsed false "" true [] false
  traceFails := false
  profileFails := false
  cwd := some "/p"
  resolve a b := a ++ "/" ++ b
  exists_ _ := false
  program _ empty := if empty then some sampleSources else none
  directory _ := "/p/".toList
  sorter := .ofMergeSort _ (by unfold bySize; omega) (by unfold bySize; omega)
  lint files := .done [files.length]

example : select "/p/".toList sampleSources = [⟨"/p/a.ts".toList, 3⟩, ⟨"/p/s/b.ts".toList, 5⟩] := by decide +kernel
example : Ready sampleEnv true false "/p/".toList sampleSources :=
  ⟨"", [], false, "/p", "/p/tsconfig.json", true, rfl, rfl, rfl, rfl, rfl, rfl, rfl, rfl⟩
example : (run sampleEnv).code = 0 := (exit_iff sampleEnv).2.1.2 (.inr ⟨true, false, "/p/".toList, sampleSources, _,
  ⟨"", [], false, "/p", "/p/tsconfig.json", true, rfl, rfl, rfl, rfl, rfl, rfl, rfl, rfl⟩, rfl⟩)
example : listing "/p/".toList sampleSources = "Found file: a.ts\nFound file: s/b.ts\n".toList := by decide +kernel
example : (table [⟨"no-misused-spread".toList, "12.000".toList, "80.0".toList, "3".toList⟩, ⟨"x".toList, "3.000".toList, "20.0".toList, "12".toList⟩]).map List.length = [46, 46, 46, 46] := by decide +kernel
/-- a time of 1000 seconds is too long for its column -/
example : (table [⟨"x".toList, "1000000.000".toList, "80.0".toList, "3".toList⟩]).map List.length = [33, 33, 34] := by decide +kernel

end Tsgolint.Cli
