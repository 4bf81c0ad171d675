import Verif.Proof.WorkerTimed
/-! # C18, C19, C20, C21, C24: what a worker reports -/
namespace Tsgolint.Worker
open Tsgolint.Report
variable {File Node Range : Type}

/-- The diagnostics in a list of effects. -/
def diagnostics (es : List (Effect File Range)) : List (Diagnostic File Range) :=
  es.filterMap fun | .emitted d => some d | _ => none

/-- C18 (exact report).  Whatever files a worker takes, in whatever order, the effects of its work are, file by file, those of each
rule's own reports followed by its reactions to the events — each attributed to that rule and file. -/
theorem C18_exact_report (P : Params File Node Range) (hs : ShuffleOk P) (hk : KeysOk P) (files : List File) :
    work P files = files.flatMap fun f => fileReport P (P.rules f) f :=
  work_spec P hs hk files

theorem report_attribution (trim : Option File → Node → Range) (fx : FixState) (b : Builder File) (c : Call File Node Range)
    (d : Diagnostic File Range) (h : .emitted d ∈ report trim fx b c) : d.ruleName = b.ruleName ∧ d.sourceFile = b.file := by
  cases c <;> simp only [report, emit, gate] at h <;> (try split at h) <;> simp at h <;> subst h <;> exact ⟨rfl, rfl⟩

theorem mem_attributed {P : Params File Node Range} {r : Rule File Node Range} {file : File}
    {calls : List (Call File Node Range)} {d : Diagnostic File Range} (h : .emitted d ∈ attributed P r file calls) :
    d.ruleName = r.name ∧ d.sourceFile = some file := by
  simp only [attributed, List.mem_flatMap] at h
  obtain ⟨c, _, hc⟩ := h
  exact report_attribution _ _ _ _ _ hc

theorem mem_reactions {P : Params File Node Range} {file : File} {rs : List (Rule File Node Range)}
    {before evs : List (Kind × Node)} {x : Effect File Range} (h : x ∈ reactions P file rs before evs) :
    ∃ r ∈ rs, ∃ calls, x ∈ attributed P r file calls := by
  induction evs generalizing before with
  | nil => simp [reactions] at h
  | cons e evs ih =>
    simp only [reactions, List.mem_append, List.mem_flatMap] at h
    rcases h with ⟨r, hr, h⟩ | h
    · unfold reaction at h
      split at h
      · exact ⟨r, hr, _, h⟩
      · simp at h
    · exact ih h

/-- C18 (attribution).  Every diagnostic carries the name of a rule configured for the file it carries, and that rule's own report
about that very file made it, whatever the rule wrote in these two fields. -/
theorem C18_attribution (P : Params File Node Range) (hs : ShuffleOk P) (hk : KeysOk P) (files : List File)
    (d : Diagnostic File Range) (h : d ∈ diagnostics (work P files)) :
    ∃ f ∈ files, ∃ r ∈ P.rules f, d.sourceFile = some f ∧ d.ruleName = r.name ∧
      ∃ calls, .emitted d ∈ attributed P r f calls := by
  rw [work_spec P hs hk, diagnostics, List.mem_filterMap] at h
  obtain ⟨x, hx, he⟩ := h
  cases x with
  | ranFixes => simp at he
  | ranSuggestions => simp at he
  | emitted d' =>
    simp only [Option.some.injEq] at he
    subst he
    rw [List.mem_flatMap] at hx
    obtain ⟨f, hf, hx⟩ := hx
    rw [fileReport, List.mem_append, List.mem_flatMap] at hx
    have : ∃ r ∈ P.rules f, ∃ calls, .emitted d' ∈ attributed P r f calls := by
      rcases hx with ⟨r, hr, hx⟩ | hx
      · exact ⟨r, hr, _, hx⟩
      · exact mem_reactions hx
    obtain ⟨r, hr, calls, hc⟩ := this
    exact ⟨f, hf, r, hr, (mem_attributed hc).2, (mem_attributed hc).1, calls, hc⟩

/-- C19.  What is reported about a file does not depend on the files linted before (or after) by the same worker. -/
theorem C19_files_independent (P : Params File Node Range) (hs : ShuffleOk P) (hk : KeysOk P) (before after : List File)
    (f : File) : work P (before ++ f :: after) = work P before ++ work P [f] ++ work P after := by
  simp [work_spec P hs hk]

/-- C19 (no matter how files are spread over workers): any two workers agree on a file, and a list of files linted by one worker gives
file by file what separate workers give. -/
theorem C19_workers_agree (P : Params File Node Range) (hs : ShuffleOk P) (hk : KeysOk P) (files : List File) :
    work P files = files.flatMap fun f => work P [f] := by
  simp [work_spec P hs hk]

/-- The diagnostics of one rule. -/
def ofRule (name : String) (es : List (Effect File Range)) : List (Diagnostic File Range) :=
  (diagnostics es).filter fun d => d.ruleName = name

/-- The same run with only the rules of that name configured. -/
def only (P : Params File Node Range) (name : String) : Params File Node Range :=
  { P with rules := fun f => (P.rules f).filter fun r => r.name = name }

theorem ofRule_append (name : String) (a b : List (Effect File Range)) : ofRule name (a ++ b) = ofRule name a ++ ofRule name b := by
  simp [ofRule, diagnostics]

theorem ofRule_other (P : Params File Node Range) (name : String) (r : Rule File Node Range) (f : File)
    (calls : List (Call File Node Range)) (h : r.name ≠ name) : ofRule name (attributed P r f calls) = [] := by
  rw [ofRule, List.filter_eq_nil_iff]
  intro d hd
  rw [diagnostics, List.mem_filterMap] at hd
  obtain ⟨x, hx, he⟩ := hd
  cases x <;> simp at he
  subst he
  rw [(mem_attributed hx).1]; simpa using h

theorem ofRule_flatMap (name : String) (g : Rule File Node Range → List (Effect File Range))
    (hg : ∀ r, r.name ≠ name → ofRule name (g r) = []) (rs : List (Rule File Node Range)) :
    ofRule name (rs.flatMap g) = ofRule name ((rs.filter fun r => r.name = name).flatMap g) := by
  induction rs with
  | nil => rfl
  | cons r rs ih =>
    by_cases h : r.name = name
    · simp [h, ofRule_append, ih]
    · simp [h, ofRule_append, ih, hg r h]

theorem ofRule_reactions (P : Params File Node Range) (name : String) (f : File) (rs : List (Rule File Node Range))
    (before evs : List (Kind × Node)) :
    ofRule name (reactions P f rs before evs) =
      ofRule name (reactions (only P name) f (rs.filter fun r => r.name = name) before evs) := by
  induction evs generalizing before with
  | nil => rfl
  | cons e evs ih =>
    simp only [reactions, ofRule_append, ih]
    congr 1
    rw [ofRule_flatMap]
    · rfl
    · intro r hr
      unfold reaction
      split
      · exact ofRule_other P name r f _ hr
      · rfl

/-- C20.  The diagnostics of a rule are the same — same ones, same order — whether it runs with the other configured rules or
alone. -/
theorem C20_rules_independent (P : Params File Node Range) (hs : ShuffleOk P) (hk : KeysOk P) (files : List File) (name : String) :
    ofRule name (work P files) = ofRule name (work (only P name) files) := by
  have hk' : KeysOk (only P name) := fun f r hr => hk f r (List.mem_filter.1 hr).1
  rw [work_spec P hs hk, work_spec (only P name) hs hk']
  induction files with
  | nil => rfl
  | cons f fs ih =>
    simp only [List.flatMap_cons, ofRule_append, ih]
    congr 1
    simp only [fileReport, ofRule_append]
    congr 1
    · rw [ofRule_flatMap]
      · rfl
      · intro r hr; exact ofRule_other P name r f _ hr
    · exact ofRule_reactions P name f (P.rules f) [] (P.events f)

/-- C21.  The sequence of effects does not depend on the order in which Go enumerates the listener maps. -/
theorem C21_deterministic (P : Params File Node Range) (shuffle' : Nat → List Kind → List Kind) (hs : ShuffleOk P)
    (hs' : ShuffleOk { P with shuffle := shuffle' }) (hk : KeysOk P) (files : List File) :
    work { P with shuffle := shuffle' } files = work P files := by
  rw [work_spec P hs hk, work_spec { P with shuffle := shuffle' } hs' hk]
  have : ∀ f rs before evs, reactions { P with shuffle := shuffle' } f rs before evs = reactions P f rs before evs := by
    intro f rs before evs
    induction evs generalizing before with
    | nil => rfl
    | cons e evs ih => simp only [reactions, ih]; rfl
  congr 1
  funext f
  simp only [fileReport, this]
  rfl

/-- C24 (transparency).  With timing the worker does exactly the same, whatever durations are measured. -/
theorem C24_same_reports (P : Params File Node Range) (dur : Nat → Int) (files : List File) :
    (tWork P dur files).out = work P files := by
  have h := congrArg State.out (erase_work P dur files tInit)
  exact h

/-- C24 (bookkeeping).  A rule is in the worker's timing map iff it was called; its number of calls is the number of times it was
called; its duration is the sum of the durations measured for exactly those calls. -/
theorem C24_call_counts (P : Params File Node Range) (hs : ShuffleOk P) (hk : KeysOk P) (dur : Nat → Int) (files : List File)
    (name : String) :
    (tWork P dur files).localTimings name =
      if name ∈ files.flatMap (fileCalls P) then
        some ⟨totalDuration dur (files.flatMap (fileCalls P)) name, (files.flatMap (fileCalls P)).count name⟩
      else none := by
  obtain ⟨h1, h2⟩ := tWork_timing P hs hk dur files tInit (fun _ => rfl) name
  have h2 : ((tWork P dur files).localTimings name).getD ⟨0, 0⟩ = tally dur name 0 (files.flatMap (fileCalls P)) := by
    simpa [tInit, tWork] using h2
  have h1 : ((tWork P dur files).localTimings name).isSome = (files.flatMap (fileCalls P)).contains name := by
    simpa [tInit, tWork] using h1
  have ht : tally dur name 0 (files.flatMap (fileCalls P)) =
      ⟨totalDuration dur (files.flatMap (fileCalls P)) name, (files.flatMap (fileCalls P)).count name⟩ := by
    have a := tally_duration dur name 0 (files.flatMap (fileCalls P))
    have b := tally_calls dur name 0 (files.flatMap (fileCalls P))
    unfold totalDuration
    rw [← a, ← b]
  split
  · rename_i hm
    have hc : (files.flatMap (fileCalls P)).contains name = true := by simpa using hm
    rw [hc] at h1
    obtain ⟨x, hx⟩ := Option.isSome_iff_exists.1 h1
    rw [hx] at h2 ⊢
    rw [← ht, ← h2]; rfl
  · rename_i hm
    have hc : (files.flatMap (fileCalls P)).contains name = false := by
      rw [Bool.eq_false_iff]; simpa using hm
    rw [hc] at h1
    simpa using h1

/-- C24.  The number of calls of a rule in one file, when rule names are distinct: one to start plus one per event it listens to. -/
theorem C24_calls_per_file (P : Params File Node Range) (f : File) (r : Rule File Node Range) (hr : r ∈ P.rules f)
    (hnd : ((P.rules f).map (·.name)).Nodup) : (fileCalls P f).count r.name = callsFor P r f := by
  have hone : ((P.rules f).map (·.name)).count r.name = 1 := by
    have h1 := List.nodup_iff_count.1 hnd r.name
    have h2 := List.count_pos_iff.2 (List.mem_map.2 ⟨r, hr, rfl⟩ : r.name ∈ (P.rules f).map (·.name))
    omega
  have hev : ∀ k, (((P.rules f).filter fun r => k ∈ r.listens f).map (·.name)).count r.name =
      if k ∈ r.listens f then 1 else 0 := by
    intro k
    have hsub : (((P.rules f).filter fun r => k ∈ r.listens f).map (·.name)).Nodup :=
      hnd.sublist (List.Sublist.map _ List.filter_sublist)
    split
    · rename_i h
      have h1 := List.nodup_iff_count.1 hsub r.name
      have h2 := List.count_pos_iff.2 (List.mem_map.2 ⟨r, List.mem_filter.2 ⟨hr, by simpa using h⟩, rfl⟩ :
        r.name ∈ ((P.rules f).filter fun r => k ∈ r.listens f).map (·.name))
      omega
    · rename_i h
      apply List.count_eq_zero.2
      intro hm
      obtain ⟨r', hr', hn⟩ := List.mem_map.1 hm
      obtain ⟨hr1, hr2⟩ := List.mem_filter.1 hr'
      have : r' = r := by
        by_cases he : r' = r
        · exact he
        · have := (List.nodup_iff_count.1 hnd r.name)
          have h2 : 2 ≤ ((P.rules f).map (·.name)).count r.name := two_le_count hr1 hr he hn rfl
          omega
      subst this
      exact h (by simpa using hr2)
  simp only [fileCalls, List.count_append, hone, callsFor, heard]
  congr 1
  generalize P.events f = evs
  induction evs with
  | nil => rfl
  | cons e evs ih =>
    simp only [List.flatMap_cons, List.count_append, hev, ih, List.filter_cons]
    split <;> rename_i h <;> simp [h] <;> omega
where
  two_le_count {l : List (Rule File Node Range)} {a b : Rule File Node Range} {n : String} (ha : a ∈ l) (hb : b ∈ l) (hab : a ≠ b)
      (hna : a.name = n) (hnb : b.name = n) : 2 ≤ (l.map (·.name)).count n := by
    induction l with
    | nil => simp at ha
    | cons x l ih =>
      simp only [List.map_cons, List.count_cons]
      rcases List.mem_cons.1 ha with ha | ha
      · rcases List.mem_cons.1 hb with hb | hb
        · exact absurd (ha.trans hb.symm) hab
        · have := List.count_pos_iff.2 (List.mem_map.2 ⟨b, hb, hnb⟩ : n ∈ l.map (·.name))
          have hx : x.name = n := by rw [← ha]; exact hna
          simp only [hx, BEq.rfl, ↓reduceIte]; omega
      · rcases List.mem_cons.1 hb with hb | hb
        · have := List.count_pos_iff.2 (List.mem_map.2 ⟨a, ha, hna⟩ : n ∈ l.map (·.name))
          have hx : x.name = n := by rw [← hb]; exact hnb
          simp only [hx, BEq.rfl, ↓reduceIte]; omega
        · have := ih ha hb; omega

/-- Non-vacuity: two rules, the second with two listeners whose map is enumerated backwards; two files. -/
def exampleParams : Params Nat Nat Nat where
  trim _ n := n
  fx := ⟨false, false⟩
  rules f := if f = 0 then
      [⟨"a", fun _ => [.range 7 ⟨"m", "", ""⟩], fun _ => [1], fun _ h => [.node (h.length) ⟨"x", "", ""⟩]⟩,
       ⟨"b", fun _ => [], fun _ => [1, 2], fun _ h => [.nodeWithFixes (h.length) ⟨"y", "", ""⟩ []]⟩]
    else [⟨"b", fun _ => [], fun _ => [1, 2], fun _ h => [.node (h.length) ⟨"y", "", ""⟩]⟩]
  events _ := [(1, 10), (2, 11), (1, 12)]
  shuffle _ l := l.reverse

example : ShuffleOk exampleParams ∧ KeysOk exampleParams ∧
    (diagnostics (work exampleParams [0, 1])).map (fun d => (d.ruleName, d.sourceFile, d.range)) =
      [("a", some 0, 7), ("a", some 0, 1), ("b", some 0, 1), ("b", some 0, 2), ("a", some 0, 2), ("b", some 0, 3),
       ("b", some 1, 1), ("b", some 1, 2), ("b", some 1, 3)] ∧
    ((tWork exampleParams (fun n => n) [0, 1]).localTimings "b").map (fun s => (s.duration, s.calls)) = some (48, 8) := by
  refine ⟨fun n l => List.reverse_perm l, ?_, by decide +kernel, by decide +kernel⟩
  intro f r hr
  simp only [exampleParams] at hr
  split at hr <;> simp at hr
  · rcases hr with rfl | rfl <;> simp
  · subst hr; simp

end Tsgolint.Worker
