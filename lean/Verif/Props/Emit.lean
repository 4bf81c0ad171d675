import Verif.Model.Emit
import Verif.Props.Worker
/-! # C26: fixes and suggestions appear only when requested, and then unchanged -/
namespace Tsgolint.Emit
open Tsgolint.Report Tsgolint.Worker

variable {File Node : Type}

theorem mapM_some {α β : Type} {f : α → Option β} {l : List α} {r : List β} (h : l.mapM f = some r) :
    l.map f = r.map some := by
  induction l generalizing r with
  | nil => simp at h; subst h; rfl
  | cons a l ih =>
    rw [List.mapM_cons] at h
    cases ha : f a with
    | none => rw [ha] at h; simp at h
    | some b =>
      cases hl : l.mapM f with
      | none => rw [ha, hl] at h; simp at h
      | some bs =>
        rw [ha, hl] at h; simp at h; subst h
        simp [ha, ih hl]

theorem mapM_isSome {α β : Type} {f : α → Option β} {l : List α} : (l.mapM f).isSome ↔ ∀ a ∈ l, (f a).isSome := by
  induction l with
  | nil => simp
  | cons a l ih =>
    rw [List.mapM_cons]
    cases ha : f a with
    | none => simp [ha]
    | some b =>
      cases hl : l.mapM f with
      | none =>
        simp [ha, hl] at ih ⊢
        exact ih
      | some bs => simp [ha, hl] at ih ⊢; exact ih

/-- The message read back as a range. -/
def HRange.back (r : HRange) : Range := ⟨r.pos, r.stop⟩
def HMessage.back (m : HMessage) : Message := ⟨m.id, m.description, m.help⟩
def HFix.back (f : HFix) : Fix Range := ⟨f.text, f.range.back⟩
def HSuggestion.back (s : HSuggestion) : Suggestion Range := ⟨s.message.back, s.fixes.map HFix.back⟩

theorem rangeOf_some {valid : Range → Bool} {r : Range} {h : HRange} (e : rangeOf valid r = some h) : h.back = r ∧ valid r = true := by
  unfold rangeOf at e
  cases hv : valid r <;> simp [hv] at e
  subst e; exact ⟨rfl, rfl⟩

theorem fixesOf_some {valid : Range → Bool} {l : List (Fix Range)} {r : List HFix} (h : fixesOf valid l = some r) :
    r.map HFix.back = l := by
  have h := mapM_some h
  induction l generalizing r with
  | nil => cases r <;> simp_all
  | cons a l ih =>
    cases r with
    | nil => simp at h
    | cons b r =>
      simp only [List.map_cons, List.cons.injEq] at h
      have h2 := ih (by
        show fixesOf valid l = some r
        have : ∀ (l : List (Fix Range)) (r : List HFix) (f : Fix Range → Option HFix), l.map f = r.map some → l.mapM f = some r := by
          intro l r f h
          induction l generalizing r with
          | nil => cases r <;> simp_all
          | cons a l ih =>
            cases r with
            | nil => simp at h
            | cons b r =>
              simp only [List.map_cons, List.cons.injEq] at h
              rw [List.mapM_cons, h.1, ih r h.2]; rfl
        exact this _ _ _ h.2) h.2
      rw [List.map_cons, h2]
      congr 1
      obtain ⟨hr, e1, e2⟩ := Option.bind_eq_some_iff.1 h.1
      cases e2
      simp only [HFix.back, (rangeOf_some e1).1]

/-- C26: without the flags a message has no fixes / no suggestions, whatever the rule put into the diagnostic. -/
theorem C26_only_when_requested (valid : Range → Bool) (fileName : File → String) (opts : FixState) (d : Diagnostic File Range)
    (m : HDiagnostic) (h : ruleMessage valid fileName opts d = some m) :
    (opts.fix = false → m.fixes = []) ∧ (opts.fixSuggestions = false → m.suggestions = []) := by
  unfold ruleMessage at h
  simp only [Option.bind_eq_some_iff] at h
  obtain ⟨f, _, labels, _, fixes, hf, sugg, hs, h⟩ := h
  cases h
  unfold requestedFixes at hf
  unfold requestedSuggestions at hs
  refine ⟨fun h => ?_, fun h => ?_⟩
  · simp [h] at hf; exact hf
  · simp [h] at hs; exact hs

/-- C26: with the flags, and always for everything else, the message carries the diagnostic's contents unchanged: reading the
message back gives the diagnostic's file, rule, message, labels, range, fixes and suggestions. -/
theorem C26_carried_over (valid : Range → Bool) (fileName : File → String) (opts : FixState) (d : Diagnostic File Range)
    (m : HDiagnostic) (h : ruleMessage valid fileName opts d = some m) :
    m.kind = .rule ∧ m.rule = some d.ruleName ∧ m.message.back = d.message ∧ m.filePath = d.sourceFile.map fileName ∧
    m.range.map HRange.back = (if valid d.range then some d.range else none) ∧
    m.labels.map (fun l => (l.1, l.2.back)) = d.labels ∧
    (opts.fix = true → m.fixes.map HFix.back = d.fixes.getD []) ∧
    (opts.fixSuggestions = true → m.suggestions.map HSuggestion.back = d.suggestions.getD []) := by
  unfold ruleMessage at h
  simp only [Option.bind_eq_some_iff] at h
  obtain ⟨f, hfile, labels, hl, fixes, hf, sugg, hs, h⟩ := h
  cases h
  unfold requestedFixes at hf
  unfold requestedSuggestions at hs
  unfold labelsOf at hl
  refine ⟨rfl, rfl, rfl, by rw [hfile]; rfl, ?_, ?_, ?_, ?_⟩
  · unfold rangeOf; cases valid d.range <;> simp [HRange.back]
  · have := mapM_some hl
    clear hl
    show labels.map _ = d.labels
    generalize d.labels = dl at this
    induction dl generalizing labels with
    | nil => cases labels <;> simp_all
    | cons a dl ih =>
      cases labels with
      | nil => simp at this
      | cons b bs =>
        simp only [List.map_cons, List.cons.injEq] at this
        rw [List.map_cons, ih bs this.2]
        congr 1
        obtain ⟨hr, e1, e2⟩ := Option.bind_eq_some_iff.1 this.1
        cases e2
        rw [(rangeOf_some e1).1]
  · intro h
    rw [if_pos h] at hf
    exact fixesOf_some hf
  · intro h
    rw [if_pos h] at hs
    replace hs := mapM_some hs
    show sugg.map _ = suggestionsField d
    generalize suggestionsField d = ds at hs
    induction ds generalizing sugg with
    | nil => cases sugg <;> simp_all
    | cons a ds ih =>
      cases sugg with
      | nil => simp at hs
      | cons b bs =>
        simp only [List.map_cons, List.cons.injEq] at hs
        rw [List.map_cons, ih bs hs.2]
        congr 1
        obtain ⟨hr, e1, e2⟩ := Option.bind_eq_some_iff.1 hs.1
        cases e2
        simp only [HSuggestion.back, fixesOf_some e1]; rfl

/-- C26: the conversion of a diagnostic with a source file panics iff it has a label, a requested fix or a fix of a requested
suggestion with an invalid range. -/
theorem C26_panics_iff (valid : Range → Bool) (fileName : File → String) (opts : FixState) (d : Diagnostic File Range)
    (hfile : d.sourceFile.isSome) :
    (ruleMessage valid fileName opts d).isSome ↔
      (∀ l ∈ d.labels, valid l.2 = true) ∧ (opts.fix = true → ∀ f ∈ d.fixes.getD [], valid f.range = true) ∧
      (opts.fixSuggestions = true → ∀ s ∈ d.suggestions.getD [], ∀ f ∈ s.fixes, valid f.range = true) := by
  obtain ⟨f, hf⟩ := Option.isSome_iff_exists.1 hfile
  have hrange : ∀ (r : Range), (rangeOf valid r).isSome ↔ valid r = true := by
    intro r; unfold rangeOf; cases valid r <;> simp
  have hfixes : ∀ l, (fixesOf valid l).isSome ↔ ∀ f ∈ l, valid f.range = true := by
    intro l; unfold fixesOf; rw [mapM_isSome]
    constructor
    · intro h x hx; have := h x hx; rw [← hrange]; cases hh : rangeOf valid x.range <;> simp_all
    · intro h x hx; have := h x hx; rw [← hrange] at this; cases hh : rangeOf valid x.range <;> simp_all
  have e1 : (d.labels.mapM fun l => (rangeOf valid l.2).bind fun r => some (l.1, r)).isSome ↔ ∀ l ∈ d.labels, valid l.2 = true := by
    rw [mapM_isSome]
    constructor
    · intro h x hx; have := h x hx; rw [← hrange]; cases hh : rangeOf valid x.2 <;> simp_all
    · intro h x hx; have := h x hx; rw [← hrange] at this; cases hh : rangeOf valid x.2 <;> simp_all
  have e2 : (if opts.fix then fixesOf valid (fixesField d) else some []).isSome ↔
      (opts.fix = true → ∀ f ∈ d.fixes.getD [], valid f.range = true) := by
    cases opts.fix
    · simp
    · simp only [if_true, true_implies]; exact hfixes _
  have e3 : (if opts.fixSuggestions then (suggestionsField d).mapM fun s =>
        (fixesOf valid s.fixes).bind fun f => some (⟨messageOf s.message, f⟩ : HSuggestion) else some []).isSome ↔
      (opts.fixSuggestions = true → ∀ s ∈ d.suggestions.getD [], ∀ f ∈ s.fixes, valid f.range = true) := by
    cases opts.fixSuggestions
    · simp
    · simp only [if_true, true_implies]
      rw [mapM_isSome]
      constructor
      · intro h x hx; have := h x hx; rw [← hfixes]; cases hh : fixesOf valid x.fixes <;> simp_all
      · intro h x hx; have := h x hx; rw [← hfixes] at this; cases hh : fixesOf valid x.fixes <;> simp_all
  rw [← e1, ← e2, ← e3]
  unfold ruleMessage
  rw [hf]
  simp only [Option.bind_some]
  show ((labelsOf valid d).bind _).isSome ↔ (labelsOf valid d).isSome ∧ (requestedFixes valid opts d).isSome ∧
    (requestedSuggestions valid opts d).isSome
  generalize labelsOf valid d = a
  generalize requestedFixes valid opts d = b
  generalize requestedSuggestions valid opts d = c
  cases a <;> cases b <;> cases c <;> simp

/-- How often a reporting call asks for fixes / suggestions. -/
def asksFixes : Call File Node Range → Bool
  | .diagnosticWithFixes .. => true
  | .nodeWithFixes .. => true
  | _ => false
def asksSuggestions : Call File Node Range → Bool
  | .diagnosticWithSuggestions .. => true
  | .rangeWithSuggestions .. => true
  | .nodeWithSuggestions .. => true
  | _ => false

/-- C26: per report, the rule's fix (suggestion) generator is run exactly once if it was given and the flag is set, otherwise not at
all; and exactly one diagnostic is handed on. -/
theorem C26_generators (trim : Option File → Node → Range) (fx : FixState) (b : Builder File) (c : Call File Node Range) :
    (report trim fx b c).countP (fun e => match e with | .ranFixes => true | _ => false) = (if fx.fix && asksFixes c then 1 else 0) ∧
    (report trim fx b c).countP (fun e => match e with | .ranSuggestions => true | _ => false) =
      (if fx.fixSuggestions && asksSuggestions c then 1 else 0) ∧
    (diagnostics (report trim fx b c)).length = 1 := by
  cases c <;> cases h1 : fx.fix <;> cases h2 : fx.fixSuggestions <;>
    simp [report, emit, gate, h1, h2, asksFixes, asksSuggestions, diagnostics]

/-- C26: in a whole run without `--fix` no generator of fixes is ever run, and without `--fix-suggestions` none of suggestions. -/
theorem C26_never_run (P : Params File Node Range) (hs : ShuffleOk P) (hk : KeysOk P) (files : List File) :
    (P.fx.fix = false → .ranFixes ∉ work P files) ∧ (P.fx.fixSuggestions = false → .ranSuggestions ∉ work P files) := by
  have key : ∀ x ∈ work P files, ∃ b c, x ∈ report P.trim P.fx b c := by
    intro x hx
    rw [C18_exact_report P hs hk, List.mem_flatMap] at hx
    obtain ⟨f, _, hx⟩ := hx
    have : ∃ r, ∃ calls, x ∈ attributed P r f calls := by
      rw [fileReport, List.mem_append, List.mem_flatMap] at hx
      rcases hx with ⟨r, _, hx⟩ | hx
      · exact ⟨r, _, hx⟩
      · obtain ⟨r, _, h⟩ := mem_reactions hx; exact ⟨r, h⟩
    obtain ⟨r, calls, h⟩ := this
    rw [attributed, List.mem_flatMap] at h
    obtain ⟨c, _, h⟩ := h
    exact ⟨_, c, h⟩
  refine ⟨fun h hx => ?_, fun h hx => ?_⟩
  · obtain ⟨b, c, hx⟩ := key _ hx
    cases c <;> simp [report, emit, gate, h] at hx <;> (try split at hx) <;> simp at hx
  · obtain ⟨b, c, hx⟩ := key _ hx
    cases c <;> simp [report, emit, gate, h] at hx <;> (try split at hx) <;> simp at hx

/-- C26 end to end for one report: the message a client gets for a report with fixes under `--fix` carries exactly the fixes the
rule's generator returned. -/
theorem C26_end_to_end (trim : Option File → Node → Range) (valid : Range → Bool) (fileName : File → String) (opts : FixState)
    (b : Builder File) (n : Node) (msg : Message) (fixes : List (Fix Range)) (sugg : List (Suggestion Range)) (m : HDiagnostic) :
    ((diagnostics (report trim opts b (.nodeWithFixes n msg fixes))).mapM (ruleMessage valid fileName opts) = some [m] →
      m.fixes.map HFix.back = (if opts.fix then fixes else []) ∧ m.suggestions = []) ∧
    ((diagnostics (report trim opts b (.nodeWithSuggestions n msg sugg))).mapM (ruleMessage valid fileName opts) = some [m] →
      m.suggestions.map HSuggestion.back = (if opts.fixSuggestions then sugg else []) ∧ m.fixes = []) := by
  have one : ∀ d, ([d].mapM (ruleMessage valid fileName opts) = some [m]) → ruleMessage valid fileName opts d = some m := by
    intro d h
    have := mapM_some h
    simpa using this
  constructor
  · intro h
    have hd : diagnostics (report trim opts b (.nodeWithFixes n msg fixes)) =
        [⟨trim b.file n, b.ruleName, msg, some (if opts.fix then fixes else []), none, b.file, []⟩] := by
      cases hf : opts.fix <;> simp [report, emit, gate, diagnostics, plain, hf]
    rw [hd] at h
    have h := one _ h
    have c1 := C26_carried_over valid fileName opts _ m h
    have c2 := C26_only_when_requested valid fileName opts _ m h
    refine ⟨?_, ?_⟩
    · cases hf : opts.fix
      · simp [c2.1 hf]
      · have := c1.2.2.2.2.2.2.1 hf; simpa [hf] using this
    · cases hf : opts.fixSuggestions
      · exact c2.2 hf
      · have := c1.2.2.2.2.2.2.2 hf; simpa using this
  · intro h
    have hd : diagnostics (report trim opts b (.nodeWithSuggestions n msg sugg)) =
        [⟨trim b.file n, b.ruleName, msg, none, some (if opts.fixSuggestions then sugg else []), b.file, []⟩] := by
      cases hf : opts.fixSuggestions <;> simp [report, emit, gate, diagnostics, plain, hf]
    rw [hd] at h
    have h := one _ h
    have c1 := C26_carried_over valid fileName opts _ m h
    have c2 := C26_only_when_requested valid fileName opts _ m h
    refine ⟨?_, ?_⟩
    · cases hf : opts.fixSuggestions
      · simp [c2.2 hf]
      · have := c1.2.2.2.2.2.2.2 hf; simpa [hf] using this
    · cases hf : opts.fix
      · exact c2.1 hf
      · have := c1.2.2.2.2.2.2.1 hf; simpa using this

/-- C26: an internal diagnostic (about a tsconfig or a type error) becomes a message of the other kind, without rule, labels, fixes and
suggestions, whose contents read back are its own; a client can tell it from the message of every rule diagnostic by the kind, and by
there being a rule. -/
theorem C26_internal (valid : Range → Bool) (i : Internal) :
    ((internalMessage valid i).kind = .tsconfig ∧ (internalMessage valid i).rule = none ∧
      (internalMessage valid i).message.back = ⟨i.id, i.description, i.help⟩ ∧ (internalMessage valid i).filePath = i.filePath ∧
      (internalMessage valid i).range.map HRange.back = (if valid i.range then some i.range else none) ∧
      (internalMessage valid i).labels = [] ∧ (internalMessage valid i).fixes = [] ∧ (internalMessage valid i).suggestions = []) ∧
    ∀ (fileName : File → String) (opts : FixState) (d : Diagnostic File Range) (m : HDiagnostic), ruleMessage valid fileName opts d = some m →
      m.kind ≠ (internalMessage valid i).kind ∧ m.rule.isSome = true ∧ (internalMessage valid i).rule.isSome = false := by
  refine ⟨⟨rfl, rfl, rfl, rfl, ?_, rfl, rfl, rfl⟩, ?_⟩
  · unfold internalMessage rangeOf; cases valid i.range <;> simp [HRange.back]
  · intro fileName opts d m h
    obtain ⟨h1, h2, _⟩ := C26_carried_over valid fileName opts d m h
    refine ⟨?_, by simp [h2], rfl⟩
    rw [h1]; exact fun e => nomatch (show Kind.rule = Kind.tsconfig from e)

example : (internalMessage (fun r => 0 ≤ r.pos) ⟨⟨3, 7⟩, "TS1", "bad option", "", some "/tsconfig.json"⟩).range = some ⟨3, 7⟩ := by decide

/-- Non-vacuity: a diagnostic with a fix and a suggestion, converted with both flags, and with none. -/
def exampleDiagnostic : Diagnostic Nat Range :=
  ⟨⟨3, 7⟩, "r", ⟨"id", "text", ""⟩, some [⟨"x", ⟨3, 4⟩⟩], some [⟨⟨"s", "t", ""⟩, [⟨"y", ⟨5, 5⟩⟩]⟩], some 0, [("here", ⟨1, 2⟩)]⟩

example : (ruleMessage (fun r => 0 ≤ r.pos) (fun _ => "/a.ts") ⟨true, true⟩ exampleDiagnostic).map (fun m => (m.fixes, m.suggestions)) =
      some ([⟨"x", ⟨3, 4⟩⟩], [⟨⟨"s", "t", ""⟩, [⟨"y", ⟨5, 5⟩⟩]⟩]) ∧
    (ruleMessage (fun r => 0 ≤ r.pos) (fun _ => "/a.ts") ⟨false, false⟩ exampleDiagnostic).map (fun m => (m.fixes, m.suggestions)) =
      some ([], []) ∧
    (ruleMessage (fun r => 4 ≤ r.pos) (fun _ => "/a.ts") ⟨false, false⟩ exampleDiagnostic) = none := by
  refine ⟨by decide, by decide, by decide⟩

end Tsgolint.Emit
