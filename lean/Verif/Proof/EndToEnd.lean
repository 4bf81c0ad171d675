import Verif.Props.Headless
namespace Tsgolint.Headless
open Tsgolint.Emit Tsgolint.Report
variable {Node : Type}

/-- Files linted by the actions. -/
def lintedBy (as : List Run.Action) : List Run.File :=
  as.flatMap fun | .lint _ fs => fs | .internal _ => []

/-- Diagnostics an action contributes. -/
def contribution (e : Env Node) (p : Payload.Payload) (fx : FixState) : Run.Action → List AnyDiag
  | .internal d => [.internal d]
  | .lint _ fs => fs.flatMap (fileDiags e p fx)

theorem segs_of_actions (e : Env Node) (p : Payload.Payload) (fx : FixState) (js : List (Pipeline.Job AnyDiag Run.File))
    (segs : List (List AnyDiag)) (h : Pipeline.SegsOk (fileDiags e p fx) js segs) :
    ∀ as : List Run.Action, js = as.map (jobOf e) →
      segs.flatten.Perm (as.flatMap (contribution e p fx)) ∧
      ∀ f ∈ lintedBy as, (fileDiags e p fx f).Sublist segs.flatten := by
  induction h with
  | nil => intro as h; cases as <;> simp_all [lintedBy]
  | @snoc js segs j seg hs hj ih =>
    intro as h
    have hne : as ≠ [] := by rintro rfl; simp at h
    obtain ⟨as', a, rfl⟩ : ∃ as' a, as = as' ++ [a] := ⟨as.dropLast, as.getLast hne, (List.dropLast_concat_getLast hne).symm⟩
    rw [List.map_append, List.map_singleton] at h
    obtain ⟨h1, h2⟩ := List.append_inj' h rfl
    simp only [List.cons.injEq, and_true] at h2
    subst h2
    obtain ⟨i1, i2⟩ := ih as' h1
    rw [List.flatten_append, List.flatMap_append]
    have hseg : seg.Perm (contribution e p fx a) ∧ ∀ f ∈ lintedBy [a], (fileDiags e p fx f).Sublist seg := by
      cases a with
      | internal d =>
        have hj : seg = [.internal d] := hj
        subst hj
        exact ⟨.refl _, by simp [lintedBy]⟩
      | lint prog fs =>
        have hj : seg.Perm (fs.flatMap (fileDiags e p fx)) ∧ ∀ f ∈ fs, (fileDiags e p fx f).Sublist seg := hj
        exact ⟨hj.1, by simpa [lintedBy] using hj.2⟩
    refine ⟨?_, ?_⟩
    · simpa using i1.append hseg.1
    · intro f hf
      simp only [lintedBy, List.flatMap_append, List.mem_append] at hf
      rcases hf with hf | hf
      · exact (i2 f hf).trans (List.sublist_append_left _ _)
      · refine (hseg.2 f hf).trans ?_
        simp

theorem rulesFor_eq (e : Env Node) (hn : (e.rules.map (·.name)).Nodup) (p : Payload.Payload) (f : Run.File)
    (hk : ∀ hr ∈ (Workload.lastRequest p.configs f.name).getD [], ∃ r ∈ e.rules, r.name = hr.name) :
    (rulesFor e p f).getD [] = configuredRules e p f.name := by
  unfold rulesFor configuredRules
  have hcfg : (Workload.collect p.configs).configs f.name = Workload.lastRequest p.configs f.name := Workload.C11_last_config_wins _ _
  unfold Workload.getRules
  rw [hcfg]
  generalize (Workload.lastRequest p.configs f.name).getD [] = l at hk
  have key := Workload.byName_spec e.rules hn
  have : ∀ l : List Payload.Rule, (∀ hr ∈ l, ∃ r ∈ e.rules, r.name = hr.name) →
      ∃ out, Payload.allSome (Workload.configured e.rules) l = some out ∧
        out.map (fun x => ({ x.2 with name := x.1 } : RuleImpl Node)) =
          l.filterMap fun hr => (e.rules.find? fun r => r.name = hr.name).map fun r => { r.run hr.options with name := hr.name } := by
    intro l hl
    induction l with
    | nil => exact ⟨[], rfl, rfl⟩
    | cons hr l ih =>
      obtain ⟨out, h1, h2⟩ := ih fun x hx => hl x (by simp [hx])
      obtain ⟨r, hr1, hr2⟩ := hl hr (by simp)
      have hb : Workload.byName e.rules hr.name = some r := (key hr.name r).2 ⟨hr1, hr2⟩
      have hf : e.rules.find? (fun r => decide (r.name = hr.name)) = some r := by
        cases hh : e.rules.find? (fun r => decide (r.name = hr.name)) with
        | none =>
          rw [List.find?_eq_none] at hh
          have := hh r hr1; simp [hr2] at this
        | some r' =>
          have h3 : r'.name = hr.name := by simpa using List.find?_some hh
          have := (key hr.name r').2 ⟨List.mem_of_find?_eq_some hh, h3⟩
          rw [hb] at this; cases this; rfl
      refine ⟨(r.name, r.run hr.options) :: out, ?_, ?_⟩
      · unfold Payload.allSome
        simp [Workload.configured, hb, h1]
      · rw [List.map_cons, h2, List.filterMap_cons, hf]
        simp [hr2]
  obtain ⟨out, h1, h2⟩ := this l hk
  rw [h1]
  exact h2

theorem rulesFor_some (e : Env Node) (hn : (e.rules.map (·.name)).Nodup) (p : Payload.Payload) (f : Run.File)
    (h : rulesFor e p f ≠ none) :
    ∀ hr ∈ (Workload.lastRequest p.configs f.name).getD [], ∃ r ∈ e.rules, r.name = hr.name := by
  unfold rulesFor at h
  rw [Ne, Option.map_eq_none_iff, (Workload.C11_rules_for_file e.rules hn _ _).2, Workload.C11_last_config_wins] at h
  intro hr hm
  refine Classical.byContradiction fun hc => h ⟨hr, hm, fun r hr' he => hc ⟨r, hr', he⟩⟩

theorem fileDiags_eq (e : Env Node) (he : e.Ok) (hn : (e.rules.map (·.name)).Nodup) (p : Payload.Payload) (fx : FixState) (f : Run.File)
    (hk : rulesFor e p f ≠ none) :
    fileDiags e p fx f = dueDiagnostics e p fx f := by
  have hkeys : Worker.KeysOk (workerParams e p fx) := by
    intro g r hr
    simp only [workerParams] at hr
    by_cases hg : rulesFor e p g = none
    · rw [hg] at hr; simp at hr
    · rw [rulesFor_eq e hn p g (rulesFor_some e hn p g hg), configuredRules, List.mem_filterMap] at hr
      obtain ⟨x, _, hx⟩ := hr
      rw [Option.map_eq_some_iff] at hx
      obtain ⟨r', hr', rfl⟩ := hx
      exact he.keys r' (List.mem_of_find?_eq_some hr') _ _
  have hsh : Worker.ShuffleOk (workerParams e p fx) := he.shuffle
  unfold fileDiags dueDiagnostics
  rw [Worker.C18_exact_report _ hsh hkeys]
  have : (workerParams e p fx).rules f = configuredRules e p f.name := rulesFor_eq e hn p f (rulesFor_some e hn p f hk)
  simp only [List.flatMap_cons, List.flatMap_nil, List.append_nil, this]
  rfl

theorem lintedBy_append (a b : List Run.Action) : lintedBy (a ++ b) = lintedBy a ++ lintedBy b := by simp [lintedBy]

theorem lintedBy_internal (ds : List Internal) : lintedBy (ds.map .internal) = [] := by
  induction ds with
  | nil => rfl
  | cons d ds ih => simpa [lintedBy] using ih

/-- Names linted by the programs. -/
theorem programs_names (e : Env Node) (te : Run.TypeErrors) (w : String → List String) (os : List String)
    (hdis : ∀ c ∈ os, ∀ c' ∈ os, ∀ n, n ∈ w c → n ∈ w c' → c = c') (hos : os.Nodup)
    (parts : List (List Run.Action))
    (h : List.Forall₂ (Run.Handles e.ts e.contains e.suppress te) (os.map fun c => (c, w c)) parts) :
    ((lintedBy parts.flatten).map (·.name)).Nodup ∧
    ∀ n, n ∈ (lintedBy parts.flatten).map (·.name) ↔
      ∃ c ∈ os, (∃ prog, Run.createProgram e.ts e.contains e.suppress c = .ok prog) ∧ n ∈ w c := by
  induction os generalizing parts with
  | nil => cases h; simp [lintedBy]
  | cons c os ih =>
    rw [List.map_cons] at h
    cases h with
    | @cons _ part _ parts' h1 h2 =>
      rw [List.nodup_cons] at hos
      obtain ⟨i1, i2⟩ := ih (fun a ha b hb => hdis a (by simp [ha]) b (by simp [hb])) hos.2 parts' h2
      rw [List.flatten_cons, lintedBy_append, List.map_append]
      cases h1 with
      | @invalid _ _ ds hc =>
        rw [lintedBy_internal]
        refine ⟨by simpa using i1, ?_⟩
        intro n
        simp only [List.map_nil, List.nil_append, i2, List.mem_cons, exists_eq_or_imp, hc, reduceCtorEq, exists_false, false_and, false_or]
      | @linted _ _ prog files hc hsel =>
        have hl : lintedBy ((Run.reportTs e.ts prog files te).map .internal ++ [.lint prog files]) = files := by
          rw [lintedBy_append, lintedBy_internal]; simp [lintedBy]
        rw [hl]
        refine ⟨?_, ?_⟩
        · rw [List.nodup_append]
          refine ⟨hsel.2.1, i1, ?_⟩
          intro a ha b hb hab
          subst hab
          obtain ⟨c', hc', _, hn⟩ := (i2 a).1 hb
          have := hdis c (by simp) c' (by simp [hc']) a ((hsel.2.2 a).1 ha) hn
          exact hos.1 (this ▸ hc')
        · intro n
          rw [List.mem_append, hsel.2.2, i2]
          simp only [List.mem_cons, exists_eq_or_imp, hc]
          constructor
          · rintro (h | h)
            · exact .inl ⟨⟨prog, rfl⟩, h⟩
            · exact .inr h
          · rintro (h | h)
            · exact .inl h.2
            · exact .inr h

/-- The programs run by the actions, with their files. -/
def groupsOf (as : List Run.Action) : List (Run.Program × List Run.File) :=
  as.filterMap fun | .lint p fs => some (p, fs) | .internal _ => none

/-- The internal diagnostics of the actions. -/
def internalsOf (as : List Run.Action) : List Internal :=
  as.filterMap fun | .lint _ _ => none | .internal d => some d

theorem lintedBy_eq (as : List Run.Action) : lintedBy as = (groupsOf as).flatMap (·.2) := by
  induction as with
  | nil => rfl
  | cons a as ih => cases a <;> simp_all [lintedBy, groupsOf]

theorem groupsOf_append (a b : List Run.Action) : groupsOf (a ++ b) = groupsOf a ++ groupsOf b := by simp [groupsOf]
theorem internalsOf_append (a b : List Run.Action) : internalsOf (a ++ b) = internalsOf a ++ internalsOf b := by simp [internalsOf]

theorem groupsOf_internal (ds : List Internal) : groupsOf (ds.map .internal) = [] := by
  induction ds with
  | nil => rfl
  | cons d ds ih => simpa [groupsOf] using ih

theorem internalsOf_internal (ds : List Internal) : internalsOf (ds.map .internal) = ds := by
  induction ds with
  | nil => rfl
  | cons d ds ih => simp [internalsOf] at ih ⊢; exact ih

/-- Internal diagnostics and groups of the programs. -/
theorem programs_groups (e : Env Node) (te : Run.TypeErrors) (w : String → List String) (os : List String)
    (parts : List (List Run.Action))
    (h : List.Forall₂ (Run.Handles e.ts e.contains e.suppress te) (os.map fun c => (c, w c)) parts) :
    (internalsOf parts.flatten).Perm (os.flatMap (configProblems e) ++
      (groupsOf parts.flatten).flatMap fun g => Run.reportTs e.ts g.1 g.2 te) ∧
    ∀ g ∈ groupsOf parts.flatten, ∃ c ∈ os, Run.createProgram e.ts e.contains e.suppress c = .ok g.1 ∧ Run.Selects g.1 (w c) g.2 := by
  induction os generalizing parts with
  | nil => cases h; simp [groupsOf, internalsOf]
  | cons c os ih =>
    rw [List.map_cons] at h
    cases h with
    | @cons _ part _ parts' h1 h2 =>
      obtain ⟨i1, i2⟩ := ih parts' h2
      rw [List.flatten_cons, groupsOf_append, internalsOf_append]
      cases h1 with
      | @invalid _ _ ds hc =>
        rw [groupsOf_internal, internalsOf_internal]
        refine ⟨?_, ?_⟩
        · simp only [List.flatMap_cons, configProblems, hc, List.nil_append, List.append_assoc]
          exact i1.append_left ds
        · intro g hg
          obtain ⟨c', hc', hh⟩ := i2 g (by simpa using hg)
          exact ⟨c', by simp [hc'], hh⟩
      | @linted _ _ prog files hc hsel =>
        rw [groupsOf_append, internalsOf_append, groupsOf_internal, internalsOf_internal]
        have hg1 : groupsOf [.lint prog files] = [(prog, files)] := rfl
        have hg2 : internalsOf [.lint prog files] = [] := rfl
        rw [hg1, hg2]
        refine ⟨?_, ?_⟩
        · simp only [List.flatMap_cons, configProblems, hc, List.nil_append, List.append_nil, List.cons_append]
          refine (i1.append_left _).trans ?_
          rw [← List.append_assoc, ← List.append_assoc]
          exact (List.perm_append_comm).append_right _
        · intro g hg
          simp only [List.nil_append, List.cons_append, List.mem_cons] at hg
          rcases hg with rfl | hg
          · exact ⟨c, by simp, hc, hsel⟩
          · obtain ⟨c', hc', hh⟩ := i2 g hg
            exact ⟨c', by simp [hc'], hh⟩

theorem contribution_rules (e : Env Node) (p : Payload.Payload) (fx : FixState) (as : List Run.Action) :
    (as.flatMap (contribution e p fx)).filter AnyDiag.isRule = (lintedBy as).flatMap (fileDiags e p fx) := by
  have hf : ∀ f, (fileDiags e p fx f).filter AnyDiag.isRule = fileDiags e p fx f := by
    intro f
    rw [List.filter_eq_self]
    intro a ha
    unfold fileDiags at ha
    rw [List.mem_filterMap] at ha
    obtain ⟨x, _, hx⟩ := ha
    split at hx
    · cases hx; rfl
    · cases hx
  have hfs : ∀ fs : List Run.File, (fs.flatMap (fileDiags e p fx)).filter AnyDiag.isRule = fs.flatMap (fileDiags e p fx) := by
    intro fs
    induction fs with
    | nil => rfl
    | cons f fs ih => rw [List.flatMap_cons, List.filter_append, hf, ih]
  induction as with
  | nil => rfl
  | cons a as ih =>
    rw [List.flatMap_cons, List.filter_append, ih]
    cases a with
    | internal d => simp [contribution, lintedBy, AnyDiag.isRule]
    | lint prog fs => simp [contribution, lintedBy, hfs]

theorem contribution_internals (e : Env Node) (p : Payload.Payload) (fx : FixState) (as : List Run.Action) :
    (as.flatMap (contribution e p fx)).filterMap AnyDiag.asInternal = internalsOf as := by
  have hf : ∀ f, (fileDiags e p fx f).filterMap AnyDiag.asInternal = [] := by
    intro f
    rw [List.filterMap_eq_nil_iff]
    intro a ha
    unfold fileDiags at ha
    rw [List.mem_filterMap] at ha
    obtain ⟨x, _, hx⟩ := ha
    split at hx
    · cases hx; rfl
    · cases hx
  have hfs : ∀ fs : List Run.File, (fs.flatMap (fileDiags e p fx)).filterMap AnyDiag.asInternal = [] := by
    intro fs
    induction fs with
    | nil => rfl
    | cons f fs ih => rw [List.flatMap_cons, List.filterMap_append, hf, ih]; rfl
  induction as with
  | nil => rfl
  | cons a as ih =>
    rw [List.flatMap_cons, List.filterMap_append, ih]
    cases a with
    | internal d => simp [contribution, internalsOf, AnyDiag.asInternal]
    | lint prog fs => simp [contribution, internalsOf, hfs]

end Tsgolint.Headless
