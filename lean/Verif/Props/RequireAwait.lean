import Verif.Spec.RequireAwait
import Verif.Proof.RuleTree
/-! # C43: require-await reports exactly the async functions that never wait -/
namespace Tsgolint.RequireAwait
open Tsgolint.RuleTree
open Tsgolint.Fixer (Fix Bytes edit editAll Disjoint ascii)

/-- The scope of a function. -/
def fresh : Label → Scope
  | .func f => enter f
  | _ => ⟨false, false, false, false⟩

/-- Leaving it. -/
def leave (s : Scope) : Label → List Report
  | .func f => exitFunction s f
  | _ => []

theorem isScoped : Scoped step Label.isFunc fresh (fun s l => (within s l, [])) leave where
  push := by intro st a h; cases a <;> simp [Label.isFunc] at h; simp [step, fresh]
  pop := by intro s st a h; cases a <;> simp [Label.isFunc] at h; simp [step, leave]
  top := by intro s st a h; cases a <;> simp [Label.isFunc] at h <;> simp [step]
  none := by intro a h; cases a <;> simp [Label.isFunc] at h <;> simp [step]
  out := by intro st a h; cases a <;> simp [Label.isFunc] at h <;> cases st <;> simp [step]

theorem within_reports (ls : List Label) (s : Scope) :
    (RuleTree.within (fun s l => (within s l, ([] : List Report))) s ls).2 = [] := by
  induction ls generalizing s with
  | nil => rfl
  | cons l ls ih => simp [RuleTree.within, ih]

theorem within_state (ls : List Label) (s : Scope) :
    let s' := (RuleTree.within (fun s l => (within s l, ([] : List Report))) s ls).1
    s'.isAsync = s.isAsync ∧ s'.isGenerator = s.isGenerator ∧
    (s.isAsync = true → (s'.hasAwait = true ↔ s.hasAwait = true ∨ ∃ n ∈ ls, Awaits n)) ∧
    (s.isGenerator = true → (s'.isAsyncYield = true ↔ s.isAsyncYield = true ∨ ∃ n ∈ ls, YieldsAsync n)) := by
  induction ls generalizing s with
  | nil => simp [RuleTree.within]
  | cons l ls ih =>
    simp only [RuleTree.within]
    obtain ⟨h1, h2, h3, h4⟩ := ih (within s l)
    have k : (within s l).isAsync = s.isAsync ∧ (within s l).isGenerator = s.isGenerator ∧
        (s.isAsync = true → ((within s l).hasAwait = true ↔ s.hasAwait = true ∨ Awaits l)) ∧
        (s.isGenerator = true → ((within s l).isAsyncYield = true ↔ s.isAsyncYield = true ∨ YieldsAsync l)) := by
      obtain ⟨sa, sy, sas, sg⟩ := s
      cases l with
      | func f => simp [within, Awaits, YieldsAsync]
      | await => simp [within, Awaits, YieldsAsync]
      | forOf b => cases b <;> simp [within, Awaits, YieldsAsync]
      | varList b => cases b <;> simp [within, Awaits, YieldsAsync]
      | ret a b => cases a <;> cases b <;> cases sa <;> cases sas <;> simp [within, Awaits, YieldsAsync]
      | other => simp [within, Awaits, YieldsAsync]
      | yield y =>
        obtain ⟨y1, y2, y3, y4, y5⟩ := y
        cases y1 <;> cases y2 <;> cases y3 <;> cases y4 <;> cases y5 <;> cases sy <;> cases sg <;>
          simp [within, onYield, Awaits, YieldsAsync]
    obtain ⟨k1, k2, k3, k4⟩ := k
    refine ⟨h1.trans k1, h2.trans k2, fun hs => ?_, fun hs => ?_⟩
    · rw [h3 (k1.trans hs), k3 hs]
      simp only [List.mem_cons, exists_eq_or_imp, or_assoc]
    · rw [h4 (k2.trans hs), k4 hs]
      simp only [List.mem_cons, exists_eq_or_imp, or_assoc]

theorem enter_state (f : Func) :
    ((enter f).isAsync = true ↔ f.isAsync = true ∧ f.hasStatements = true) ∧
    ((enter f).isAsync = true → (enter f).isGenerator = f.isGenerator ∧ (enter f).isAsyncYield = false ∧
      ((enter f).hasAwait = true ↔ ReturnsPromise f)) := by
  obtain ⟨i, a, g, b, arrow⟩ := f
  cases arrow with
  | none => cases a <;> cases b <;> simp [enter, enterFunction, ReturnsPromise]
  | some w =>
    obtain ⟨w1, w2, w3⟩ := w
    cases a <;> cases b <;> cases w1 <;> cases w2 <;> cases w3 <;> simp [enter, enterFunction, enterArrow, ReturnsPromise]

theorem localReports_mem (f : Func) (ls : List Label) (x : Report) :
    x ∈ localReports fresh (fun s l => (within s l, [])) leave (.func f, ls) ↔ NeedlesslyAsync f ls ∧ x = ⟨f.id, f.isGenerator⟩ := by
  simp only [localReports, within_reports, List.nil_append, fresh, leave]
  obtain ⟨h1, h2, h3, h4⟩ := within_state ls (enter f)
  obtain ⟨e1, e2⟩ := enter_state f
  generalize hs' : (RuleTree.within (fun s l => (within s l, ([] : List Report))) (enter f) ls).1 = s' at *
  unfold exitFunction
  by_cases ha : (enter f).isAsync = true
  · obtain ⟨g1, g2, g3⟩ := e2 ha
    have h3 := h3 ha
    rw [g3] at h3
    rw [g1] at h2
    have ha' : s'.isAsync = true := h1.trans ha
    have hf := e1.1 ha
    rw [ha', h2]
    by_cases hw : s'.hasAwait = true
    · rw [hw]
      simp only [Bool.not_true, Bool.and_false, Bool.false_and, Bool.false_eq_true, if_false, List.not_mem_nil, false_iff]
      rintro ⟨⟨_, _, hn, hr, _⟩, _⟩
      rcases h3.1 hw with h | ⟨n, hmem, h⟩
      · exact hr h
      · exact hn n hmem h
    · have hw' : s'.hasAwait = false := by simpa using hw
      rw [hw']
      have hno : ¬ ReturnsPromise f ∧ ∀ n ∈ ls, ¬ Awaits n :=
        ⟨fun h => hw (h3.2 (.inl h)), fun n hn h => hw (h3.2 (.inr ⟨n, hn, h⟩))⟩
      cases hg : f.isGenerator with
      | false =>
        simp only [Bool.not_false, Bool.and_true, Bool.false_and, if_true, List.mem_singleton]
        constructor
        · intro hx; exact ⟨⟨hf.1, hf.2, hno.2, hno.1, by simp [hg]⟩, hx⟩
        · exact fun h => h.2
      | true =>
        rw [hg] at g1
        have h4 := h4 g1
        rw [g2] at h4
        simp only [Bool.false_eq_true, false_or] at h4
        cases hy : s'.isAsyncYield with
        | true =>
          simp only [Bool.not_false, Bool.and_true, Bool.not_true, Bool.and_false, Bool.false_eq_true, if_false, List.not_mem_nil, false_iff]
          rintro ⟨⟨_, _, _, _, hn⟩, _⟩
          obtain ⟨n, hmem, h⟩ := h4.1 hy
          exact hn hg n hmem h
        | false =>
          simp only [Bool.not_false, Bool.and_true, Bool.and_false, if_true, List.mem_singleton]
          constructor
          · intro hx
            refine ⟨⟨hf.1, hf.2, hno.2, hno.1, fun _ n hn h => ?_⟩, hx⟩
            have := h4.2 ⟨n, hn, h⟩
            rw [hy] at this; cases this
          · exact fun h => h.2
  · have ha' : s'.isAsync = false := by rw [h1]; simpa using ha
    rw [ha']
    simp only [Bool.false_and, Bool.false_eq_true, if_false, List.not_mem_nil, false_iff]
    rintro ⟨⟨h, h', _⟩, _⟩
    exact ha (e1.2 ⟨h, h'⟩)

/-- C43.  The functions reported are exactly those that are needlessly async, judged by what lies in them outside nested functions. -/
theorem C43_exact (file : List (Tree Label)) (x : Report) :
    x ∈ check file ↔ ∃ tree ∈ file, ∃ f cs, Occurs tree (.node (.func f) cs) ∧ NeedlesslyAsync f (owns Label.isFunc cs) ∧
      x = ⟨f.id, f.isGenerator⟩ := by
  obtain ⟨_, hp⟩ := scoped_trees_top isScoped file
  rw [check, hp.mem_iff, List.mem_flatMap]
  constructor
  · rintro ⟨⟨a, ls⟩, hf, hx⟩
    rw [mem_funcss] at hf
    obtain ⟨tree, ht, cs, ho, hfn, hls⟩ := hf
    cases a <;> simp [Label.isFunc] at hfn
    rename_i f
    simp only at hls
    subst hls
    rw [localReports_mem] at hx
    exact ⟨tree, ht, f, cs, ho, hx⟩
  · rintro ⟨tree, ht, f, cs, ho, hw⟩
    refine ⟨(.func f, owns Label.isFunc cs), ?_, ?_⟩
    · rw [mem_funcss]; exact ⟨tree, ht, cs, ho, rfl, rfl⟩
    · rw [localReports_mem]; exact hw

/-- C43.  No function is reported twice: there are at most as many reports as functions, and if their ids differ so do the reports. -/
theorem C43_once (file : List (Tree Label)) (hid : ((funcss Label.isFunc file).map fun g => match g.1 with
    | .func f => f.id
    | _ => 0).Nodup) : (check file).Nodup := by
  obtain ⟨_, hp⟩ := scoped_trees_top isScoped file
  rw [check, hp.nodup_iff]
  have hlocal : ∀ g ∈ funcss Label.isFunc file, ∃ f, g.1 = .func f ∧
      (localReports fresh (fun s l => (within s l, [])) leave g = [] ∨
        localReports fresh (fun s l => (within s l, [])) leave g = [⟨f.id, f.isGenerator⟩]) := by
    rintro ⟨a, ls⟩ hg
    rw [mem_funcss] at hg
    obtain ⟨_, _, _, _, hfn, _⟩ := hg
    obtain ⟨f, rfl⟩ : ∃ f, a = .func f := by cases a <;> simp_all [Label.isFunc]
    refine ⟨f, rfl, ?_⟩
    have hm := localReports_mem f ls
    have hlen : (localReports fresh (fun s l => (within s l, [])) leave (.func f, ls)).length ≤ 1 := by
      simp only [localReports, within_reports, List.nil_append, leave, exitFunction]
      split <;> simp
    cases hl : localReports fresh (fun s l => (within s l, [])) leave (.func f, ls) with
    | nil => exact .inl rfl
    | cons x xs =>
      rw [hl] at hlen hm
      have : xs = [] := by cases xs <;> simp_all
      subst this
      have := ((hm x).1 (by simp)).2
      subst this
      exact .inr rfl
  clear hp
  revert hid hlocal
  induction funcss Label.isFunc file with
  | nil => simp
  | cons g gs ih =>
    intro hid hlocal
    rw [List.map_cons, List.nodup_cons] at hid
    have hid' := ih hid.2 fun g hg => hlocal g (by simp [hg])
    rw [List.flatMap_cons]
    obtain ⟨f, hf, h | h⟩ := hlocal g (by simp)
    · rw [h]; exact hid'
    · rw [h, List.singleton_append]
      refine List.nodup_cons.2 ⟨?_, hid'⟩
      intro hmem
      rw [List.mem_flatMap] at hmem
      obtain ⟨g', hg', hx⟩ := hmem
      obtain ⟨f', hf', h' | h'⟩ := hlocal g' (by simp [hg'])
      · rw [h'] at hx; simp at hx
      · rw [h', List.mem_singleton] at hx
        apply hid.1
        rw [List.mem_map]
        refine ⟨g', hg', ?_⟩
        rw [hf, hf']
        simp only
        injection hx with hx; exact hx.symm

/-! ## The suggestion -/

/-- C43 (semicolon).  No semicolon is put before the node exactly if nothing but white space precedes it, or the last other character is one
of `; : { , ( [`, or closes an `=>`, `++` or `--`, or is the `}` of the method before it. -/
theorem C43_semicolon (before : Bytes) (afterMember : Bool) :
    needsPrecedingSemicolon before afterMember = false ↔
      (∀ c ∈ before, isSpace c = true) ∨
      ∃ pre c spaces, before = pre ++ [c] ++ spaces ∧ (∀ s ∈ spaces, isSpace s = true) ∧ isSpace c = false ∧
        (c ∈ (ascii ";:{,([") ∨ (∃ pre', pre ++ [c] = pre' ++ (ascii "=>")) ∨ (∃ pre', pre ++ [c] = pre' ++ (ascii "++")) ∨
          (∃ pre', pre ++ [c] = pre' ++ (ascii "--")) ∨ ([c] = (ascii "}") ∧ afterMember = true)) := by
  have e1 : (ascii ";:{,([") = [59, 58, 123, 44, 40, 91] := by decide
  have e2 : (ascii "=>") = [61, 62] := by decide
  have e3 : (ascii "++") = [43, 43] := by decide
  have e4 : (ascii "--") = [45, 45] := by decide
  have e5 : (ascii "}") = [125] := by decide
  rw [e1, e2, e3, e4, e5]
  -- what `lastTwo` finds
  have hlast : ∀ l : List UInt8, (lastTwo l = none ↔ ∀ c ∈ l, isSpace c = true) ∧
      ∀ c p, lastTwo l = some (c, p) ↔ ∃ spaces rest, l = spaces ++ c :: rest ∧ (∀ s ∈ spaces, isSpace s = true) ∧ isSpace c = false ∧
        p = rest.head? := by
    intro l
    induction l with
    | nil => simp [lastTwo]
    | cons x l ih =>
      cases hx : isSpace x with
      | true =>
        simp only [lastTwo, hx, if_true]
        refine ⟨by rw [ih.1]; simp [hx], ?_⟩
        intro c p
        rw [ih.2 c p]
        constructor
        · rintro ⟨sp, rest, rfl, h1, h2, h3⟩
          exact ⟨x :: sp, rest, by simp, by simpa [hx] using h1, h2, h3⟩
        · rintro ⟨sp, rest, he, h1, h2, h3⟩
          cases sp with
          | nil => simp at he; rw [he.1] at hx; rw [hx] at h2; cases h2
          | cons y sp =>
            simp only [List.cons_append, List.cons.injEq] at he
            exact ⟨sp, rest, he.2, fun s hs => h1 s (by simp [hs]), h2, h3⟩
      | false =>
        simp only [lastTwo, hx, Bool.false_eq_true, if_false]
        refine ⟨by simp [hx], ?_⟩
        intro c p
        constructor
        · intro h
          simp only [Option.some.injEq, Prod.mk.injEq] at h
          obtain ⟨rfl, rfl⟩ := h
          exact ⟨[], l, rfl, by simp, hx, rfl⟩
        · rintro ⟨sp, rest, he, h1, h2, h3⟩
          cases sp with
          | nil => simp at he; rw [he.1, he.2, h3]
          | cons y sp =>
            simp only [List.cons_append, List.cons.injEq] at he
            have := h1 y (by simp)
            rw [← he.1, hx] at this; cases this
  have hlast := hlast before.reverse
  unfold needsPrecedingSemicolon
  cases hl : lastTwo before.reverse with
  | none =>
    simp only [true_iff]
    left
    intro c hc
    exact hlast.1.1 hl c (by simpa using hc)
  | some r =>
    obtain ⟨ch, prev⟩ := r
    obtain ⟨sp, rest, hrev, hsp, hch, hprev⟩ := (hlast.2 ch prev).1 hl
    have hbefore : before = rest.reverse ++ [ch] ++ sp.reverse := by
      have := congrArg List.reverse hrev
      simpa using this
    have huniq : ∀ pre c spaces, before = pre ++ [c] ++ spaces → (∀ s ∈ spaces, isSpace s = true) → isSpace c = false →
        c = ch ∧ pre.reverse.head? = prev := by
      intro pre c spaces he h1 h2
      have : lastTwo before.reverse = some (c, pre.reverse.head?) := by
        rw [(hlast.2 c pre.reverse.head?)]
        exact ⟨spaces.reverse, pre.reverse, by rw [he]; simp, by simpa using h1, h2, rfl⟩
      rw [hl] at this
      simp only [Option.some.injEq, Prod.mk.injEq] at this
      exact ⟨this.1.symm, this.2.symm⟩
    have htwo : ∀ (x y : UInt8) (pre : List UInt8) (c : UInt8), (∃ pre', pre ++ [c] = pre' ++ [x, y]) ↔ pre.reverse.head? = some x ∧ c = y := by
      intro x y pre c
      constructor
      · rintro ⟨pre', he⟩
        have := congrArg List.reverse he
        simp only [List.reverse_append, List.reverse_cons, List.reverse_nil, List.nil_append, List.cons_append, List.singleton_append,
          List.cons.injEq] at this
        rw [this.1, this.2]
        simp
      · rintro ⟨h1, rfl⟩
        cases hr : pre.reverse with
        | nil => rw [hr] at h1; simp at h1
        | cons z zs =>
          rw [hr] at h1
          simp at h1
          subst h1
          refine ⟨zs.reverse, ?_⟩
          have := congrArg List.reverse hr
          simp only [List.reverse_reverse, List.reverse_cons] at this
          rw [this]; simp
    have hmain : (∃ pre c spaces, before = pre ++ [c] ++ spaces ∧ (∀ s ∈ spaces, isSpace s = true) ∧ isSpace c = false ∧
        (c ∈ ([59, 58, 123, 44, 40, 91] : List UInt8) ∨ (∃ pre', pre ++ [c] = pre' ++ [61, 62]) ∨ (∃ pre', pre ++ [c] = pre' ++ [43, 43]) ∨
          (∃ pre', pre ++ [c] = pre' ++ [45, 45]) ∨ ([c] = [125] ∧ afterMember = true))) ↔
        (ch ∈ ([59, 58, 123, 44, 40, 91] : List UInt8) ∨ (prev = some 61 ∧ ch = 62) ∨ (prev = some 43 ∧ ch = 43) ∨ (prev = some 45 ∧ ch = 45) ∨
          (ch = 125 ∧ afterMember = true)) := by
      constructor
      · rintro ⟨pre, c, spaces, he, h1, h2, h⟩
        obtain ⟨rfl, hp⟩ := huniq pre c spaces he h1 h2
        rw [htwo, htwo, htwo, hp] at h
        simpa using h
      · intro h
        refine ⟨rest.reverse, ch, sp.reverse, hbefore, by simpa using hsp, hch, ?_⟩
        rw [htwo, htwo, htwo]
        simp only [List.reverse_reverse, ← hprev]
        simpa using h
    have hsome : ¬ ∀ c ∈ before, isSpace c = true := by
      intro h
      have := h ch (by rw [hbefore]; simp)
      rw [hch] at this; cases this
    rw [hmain]
    simp only [hsome, false_or]
    simp only [List.mem_cons, List.not_mem_nil, or_false]
    by_cases c1 : (ch == 59 || ch == 58 || ch == 123 || ch == 44 || ch == 40 || ch == 91) = true
    · simp only [c1, if_true, true_iff]
      left
      simpa [or_assoc] using c1
    · have c1' : ¬ (ch = 59 ∨ ch = 58 ∨ ch = 123 ∨ ch = 44 ∨ ch = 40 ∨ ch = 91) := by
        intro h; apply c1; simpa [or_assoc] using h
      simp only [c1, c1', false_or]
      by_cases c2 : ((prev == some 61 && ch == 62) || (prev == some 43 && ch == 43) || (prev == some 45 && ch == 45)) = true
      · simp only [c2, if_true]
        have : (prev = some 61 ∧ ch = 62) ∨ (prev = some 43 ∧ ch = 43) ∨ (prev = some 45 ∧ ch = 45) := by simpa [or_assoc] using c2
        simp only [Bool.false_eq_true, if_false, true_iff]
        rcases this with h | h | h
        · exact .inl h
        · exact .inr (.inl h)
        · exact .inr (.inr (.inl h))
      · have c2' : ¬ (prev = some 61 ∧ ch = 62) ∧ ¬ (prev = some 43 ∧ ch = 43) ∧ ¬ (prev = some 45 ∧ ch = 45) := by
          refine ⟨fun h => c2 ?_, fun h => c2 ?_, fun h => c2 ?_⟩ <;> simp [h]
        simp only [c2, c2'.1, c2'.2.1, c2'.2.2, false_or]
        cases afterMember <;> simp

/-- C43 (fix).  For a function written `… async ␣ … : Promise < T > …` the suggestion removes `async` with its white space (leaving a
semicolon if one is needed) and unwraps the type, and changes nothing else; its three edits do not overlap. -/
theorem C43_unwraps (a asyncText b name t c : Bytes) (hazard start afterMember : Bool) :
    let site : AsyncSite := ⟨a.length, (a ++ asyncText).length, hazard, start, a, afterMember,
      .promise (a ++ asyncText ++ b).length (a ++ asyncText ++ b ++ name ++ [60]).length (a ++ asyncText ++ b ++ name ++ [60] ++ t).length⟩
    let code := a ++ asyncText ++ b ++ name ++ [60] ++ t ++ [62] ++ c
    ∃ sorted, (removeAsyncFixes site false).Perm sorted ∧ Disjoint sorted ∧
      editAll code sorted = a ++ (if hazard && (start && needsPrecedingSemicolon a afterMember) then [59] else []) ++ b ++ t ++ c := by
  intro site code
  refine ⟨[⟨if hazard && (start && needsPrecedingSemicolon a afterMember) then [59] else [], a.length, (a ++ asyncText).length⟩,
    ⟨[], (a ++ asyncText ++ b).length, (a ++ asyncText ++ b ++ name ++ [60]).length⟩,
    ⟨[], (a ++ asyncText ++ b ++ name ++ [60] ++ t).length, (a ++ asyncText ++ b ++ name ++ [60] ++ t ++ [62]).length⟩], ?_, ?_, ?_⟩
  · simp only [removeAsyncFixes, site]
    have h1 : (((a ++ asyncText ++ b ++ name ++ [60]).length : Nat) : Int) - 1 + 1 = ((a ++ asyncText ++ b ++ name ++ [60]).length : Nat) := by omega
    have h2 : (((a ++ asyncText ++ b ++ name ++ [60] ++ t).length : Nat) : Int) + 1 =
        ((a ++ asyncText ++ b ++ name ++ [60] ++ t ++ [62]).length : Nat) := by simp; omega
    rw [h1, h2]
    simp only [Bool.not_false, if_true]
    exact List.Perm.cons _ (List.Perm.swap _ _ _)
  · simp [Disjoint]; omega
  · simp only [editAll, List.foldr_cons, List.foldr_nil, edit, code, Int.toNat_natCast]
    generalize (if (hazard && (start && needsPrecedingSemicolon a afterMember)) = true then ([59] : Bytes) else []) = semi
    have t1 : ∀ (x y : Bytes), (x ++ y).take x.length = x := by intro x y; simp
    have d1 : ∀ (x y : Bytes), (x ++ y).drop x.length = y := by intro x y; simp
    rw [show a ++ asyncText ++ b ++ name ++ [60] ++ t ++ [62] ++ c = (a ++ asyncText ++ b ++ name ++ [60] ++ t) ++ ([62] ++ c) by simp, t1,
      show (a ++ asyncText ++ b ++ name ++ [60] ++ t) ++ ([62] ++ c) = (a ++ asyncText ++ b ++ name ++ [60] ++ t ++ [62]) ++ c by simp, d1]
    simp only [List.append_nil]
    rw [show a ++ asyncText ++ b ++ name ++ [60] ++ t ++ c = (a ++ asyncText ++ b) ++ (name ++ [60] ++ t ++ c) by simp, t1,
      show (a ++ asyncText ++ b) ++ (name ++ [60] ++ t ++ c) = (a ++ asyncText ++ b ++ name ++ [60]) ++ (t ++ c) by simp, d1,
      show a ++ asyncText ++ b ++ (t ++ c) = a ++ (asyncText ++ b ++ t ++ c) by simp, t1,
      show a ++ (asyncText ++ b ++ t ++ c) = (a ++ asyncText) ++ (b ++ t ++ c) by simp, d1]
    simp

/-- C43 (fix).  For an async generator annotated `AsyncGenerator…` the suggestion removes `async` and renames the type to `Generator`. -/
theorem C43_renames (a asyncText b name c : Bytes) (hazard start afterMember : Bool) :
    let site : AsyncSite := ⟨a.length, (a ++ asyncText).length, hazard, start, a, afterMember,
      .asyncGenerator (a ++ asyncText ++ b).length (a ++ asyncText ++ b ++ name).length⟩
    let code := a ++ asyncText ++ b ++ name ++ c
    Disjoint (removeAsyncFixes site true) ∧
      editAll code (removeAsyncFixes site true) =
        a ++ (if hazard && (start && needsPrecedingSemicolon a afterMember) then [59] else []) ++ b ++ (ascii "Generator") ++ c := by
  intro site code
  have hG : (ascii "Generator") = [71, 101, 110, 101, 114, 97, 116, 111, 114] := by decide
  rw [hG]
  constructor
  · simp [Disjoint, removeAsyncFixes, site]; omega
  · simp only [removeAsyncFixes, site, if_true, editAll, List.foldr_cons, List.foldr_nil, edit, code, Int.toNat_natCast]
    generalize (if (hazard && (start && needsPrecedingSemicolon a afterMember)) = true then ([59] : Bytes) else []) = semi
    have t1 : ∀ (x y : Bytes), (x ++ y).take x.length = x := by intro x y; simp
    have d1 : ∀ (x y : Bytes), (x ++ y).drop x.length = y := by intro x y; simp
    generalize ([71, 101, 110, 101, 114, 97, 116, 111, 114] : Bytes) = G
    rw [d1, show a ++ asyncText ++ b ++ name ++ c = (a ++ asyncText ++ b) ++ (name ++ c) by simp, t1,
      show a ++ asyncText ++ b ++ G ++ c = a ++ (asyncText ++ b ++ G ++ c) by simp, t1,
      show a ++ (asyncText ++ b ++ G ++ c) = (a ++ asyncText) ++ (b ++ G ++ c) by simp, d1]
    simp

/-! ## Examples -/

/-- `async function f() { const g = async () => { await x }; function h() { for await … } return 1 }` -/
def exampleFile : List (Tree Label) :=
  [.node (.func ⟨1, true, false, true, none⟩) [
    .node .other [.node (.func ⟨2, true, false, true, some ⟨true, false, false⟩⟩) [.node .await []]],
    .node (.func ⟨3, false, false, true, none⟩) [.node (.forOf true) []],
    .node (.ret true false) []]]

example : check exampleFile = [⟨1, false⟩] := by decide
example : check [.node (.func ⟨1, true, true, true, none⟩) [.node (.yield ⟨true, false, true, false, true⟩) []]] = [] := by decide
example : check [.node (.func ⟨1, true, true, true, none⟩) [.node (.yield ⟨true, false, false, false, true⟩) []]] = [⟨1, true⟩] := by decide
example : check [.node (.func ⟨1, true, false, true, some ⟨false, false, true⟩⟩) []] = [] := by decide
example : needsPrecedingSemicolon (ascii "const x = 1\n  ") false = true := by decide
example : needsPrecedingSemicolon (ascii "f() {} ") true = false := by decide
example : needsPrecedingSemicolon (ascii "x => ") false = false := by decide

end Tsgolint.RequireAwait
