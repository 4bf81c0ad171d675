import Verif.Spec.ReturnAwait
import Verif.Proof.RuleTree
/-! # C44: return-await -/
namespace Tsgolint.ReturnAwait
open Tsgolint.RuleTree
open Tsgolint.Fixer (Fix Bytes edit editAll Disjoint ascii)

theorem findContainingTry_eq (l : List Ancestor) :
    (findContainingTry l = none ↔ ∀ below a above, l = below ++ a :: above → (∀ b ∈ below, b ≠ .functionLike) → ∀ p f, a ≠ .tryStatement p f) ∧
    ∀ p f rest, findContainingTry l = some (p, f, rest) ↔
      ∃ below, l = below ++ .tryStatement p f :: rest ∧ ∀ b ∈ below, b = .other := by
  induction l with
  | nil => simp [findContainingTry]
  | cons x l ih =>
    cases x with
    | functionLike =>
      constructor
      · simp only [findContainingTry, true_iff]
        intro below a above he hb p f ha
        cases below with
        | nil => simp at he; rw [ha] at he; simp at he
        | cons b below =>
          simp only [List.cons_append, List.cons.injEq] at he
          exact hb b (by simp) he.1.symm
      · intro p f rest
        simp only [findContainingTry, reduceCtorEq, false_iff, not_exists, not_and]
        intro below he hb
        cases below with
        | nil => simp at he
        | cons b below =>
          simp only [List.cons_append, List.cons.injEq] at he
          have := hb b (by simp)
          rw [← he.1] at this; cases this
    | tryStatement p' f' =>
      constructor
      · simp only [findContainingTry, reduceCtorEq, false_iff]
        intro h
        exact h [] _ l rfl (by simp) p' f' rfl
      · intro p f rest
        simp only [findContainingTry, Option.some.injEq, Prod.mk.injEq]
        constructor
        · rintro ⟨rfl, rfl, rfl⟩; exact ⟨[], rfl, by simp⟩
        · rintro ⟨below, he, hb⟩
          cases below with
          | nil => simp at he; exact ⟨he.1.1, he.1.2, he.2⟩
          | cons b below =>
            simp only [List.cons_append, List.cons.injEq] at he
            have := hb b (by simp)
            rw [← he.1] at this; cases this
    | other =>
      constructor
      · simp only [findContainingTry, ih.1]
        constructor
        · intro h below a above he hb p f ha
          cases below with
          | nil => simp at he; rw [ha] at he; simp at he
          | cons b below =>
            simp only [List.cons_append, List.cons.injEq] at he
            exact h below a above he.2 (fun c hc => hb c (by simp [hc])) p f ha
        · intro h below a above he hb p f ha
          exact h (.other :: below) a above (by simp [he]) (by simpa using hb) p f ha
      · intro p f rest
        simp only [findContainingTry, ih.2]
        constructor
        · rintro ⟨below, rfl, hb⟩; exact ⟨.other :: below, rfl, by simpa using hb⟩
        · rintro ⟨below, he, hb⟩
          cases below with
          | nil => simp at he
          | cons b below =>
            simp only [List.cons_append, List.cons.injEq] at he
            exact ⟨below, he.2, fun c hc => hb c (by simp [hc])⟩

/-- The walk of `affectsExplicitErrorHandling` finds the handling ancestors of the function. -/
theorem affects_iff (l : List Ancestor) : affectsErrorHandling l = true ↔
    ∃ below a above, l = below ++ a :: above ∧ (∀ b ∈ below, b ≠ .functionLike) ∧ Handles a := by
  induction hn : l.length using Nat.strongRecOn generalizing l with
  | _ n ih =>
    subst hn
    -- if the nearest try statement does not handle, look further
    have skip : ∀ p f rest, findContainingTry l = some (p, f, rest) → ¬ Handles (.tryStatement p f) →
        ((∃ below a above, l = below ++ a :: above ∧ (∀ b ∈ below, b ≠ .functionLike) ∧ Handles a) ↔
          ∃ below a above, rest = below ++ a :: above ∧ (∀ b ∈ below, b ≠ .functionLike) ∧ Handles a) := by
      intro p f rest h hno
      obtain ⟨pre, rfl, hpre⟩ := ((findContainingTry_eq l).2 p f rest).1 h
      constructor
      · rintro ⟨below, a, above, he, hb, ha⟩
        rcases List.append_eq_append_iff.1 he with ⟨mid, h1, h2⟩ | ⟨mid, h1, h2⟩
        · -- below = pre ++ mid, tryStatement :: rest = mid ++ a :: above
          cases mid with
          | nil =>
            simp at h2
            rw [← h2.1] at ha; exact absurd ha hno
          | cons m mid =>
            simp only [List.cons_append, List.cons.injEq] at h2
            exact ⟨mid, a, above, h2.2, fun b hb' => hb b (by rw [h1]; simp [hb']), ha⟩
        · -- pre = below ++ mid, a :: above = mid ++ tryStatement :: rest
          cases mid with
          | nil =>
            simp at h2
            rw [h2.1] at ha; exact absurd ha hno
          | cons m mid =>
            simp only [List.cons_append, List.cons.injEq] at h2
            have := hpre m (by rw [h1]; simp)
            rw [h2.1, this] at ha
            rcases ha with ⟨f, hf⟩ | hf <;> cases hf
      · rintro ⟨below, a, above, rfl, hb, ha⟩
        refine ⟨pre ++ .tryStatement p f :: below, a, above, by simp, ?_, ha⟩
        intro b hb'
        simp only [List.mem_append, List.mem_cons] at hb'
        rcases hb' with h | rfl | h
        · rw [hpre b h]; simp
        · simp
        · exact hb b h
    have found : ∀ p f rest, findContainingTry l = some (p, f, rest) → Handles (.tryStatement p f) →
        ∃ below a above, l = below ++ a :: above ∧ (∀ b ∈ below, b ≠ .functionLike) ∧ Handles a := by
      intro p f rest h hyes
      obtain ⟨pre, rfl, hpre⟩ := ((findContainingTry_eq l).2 p f rest).1 h
      exact ⟨pre, _, rest, rfl, fun b hb => by rw [hpre b hb]; simp, hyes⟩
    rw [affectsErrorHandling]
    split
    · rename_i h
      simp only [Bool.false_eq_true, false_iff]
      rintro ⟨below, a, above, he, hb, ha⟩
      rcases ha with ⟨f, ha⟩ | ha
      · exact ((findContainingTry_eq l).1.1 h) below a above he hb _ _ ha
      · exact ((findContainingTry_eq l).1.1 h) below a above he hb _ _ ha
    · rename_i hasFinally rest h
      cases hasFinally with
      | true => simp only [if_true, true_iff]; exact found _ _ _ h (.inr rfl)
      | false =>
        simp only [Bool.false_eq_true, if_false]
        rw [ih rest.length (findContainingTry_lt h) rest rfl]
        exact (skip _ _ _ h (by rintro (⟨f, hf⟩ | hf) <;> cases hf)).symm
    · rename_i f rest h
      rw [ih rest.length (findContainingTry_lt h) rest rfl]
      exact (skip _ _ _ h (by rintro (⟨f, hf⟩ | hf) <;> cases hf)).symm
    · rename_i f rest h
      simp only [true_iff]
      exact found _ _ _ h (.inl ⟨_, rfl⟩)

theorem usingBefore_iff (pos : Int) (cs : List Container) : usingBefore pos cs = true ↔
    ∃ inner c outer, cs = inner ++ c :: outer ∧ (∀ i ∈ inner, i.isOwningFunc = false) ∧ ∃ p, (true, p) ∈ c.locals ∧ p < pos := by
  induction cs with
  | nil => simp [usingBefore]
  | cons c cs ih =>
    have hhere : c.locals.any (fun l => l.1 && decide (l.2 < pos)) = true ↔ ∃ p, (true, p) ∈ c.locals ∧ p < pos := by
      simp only [List.any_eq_true, Bool.and_eq_true, decide_eq_true_eq]
      constructor
      · rintro ⟨⟨b, p⟩, h, rfl, hp⟩; exact ⟨p, h, hp⟩
      · rintro ⟨p, h, hp⟩; exact ⟨(true, p), h, rfl, hp⟩
    rw [usingBefore]
    split
    · rename_i h
      simp only [true_iff]
      exact ⟨[], c, cs, rfl, by simp, hhere.1 h⟩
    · rename_i h
      have hno : ¬ ∃ p, (true, p) ∈ c.locals ∧ p < pos := fun hh => h (hhere.2 hh)
      split
      · rename_i hown
        simp only [Bool.false_eq_true, false_iff]
        rintro ⟨inner, d, outer, he, hi, hd⟩
        cases inner with
        | nil => simp at he; rw [← he.1] at hd; exact hno hd
        | cons i inner =>
          simp only [List.cons_append, List.cons.injEq] at he
          have := hi i (by simp)
          rw [← he.1, hown] at this; cases this
      · rename_i hown
        rw [ih]
        constructor
        · rintro ⟨inner, d, outer, rfl, hi, hd⟩
          exact ⟨c :: inner, d, outer, rfl, by simpa [hown] using hi, hd⟩
        · rintro ⟨inner, d, outer, he, hi, hd⟩
          cases inner with
          | nil => simp at he; rw [← he.1] at hd; exact absurd hd hno
          | cons i inner =>
            simp only [List.cons_append, List.cons.injEq] at he
            exact ⟨inner, d, outer, he.2, fun j hj => hi j (by simp [hj]), hd⟩

theorem matters_iff (f : Func) (l : Leaf) : (affectsErrorHandling l.ancestors || affectsResources f.bodyIsBlock l) = true ↔ Matters f l := by
  unfold Matters InHandledBlock AfterUsing affectsResources
  rw [Bool.or_eq_true, affects_iff]
  cases f.bodyIsBlock <;> simp [usingBefore_iff]

theorem test_iff (mode : Mode) (f : Func) (l : Leaf) (x : Report) : x ∈ test mode f.bodyIsBlock l ↔ Wants mode f l x := by
  have hm := matters_iff f l
  generalize haff : (affectsErrorHandling l.ancestors || affectsResources f.bodyIsBlock l) = aff at hm
  unfold test
  rw [haff]
  simp only
  constructor
  · intro h
    by_cases hc : l.certainty = .always
    · rw [if_neg (by simp [hc])] at h
      have hfix : (!aff) = true ↔ ¬ Matters f l := by rw [← hm]; cases aff <;> simp
      cases mode <;> cases hb : aff <;> rw [hb] at h hm hfix <;> cases hw : l.isAwait <;> simp [getWhetherToAwait, hw] at h <;> subst h
      · exact .required hw hc (.inl rfl) hfix
      · exact .required hw hc (.inl rfl) hfix
      · exact .required hw hc (.inr ⟨.inl rfl, hm.1 rfl⟩) hfix
      · exact .disallowed hw hc (.inr ⟨rfl, hfix.1 rfl⟩) hfix
      · exact .required hw hc (.inr ⟨.inr rfl, hm.1 rfl⟩) hfix
      · exact .disallowed hw hc (.inl rfl) hfix
      · exact .disallowed hw hc (.inl rfl) hfix
    · rw [if_pos hc] at h
      split at h
      · rename_i hw
        split at h
        · simp at h
        · rename_i hmay
          simp only [List.mem_singleton] at h
          subst h
          exact .nonPromise hw (by cases hcc : l.certainty <;> simp_all)
      · simp at h
  · intro h
    cases h with
    | nonPromise hw hc => simp [hw, hc]
    | required hw hc hmust hfix =>
      rename_i fix
      have hfix' : fix = !aff := by
        cases fix <;> cases aff <;> simp_all
      subst hfix'
      rw [if_neg (by simp [hc])]
      rcases hmust with rfl | ⟨rfl | rfl, hmm⟩
      · simp [getWhetherToAwait, hw]
      · have := hm.2 hmm; subst this; simp [getWhetherToAwait, hw]
      · have := hm.2 hmm; subst this; simp [getWhetherToAwait, hw]
    | disallowed hw hc hmust hfix =>
      rename_i fix
      have hfix' : fix = !aff := by
        cases fix <;> cases aff <;> simp_all
      subst hfix'
      rw [if_neg (by simp [hc])]
      rcases hmust with rfl | ⟨rfl, hmm⟩
      · simp [getWhetherToAwait, hw]
      · have : aff = false := by cases aff <;> simp_all
        subst this; simp [getWhetherToAwait, hw]

theorem testEach_iff (mode : Mode) (f : Func) (e : Expr) (x : Report) :
    x ∈ testEach mode f.bodyIsBlock e ↔ ∃ l, PossibleResult e l ∧ Wants mode f l x := by
  induction e with
  | paren e ih =>
    rw [testEach, ih]
    constructor
    · rintro ⟨l, h, hw⟩; exact ⟨l, .paren h, hw⟩
    · rintro ⟨l, h, hw⟩; cases h with | paren h => exact ⟨l, h, hw⟩
  | conditional t g iht ihg =>
    rw [testEach, List.mem_append, iht, ihg]
    constructor
    · rintro (⟨l, h, hw⟩ | ⟨l, h, hw⟩)
      · exact ⟨l, .whenFalse h, hw⟩
      · exact ⟨l, .whenTrue h, hw⟩
    · rintro ⟨l, h, hw⟩
      cases h with
      | whenTrue h => exact .inr ⟨l, h, hw⟩
      | whenFalse h => exact .inl ⟨l, h, hw⟩
  | leaf l =>
    rw [testEach, test_iff]
    constructor
    · exact fun h => ⟨l, .leaf, h⟩
    · rintro ⟨l', h, hw⟩; cases h; exact hw

/-- The scope of a function. -/
def fresh : Label → Scope
  | .func f => enterFunction f
  | _ => ⟨false, false⟩

/-- What is done for a node of the function. -/
def handle (mode : Mode) (s : Scope) : Label → Scope × List Report
  | .ret e => (s, onReturn mode s e)
  | _ => (s, [])

/-- Leaving the function. -/
def leave (mode : Mode) (s : Scope) : Label → List Report
  | .func f => exitFunction mode s f
  | _ => []

theorem isScoped (mode : Mode) : Scoped (step mode) Label.isFunc fresh (handle mode) (leave mode) where
  push := by intro st a h; cases a <;> simp [Label.isFunc] at h; simp [step, fresh]
  pop := by intro s st a h; cases a <;> simp [Label.isFunc] at h; simp [step, leave]
  top := by intro s st a h; cases a <;> simp [Label.isFunc] at h <;> simp [step, handle]
  none := by intro a h; cases a <;> simp [Label.isFunc] at h <;> simp [step]
  out := by intro st a h; cases a <;> simp [Label.isFunc] at h <;> cases st <;> simp [step]

theorem within_ret (mode : Mode) (s : Scope) (ls : List Label) :
    (within (handle mode) s ls).1 = s ∧
    ∀ x, x ∈ (within (handle mode) s ls).2 ↔ ∃ e, .ret (some e) ∈ ls ∧ s.hasAsync = true ∧ x ∈ testEach mode s.bodyIsBlock e := by
  induction ls with
  | nil => simp [within]
  | cons l ls ih =>
    have hs : (handle mode s l).1 = s := by cases l <;> rfl
    simp only [within, hs]
    refine ⟨ih.1, fun x => ?_⟩
    rw [List.mem_append, ih.2]
    cases l with
    | func f => simp [handle]
    | other => simp [handle]
    | ret e =>
      cases e with
      | none => simp [handle, onReturn]
      | some e =>
        simp only [handle, onReturn]
        cases hb : s.hasAsync <;> simp

theorem localReports_mem (mode : Mode) (f : Func) (ls : List Label) (x : Report) :
    x ∈ localReports fresh (handle mode) (leave mode) (.func f, ls) ↔
      f.hasAsync = true ∧ ∃ e, Returns f ls e ∧ ∃ l, PossibleResult e l ∧ Wants mode f l x := by
  simp only [localReports, fresh, leave]
  obtain ⟨h1, h2⟩ := within_ret mode (enterFunction f) ls
  rw [h1, List.mem_append, h2]
  unfold exitFunction
  simp only [enterFunction, testEach_iff mode f]
  unfold Returns
  constructor
  · rintro (⟨e, he, ha, hl⟩ | h)
    · exact ⟨ha, e, .inl he, hl⟩
    · split at h
      · rename_i e he
        cases ha : f.hasAsync with
        | false => simp [ha] at h
        | true =>
          simp only [ha, if_true, testEach_iff mode f] at h
          exact ⟨rfl, e, .inr he, h⟩
      · simp at h
  · rintro ⟨ha, e, he | he, hl⟩
    · exact .inl ⟨e, he, ha, hl⟩
    · right
      rw [he]
      simp only [ha, if_true, testEach_iff mode f]
      exact hl

/-- C44.  The reports are exactly those wanted for what the async functions of the file may return — through parentheses and both branches
of conditionals, nested functions excluded — by the documented meaning of the mode, the enclosing try statements and `using`
declarations; the change is offered as a fix exactly if awaiting makes no difference to error handling. -/
theorem C44_exact (mode : Mode) (file : List (Tree Label)) (x : Report) :
    x ∈ check mode file ↔ ∃ tree ∈ file, ∃ f cs, Occurs tree (.node (.func f) cs) ∧ f.hasAsync = true ∧
      ∃ e, Returns f (owns Label.isFunc cs) e ∧ ∃ l, PossibleResult e l ∧ Wants mode f l x := by
  obtain ⟨_, hp⟩ := scoped_trees_top (isScoped mode) file
  rw [check, hp.mem_iff, List.mem_flatMap]
  constructor
  · rintro ⟨⟨a, ls⟩, hf, hx⟩
    rw [mem_funcss] at hf
    obtain ⟨tree, ht, cs, ho, hfn, hls⟩ := hf
    obtain ⟨f, rfl⟩ : ∃ f, a = .func f := by cases a <;> simp_all [Label.isFunc]
    simp only at hls
    subst hls
    rw [localReports_mem] at hx
    exact ⟨tree, ht, f, cs, ho, hx⟩
  · rintro ⟨tree, ht, f, cs, ho, hw⟩
    refine ⟨(.func f, owns Label.isFunc cs), ?_, ?_⟩
    · rw [mem_funcss]; exact ⟨tree, ht, cs, ho, rfl, rfl⟩
    · rw [localReports_mem]; exact hw

/-- C44.  No promise is demanded to be both awaited and not awaited. -/
theorem C44_consistent (mode : Mode) (m : Prop) : ¬ (MustAwait mode m ∧ MustNotAwait mode m) := by
  rintro ⟨h1, h2⟩
  rcases h1 with rfl | ⟨rfl | rfl, h⟩ <;> rcases h2 with h' | ⟨h', hn⟩ <;> first | exact hn h | cases h'

/-- C44 (fix).  The fix that adds `await` puts it before the expression, around which it puts parentheses unless it binds tighter. -/
theorem C44_adds (a e b : Bytes) (highPrecedence : Bool) :
    Disjoint (insertAwaitFix a.length (a ++ e).length highPrecedence) ∧
    editAll (a ++ e ++ b) (insertAwaitFix a.length (a ++ e).length highPrecedence) =
      a ++ (if highPrecedence then ascii "await " ++ e else ascii "await (" ++ e ++ ascii ")") ++ b := by
  have e1 : ascii "await " = [97, 119, 97, 105, 116, 32] := by decide
  have e2 : ascii "await (" = [97, 119, 97, 105, 116, 32, 40] := by decide
  have e3 : ascii ")" = [41] := by decide
  rw [e1, e2, e3]
  have t1 : ∀ (x y : Bytes), (x ++ y).take x.length = x := by intro x y; simp
  have d1 : ∀ (x y : Bytes), (x ++ y).drop x.length = y := by intro x y; simp
  cases highPrecedence with
  | true =>
    simp only [insertAwaitFix, if_true, editAll, List.foldr_cons, List.foldr_nil, edit, Int.toNat_natCast]
    refine ⟨by simp [Disjoint], ?_⟩
    rw [List.append_assoc a e b, t1, d1]
    simp
  | false =>
    simp only [insertAwaitFix, Bool.false_eq_true, if_false, editAll, List.foldr_cons, List.foldr_nil, edit, Int.toNat_natCast]
    refine ⟨by simp [Disjoint]; omega, ?_⟩
    rw [t1, d1, show a ++ e ++ [41] ++ b = a ++ (e ++ [41] ++ b) by simp, t1, d1]
    simp

/-- C44 (fix).  The fix that removes `await` removes that token and nothing else. -/
theorem C44_removes (a token b : Bytes) : edit (a ++ token ++ b) (removeAwaitFix a.length (a ++ token).length) = a ++ b := by
  simp only [edit, removeAwaitFix, Int.toNat_natCast]
  rw [show a ++ token ++ b = a ++ (token ++ b) by simp, List.take_left, show a ++ (token ++ b) = (a ++ token) ++ b by simp, List.drop_left]
  simp

/-! ## Examples: `async function f() { try { return c ? p : await p } catch { return await q } finally { return r } }`, `p`, `q`, `r`
promises. -/

/-- The file, and the same with `finally { … }` missing. -/
def exampleFile (hasFinally : Bool) : List (Tree Label) :=
  [.node (.func ⟨true, true, none⟩) [
    .node (.ret (some (.conditional (.leaf ⟨1, false, .always, [.other, .other, .tryStatement .try_ hasFinally, .other, .functionLike], 10, [], true⟩)
      (.paren (.leaf ⟨2, true, .always, [.other, .other, .tryStatement .try_ hasFinally, .other, .functionLike], 20, [], true⟩))))) [],
    .node (.ret (some (.leaf ⟨3, true, .always, [.other, .tryStatement .catch_ hasFinally, .functionLike], 30, [], true⟩))) [],
    .node (.ret (some (.leaf ⟨4, false, .always, [.other, .tryStatement .finally_ true, .functionLike], 40, [⟨true, [(true, 5)]⟩], false⟩))) []]]

example : (check .inTryCatch (exampleFile true)) =
    [⟨1, .requiredPromiseAwait false, false⟩, ⟨4, .requiredPromiseAwait true, false⟩] := by
  simp [check, exampleFile, run, eventss, events, step, enterFunction, onReturn, testEach, test, exitFunction, affectsErrorHandling,
    findContainingTry, affectsResources, usingBefore, getWhetherToAwait]
example : (check .inTryCatch (exampleFile false)) =
    [⟨1, .requiredPromiseAwait false, false⟩, ⟨3, .disallowedPromiseAwait, true⟩, ⟨4, .requiredPromiseAwait true, false⟩] := by
  simp [check, exampleFile, run, eventss, events, step, enterFunction, onReturn, testEach, test, exitFunction, affectsErrorHandling,
    findContainingTry, affectsResources, usingBefore, getWhetherToAwait]

end Tsgolint.ReturnAwait
