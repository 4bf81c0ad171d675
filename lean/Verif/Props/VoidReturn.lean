import Verif.Spec.VoidReturn
/-! # C92 -/
namespace Tsgolint.VoidReturn
variable {T N : Type}

theorem isAllowed_iff (E : Env T) (t : T) : isAllowed E t = true ↔ Nothing E t := by
  simp [isAllowed, Nothing]

theorem isVoidFunction_iff (E : Env T) (t : T) : isVoidFunction E t = true ↔ ForNothing E t := by
  unfold isVoidFunction ForNothing
  simp only [Bool.and_eq_true, Bool.not_eq_true', List.isEmpty_eq_false_iff_exists_mem, List.mem_flatMap, List.all_eq_true]
  constructor
  · rintro ⟨⟨r, p, hp, hr⟩, h⟩
    exact ⟨⟨p, hp, r, hr⟩, fun p hp r hr => h r ⟨p, hp, hr⟩⟩
  · rintro ⟨⟨p, hp, r, hr⟩, h⟩
    exact ⟨⟨r, p, hp, hr⟩, fun r ⟨p, hp, hr⟩ => h p hp r hr⟩

mutual
theorem mem_visit (E : Env T) : (c : Tree T N) → ∀ n, n ∈ visit E c ↔ ∃ t, Own c n (some t) ∧ ¬Nothing E t
  | .ret m w cs => fun n => by
    rw [visit, List.mem_append, mem_visitAll E cs, judge.eq_def]
    constructor
    · rintro (h | ⟨c, hc, t, h, ht⟩)
      · cases w with
        | none => simp at h
        | some t =>
          by_cases ha : isAllowed E t = true
          · simp [ha] at h
          · simp only [ha, Bool.false_eq_true, if_false, List.mem_singleton] at h
            subst h
            exact ⟨t, .here, fun h => ha ((isAllowed_iff E t).2 h)⟩
      · exact ⟨t, .ret hc h, ht⟩
    · rintro ⟨t, h, ht⟩
      cases h with
      | here =>
        left
        have : isAllowed E t = false := by
          cases ha : isAllowed E t with
          | false => rfl
          | true => exact absurd ((isAllowed_iff E t).1 ha) ht
        simp [this]
      | ret hc h => exact .inr ⟨_, hc, t, h, ht⟩
  | .function cs => fun n => by simp [visit]; intro t h; cases h
  | .other cs => fun n => by
    rw [visit, mem_visitAll E cs]
    constructor
    · rintro ⟨c, hc, t, h, ht⟩; exact ⟨t, .other hc h, ht⟩
    · rintro ⟨t, h, ht⟩
      cases h with
      | other hc h => exact ⟨_, hc, t, h, ht⟩
theorem mem_visitAll (E : Env T) : (cs : List (Tree T N)) → ∀ n, n ∈ visitAll E cs ↔ ∃ c ∈ cs, ∃ t, Own c n (some t) ∧ ¬Nothing E t
  | [] => fun n => by simp [visitAll]
  | c :: cs => fun n => by
    rw [visitAll, List.mem_append, mem_visit E c, mem_visitAll E cs]
    constructor
    · rintro (h | ⟨d, hd, h⟩)
      · exact ⟨c, by simp, h⟩
      · exact ⟨d, by simp [hd], h⟩
    · rintro ⟨d, hd, h⟩
      rcases List.mem_cons.1 hd with rfl | hd
      · exact .inl h
      · exact .inr ⟨d, hd, h⟩
end

theorem returns_iff (E : Env T) (f : Func T N) : f.returns.all (isAllowed E) = false ↔ Returns E f := by
  rw [← Bool.not_eq_true, List.all_eq_true, Classical.not_forall]
  unfold Returns
  constructor
  · rintro ⟨t, h⟩
    rw [Classical.not_imp] at h
    exact ⟨t, h.1, fun h' => h.2 ((isAllowed_iff E t).2 h')⟩
  · rintro ⟨t, ht, h⟩
    exact ⟨t, fun h' => h ((isAllowed_iff E t).1 (h' ht))⟩

/-- C92 (functions).  Where a function that returns nothing is wanted, exactly these complaints are made: an expression other than a
function literal, or a generator, whose type has a signature returning something; an async function; the expression of an
arrow function; a return type annotation other than `void`; and every return statement of the function's own body that
returns something. -/
theorem C92_function (E : Env T) (f : Func T N) (n : N) (m : Message) : (n, m) ∈ reportIfNonVoid E f ↔ Complains E f n m := by
  constructor
  · intro h
    unfold reportIfNonVoid at h
    cases hr : f.returns.all (isAllowed E) with
    | true => simp [hr] at h
    | false =>
      have hr' := (returns_iff E f).1 hr
      rw [if_neg (by simp [hr])] at h
      cases hl : f.literal with
      | false =>
        simp only [hl, Bool.not_false, if_true, List.mem_singleton, Prod.mk.injEq] at h
        obtain ⟨rfl, rfl⟩ := h
        exact .value hr' (.inl hl)
      | true =>
        simp only [hl, Bool.not_true, Bool.false_eq_true, if_false] at h
        cases hg : f.generator with
        | true =>
          simp only [hg, if_true, List.mem_singleton, Prod.mk.injEq] at h
          obtain ⟨rfl, rfl⟩ := h
          exact .value hr' (.inr hg)
        | false =>
          simp only [hg, Bool.false_eq_true, if_false] at h
          cases ha : f.async with
          | true =>
            simp only [ha, if_true, List.mem_singleton, Prod.mk.injEq] at h
            obtain ⟨rfl, rfl⟩ := h
            exact .async hr' hl hg ha
          | false =>
            simp only [ha, Bool.false_eq_true, if_false] at h
            have tail : (∀ b, f.body ≠ .expression b) →
                (n, m) ∈ (match f.nonVoidAnnotation with | some a => [(a, Message.nonVoidFunc)] | none => (visitAll E f.children).map (·, Message.nonVoidReturn)) → Complains E f n m := by
              intro hb h
              have last : (∀ a, f.annotation ≠ some (a, false)) → (n, m) ∈ (visitAll E f.children).map (·, Message.nonVoidReturn) → Complains E f n m := by
                intro hann h
                obtain ⟨k, hk, he⟩ := List.mem_map.1 h
                simp only [Prod.mk.injEq] at he
                obtain ⟨rfl, rfl⟩ := he
                obtain ⟨c, hc, t, ho, ht⟩ := (mem_visitAll E _ _).1 hk
                exact .statement hr' hl hg ha hb hann hc ho ht
              cases hann : f.annotation with
              | none =>
                simp only [Func.nonVoidAnnotation, hann] at h
                exact last (by simp [hann]) h
              | some p =>
                obtain ⟨a, v⟩ := p
                cases v with
                | true =>
                  simp only [Func.nonVoidAnnotation, hann] at h
                  exact last (by simp [hann]) h
                | false =>
                  simp only [Func.nonVoidAnnotation, hann, List.mem_singleton, Prod.mk.injEq] at h
                  obtain ⟨rfl, rfl⟩ := h
                  exact .annotation hr' hl hg ha hb hann
            cases hb : f.body with
            | expression b =>
              simp only [hb, Body.expr, List.mem_singleton, Prod.mk.injEq] at h
              obtain ⟨rfl, rfl⟩ := h
              exact .expression hr' hl hg ha hb
            | absent => simp only [hb, Body.expr] at h; exact tail (by simp [hb]) h
            | block => simp only [hb, Body.expr] at h; exact tail (by simp [hb]) h
  · intro h
    have hex : (∀ b, f.body ≠ .expression b) → f.body.expr = none := by
      intro h
      cases hb : f.body with
      | expression b => exact absurd hb (h b)
      | absent => rfl
      | block => rfl
    have hann : (∀ a, f.annotation ≠ some (a, false)) → f.nonVoidAnnotation = none := by
      intro h
      unfold Func.nonVoidAnnotation
      split
      · rename_i a ha; exact absurd ha (h a)
      · rfl
    unfold reportIfNonVoid
    cases h with
    | value hr hc =>
      rw [if_neg (by simp [(returns_iff E f).2 hr])]
      cases hl : f.literal with
      | false => simp
      | true =>
        have hg : f.generator = true := by simpa [hl] using hc
        simp [hg]
    | async hr hl hg ha =>
      rw [if_neg (by simp [(returns_iff E f).2 hr])]
      simp [hl, hg, ha]
    | expression hr hl hg ha hb =>
      rw [if_neg (by simp [(returns_iff E f).2 hr])]
      simp [hl, hg, ha, hb, Body.expr]
    | annotation hr hl hg ha hb hn =>
      rw [if_neg (by simp [(returns_iff E f).2 hr])]
      simp [hl, hg, ha, hex hb, Func.nonVoidAnnotation, hn]
    | statement hr hl hg ha hb hn hc ho ht =>
      rw [if_neg (by simp [(returns_iff E f).2 hr])]
      simp only [hl, hg, ha, hex hb, hann hn, Bool.not_true, Bool.false_eq_true, if_false]
      exact List.mem_map.2 ⟨_, (mem_visitAll E _ _).2 ⟨_, hc, _, ho, ht⟩, rfl⟩

/-- C92 (silence).  Nothing is complained about exactly if no signature returns anything, or it is a function literal with a block (or
no body), neither generator nor async, without annotation other than `void`, no own return statement of which returns anything. -/
theorem C92_silent (E : Env T) (f : Func T N) : reportIfNonVoid E f = [] ↔ (∀ t ∈ f.returns, Nothing E t) ∨
    (f.literal = true ∧ f.generator = false ∧ f.async = false ∧ (∀ b, f.body ≠ .expression b) ∧ (∀ a, f.annotation ≠ some (a, false)) ∧
      ∀ c ∈ f.children, ∀ n t, Own c n (some t) → Nothing E t) := by
  have hn : reportIfNonVoid E f = [] ↔ ∀ n m, ¬Complains E f n m := by
    simp only [← C92_function]
    constructor
    · intro h n m; rw [h]; simp
    · intro h
      cases hl : reportIfNonVoid E f with
      | nil => rfl
      | cons p l => exact absurd (by rw [hl]; exact List.mem_cons_self) (h p.1 p.2)
  rw [hn]
  have hret : (∀ t ∈ f.returns, Nothing E t) ↔ ¬Returns E f := by
    unfold Returns
    constructor
    · rintro h ⟨t, ht, h'⟩; exact h' (h t ht)
    · intro h t ht; exact Classical.byContradiction fun h' => h ⟨t, ht, h'⟩
  rw [hret]
  constructor
  · intro h
    by_cases hr : Returns E f
    · right
      have hl : f.literal = true := by
        cases hl : f.literal with
        | true => rfl
        | false => exact absurd (.value hr (.inl hl)) (h _ _)
      have hg : f.generator = false := by
        cases hg : f.generator with
        | false => rfl
        | true => exact absurd (.value hr (.inr hg)) (h _ _)
      have ha : f.async = false := by
        cases ha : f.async with
        | false => rfl
        | true => exact absurd (.async hr hl hg ha) (h _ _)
      have hb : ∀ b, f.body ≠ .expression b := fun b hb => h _ _ (.expression hr hl hg ha hb)
      have hn : ∀ a, f.annotation ≠ some (a, false) := fun a hn => h _ _ (.annotation hr hl hg ha hb hn)
      exact ⟨hl, hg, ha, hb, hn, fun c hc n t ho => Classical.byContradiction fun ht => h _ _ (.statement hr hl hg ha hb hn hc ho ht)⟩
    · exact .inl hr
  · rintro (h | ⟨hl, hg, ha, hb, hn, hs⟩) n m hc
    · cases hc <;> exact h (by assumption)
    · cases hc with
      | value _ h => simp [hl, hg] at h
      | async _ _ _ h => simp [ha] at h
      | expression _ _ _ _ h => exact hb _ h
      | annotation _ _ _ _ _ h => exact hn _ h
      | statement _ _ _ _ _ _ hc ho ht => exact ht (hs _ hc _ _ ho)

theorem voidContext_iff (E : Env T) (o : Option T) : voidContext E o = true ↔ ∃ t, o = some t ∧ ForNothing E t := by
  cases o with
  | none => simp [voidContext]
  | some t => simp [voidContext, isVoidFunction_iff]

/-- C92 (expressions).  An array element, assigned value, attribute, property, returned or initial value is checked exactly if its
contextual type is called for nothing: it has call signatures, all returning void only. -/
theorem C92_expression (E : Env T) (s : Site T N) (n : N) (m : Message) :
    (n, m) ∈ checkExpression E s ↔ (∃ t, s.contextual = some t ∧ ForNothing E t) ∧ Complains E s.func n m := by
  rw [← voidContext_iff, ← C92_function, checkExpression]
  cases voidContext E s.contextual <;> simp

theorem mem_expected (E : Env T) (signatures : List (List T)) (i : Nat) (t : T) : t ∈ expected E signatures i ↔ Expected E signatures i t := by
  unfold expected Expected
  rw [List.mem_flatMap]
  constructor
  · rintro ⟨ps, hps, h⟩
    cases hp : ps[i]? with
    | none => simp [hp] at h
    | some p =>
      simp only [hp, List.mem_flatMap] at h
      exact ⟨ps, hps, p, hp, h⟩
  · rintro ⟨ps, hps, p, hp, h⟩
    exact ⟨ps, hps, by simpa [hp] using h⟩

theorem checkArgument_iff (E : Env T) (signatures : List (List T)) (i : Nat) (s : Site T N) (n : N) (m : Message) :
    (n, m) ∈ checkArgument E signatures i s ↔ WantsNothing E signatures i s.contextual ∧ Complains E s.func n m := by
  have h1 : (decide (signatures.length = 1) || (expected E signatures i).all fun t => E.isVoid t || E.nullishOrAny t || E.isTypeParameter t) = true ↔
      (signatures.length = 1 ∨ ∀ t, Expected E signatures i t → E.isVoid t = true ∨ E.nullishOrAny t = true ∨ E.isTypeParameter t = true) := by
    simp [mem_expected, or_assoc]
  have h2 : ((expected E signatures i).any E.isVoid && (expected E signatures i).all E.nullishOrAny) = true ↔
      ((∃ t, Expected E signatures i t ∧ E.isVoid t = true) ∧ ∀ t, Expected E signatures i t → E.nullishOrAny t = true) := by
    simp [mem_expected]
  unfold WantsNothing
  rw [← h1, ← h2, ← voidContext_iff, ← C92_function, checkArgument]
  generalize (decide (signatures.length = 1) || (expected E signatures i).all fun t => E.isVoid t || E.nullishOrAny t || E.isTypeParameter t) = a
  generalize ((expected E signatures i).any E.isVoid && (expected E signatures i).all E.nullishOrAny) = b
  generalize voidContext E s.contextual = c
  cases a <;> cases b <;> cases c <;> simp

/-- C92 (calls).  An argument (not a spread) is complained about exactly if the context wants a function returning nothing — by the
contextual type, if there is one signature or all returns expected at this position are void-like, or because some expected
return is void and all are void, nullish or any. -/
theorem C92_call (E : Env T) (signatures : List (List T)) (args : List (Option (Site T N))) (n : N) (m : Message) :
    (n, m) ∈ checkArguments E signatures 0 args ↔ ∃ i s, args[i]? = some (some s) ∧ WantsNothing E signatures i s.contextual ∧ Complains E s.func n m := by
  suffices ∀ k, (n, m) ∈ checkArguments E signatures k args ↔
      ∃ i s, args[i]? = some (some s) ∧ WantsNothing E signatures (k + i) s.contextual ∧ Complains E s.func n m by
    simpa using this 0
  induction args with
  | nil => intro k; simp [checkArguments]
  | cons a args ih =>
    intro k
    have hsucc : ((n, m) ∈ checkArguments E signatures (k + 1) args) ↔ ∃ i s, (a :: args)[i + 1]? = some (some s) ∧ WantsNothing E signatures (k + (i + 1)) s.contextual ∧ Complains E s.func n m := by
      rw [ih (k + 1)]
      have : ∀ i, k + 1 + i = k + (i + 1) := fun i => by omega
      simp only [this, List.getElem?_cons_succ]
    cases a with
    | none =>
      rw [checkArguments, hsucc]
      constructor
      · rintro ⟨i, s, h⟩; exact ⟨i + 1, s, h⟩
      · rintro ⟨i, s, h1, h2⟩
        cases i with
        | zero => simp at h1
        | succ i => exact ⟨i, s, h1, h2⟩
    | some s0 =>
      rw [checkArguments, List.mem_append, hsucc, checkArgument_iff]
      constructor
      · rintro (h | ⟨i, s, h⟩)
        · exact ⟨0, s0, rfl, by simpa using h⟩
        · exact ⟨i + 1, s, h⟩
      · rintro ⟨i, s, h1, h2⟩
        cases i with
        | zero =>
          simp only [List.getElem?_cons_zero, Option.some.injEq] at h1
          subst h1
          exact .inl (by simpa using h2)
        | succ i => exact .inr ⟨i, s, h1, h2⟩

theorem anyVoid_iff (E : Env T) (base : List T) : base.any (isVoidFunction E) = true ↔ ∃ t ∈ base, ForNothing E t := by
  simp [isVoidFunction_iff]

/-- C92 (class members).  A method with a body is checked exactly if it overrides or implements a member called for nothing; a property
by such a member or by the contextual type of its initialiser. -/
theorem C92_members (E : Env T) (base : List T) (n : N) (m : Message) :
    (∀ hasBody (f : Func T N), (n, m) ∈ checkMethod E hasBody base f ↔ hasBody = true ∧ (∃ t ∈ base, ForNothing E t) ∧ Complains E f n m) ∧
    (∀ init : Option (Site T N), (n, m) ∈ checkProperty E base init ↔ ∃ s, init = some s ∧ ((∃ t ∈ base, ForNothing E t) ∨ ∃ t, s.contextual = some t ∧ ForNothing E t) ∧ Complains E s.func n m) := by
  constructor
  · intro b f
    rw [← anyVoid_iff, ← C92_function, checkMethod]
    generalize base.any (isVoidFunction E) = c
    cases b <;> cases c <;> simp
  · intro init
    cases init with
    | none => simp [checkProperty]
    | some s =>
      simp only [checkProperty, Option.some.injEq, exists_eq_left', ← anyVoid_iff, ← voidContext_iff, ← C92_function, checkExpression]
      generalize base.any (isVoidFunction E) = c
      generalize voidContext E s.contextual = d
      cases c <;> cases d <;> simp

/-- A sample: type 0 is void, 1 is number, 2 is `() => void`, 3 is `() => number`. -/
def sample : Env Nat where
  parts t := [t]
  callReturns t := if t = 2 then [0] else if t = 3 then [1] else []
  isVoid t := t == 0
  nothing t := t == 0
  isAny _ := false
  nullishOrAny t := t == 0
  isTypeParameter _ := false
  allowReturnAny := false

/-- `function () { return 1; function g() { return 2 } }` -/
def literal : Func Nat Nat := ⟨0, [1], true, false, false, .block, none, [.other [.ret 10 (some 1) []], .function [.ret 11 (some 1) []], .ret 12 none []]⟩

example : checkArguments sample [[2], [2]] 0 [some ⟨literal, none⟩] = [(10, .nonVoidReturn)] := by decide
example : checkArguments sample [[3], [2]] 0 [some ⟨literal, none⟩] = [] := by decide
example : checkExpression sample ⟨{ literal with async := true }, some 2⟩ = [(0, .asyncFunc)] := by decide
example : checkMethod sample true [3, 2] { literal with annotation := some (5, false) } = [(5, .nonVoidFunc)] := by decide
example : checkProperty sample [] (some ⟨{ literal with body := .expression 7 }, some 2⟩) = [(7, .nonVoidReturn)] := by decide

end Tsgolint.VoidReturn
