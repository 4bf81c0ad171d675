import Verif.Spec.DefaultAssignment
import Verif.Proof.StableFix
/-! # C89 -/
namespace Tsgolint.DefaultAssignment
open Tsgolint.Fixer (Fix Bytes ascii AppliesTo Seg)
variable {T V : Type}

theorem canBeUndefined_iff (E : Env T) (t : T) : canBeUndefined E t = true ↔ CanBeUndefined E t := by
  unfold canBeUndefined CanBeUndefined
  by_cases h : E.anyOrUnknown t = true
  · simp [h]
  · rw [if_neg h]; simp [h]

theorem hasAll_iff (n : String) (e : Expr) : e.hasAll n = true ↔ WritesIn n e := by
  induction e with
  | object ms =>
    simp only [Expr.hasAll, List.any_eq_true]
    constructor
    · rintro ⟨m, hm, h⟩
      cases m with
      | none => simp [memberNamed] at h
      | some p => exact .object hm (by simpa [memberNamed] using h)
    · rintro (⟨hm, h⟩)
      exact ⟨_, hm, by simp [memberNamed, h]⟩
  | cond a b iha ihb =>
    simp only [Expr.hasAll, Bool.and_eq_true, iha, ihb]
    exact ⟨fun h => .cond h.1 h.2, fun h => by cases h with | cond x y => exact ⟨x, y⟩⟩
  | paren e ih =>
    simp only [Expr.hasAll, ih]
    exact ⟨.paren, fun h => by cases h with | paren x => exact x⟩
  | undefinedName => exact ⟨fun h => by simp [Expr.hasAll] at h, nofun⟩
  | other => exact ⟨fun h => by simp [Expr.hasAll] at h, nofun⟩

theorem isUndefined_iff (e : Expr) : e.isUndefined = true ↔ IsUndefined e := by
  induction e with
  | paren e ih =>
    simp only [Expr.isUndefined, ih]
    exact ⟨.paren, fun h => by cases h with | paren x => exact x⟩
  | undefinedName => exact ⟨fun _ => .name, fun _ => rfl⟩
  | object => exact ⟨fun h => by simp [Expr.isUndefined] at h, nofun⟩
  | cond => exact ⟨fun h => by simp [Expr.isUndefined] at h, nofun⟩
  | other => exact ⟨fun h => by simp [Expr.isUndefined] at h, nofun⟩

theorem paramSource_iff (E : Env T) (sig : Option (Signature T)) (f : Bool) (i : Nat) (t : T) :
    paramSource sig f i = some t ↔ Source E (.param sig f i) t := by
  constructor
  · intro h
    cases sig with
    | none => simp [paramSource] at h
    | some s =>
      simp only [paramSource] at h
      by_cases hc : (s.thisParameter && f) = true
      · rw [if_pos hc] at h
        simp only [Bool.and_eq_true] at hc
        cases i with
        | zero => simp at h
        | succ i =>
          simp only [Nat.add_one_ne_zero, if_false, Nat.add_sub_cancel, Option.map_eq_some_iff] at h
          obtain ⟨q, hq, rfl⟩ := h
          obtain ⟨h1, rfl⟩ := hc
          exact .paramThis hq h1
      · rw [if_neg hc] at h
        simp only [Option.map_eq_some_iff] at h
        obtain ⟨q, hq, rfl⟩ := h
        exact .param hq (by simpa using hc)
  · intro h
    cases h with
    | @param s _ _ q hq hn =>
      have : (s.thisParameter && f) = false := by
        cases h1 : s.thisParameter <;> cases h2 : f <;> simp_all
      simp [paramSource, this, hq]
    | paramThis hq hn => simp [paramSource, hn, hq]

theorem propertyType_iff (E : Env T) (c : Ctx T) (t : T) (k : String) (u : T) :
    propertyType E c t k = some u ↔ ∃ s, E.property t k = some s ∧ s.type = u ∧ (s.optional = false ∨ optionalGuard c k = true) := by
  unfold propertyType
  cases h : E.property t k with
  | none => simp
  | some s =>
    cases ho : s.optional <;> cases hg : optionalGuard c k <;> simp [ho]

theorem arrayElement_iff (E : Env T) (t : T) (i : Nat) (u : T) :
    arrayElement E t i = some u ↔ (∃ args, E.tuple t = some args ∧ args[i]? = some u) ∨
      ((∀ args, E.tuple t = some args → args.length ≤ i) ∧ E.numberIndex t = some u) := by
  unfold arrayElement
  cases h : E.tuple t with
  | none => simp
  | some args =>
    cases ha : args[i]? with
    | none => have := List.getElem?_eq_none_iff.1 ha; simp [ha, this]
    | some a =>
      have : ¬args.length ≤ i := fun hl => by rw [List.getElem?_eq_none_iff.2 hl] at ha; cases ha
      simp [ha, this]

mutual
theorem sourceType_iff (E : Env T) : (c : Ctx T) → ∀ t, sourceType E c = some t ↔ Source E c t
  | .initialised e t' => fun t => by
    rw [sourceType]
    exact ⟨fun h => by cases h; exact .init, fun h => by cases h; rfl⟩
  | .bare => fun t => ⟨fun h => by simp [sourceType] at h, nofun⟩
  | .param sig f i => fun t => by rw [sourceType]; exact paramSource_iff E sig f i t
  | .nested b => fun t => by
    rw [sourceType, bindingType_iff E b]
    exact ⟨.nested, fun h => by cases h with | nested h => exact h⟩
theorem bindingType_iff (E : Env T) : (b : Binding T) → ∀ t, bindingType E b = some t ↔ Bound E b t
  | .inObject c n d => fun t => by
    have ih := sourceType_iff E c
    rw [bindingType]
    constructor
    · intro h
      cases hs : sourceType E c with
      | none => simp [hs] at h
      | some t' =>
        simp only [hs] at h
        cases hn : n.text with
        | none => simp [hn] at h
        | some k =>
          simp only [hn, propertyType_iff] at h
          obtain ⟨s, hp, rfl, ho⟩ := h
          cases hopt : s.optional with
          | false => exact .property ((ih _).1 hs) hn hp hopt
          | true =>
            have hg : optionalGuard c k = true := by simpa [hopt] using ho
            cases c with
            | initialised e t'' =>
              have : t'' = t' := by simpa [sourceType] using hs
              subst this
              exact .written hn hp hopt ((hasAll_iff k e).1 hg)
            | bare => simp [optionalGuard] at hg
            | param => simp [optionalGuard] at hg
            | nested => simp [optionalGuard] at hg
    · intro h
      cases h with
      | property hs hn hp ho =>
        simp only [(ih _).2 hs, hn, propertyType_iff]
        exact ⟨_, hp, rfl, .inl ho⟩
      | written hn hp ho hw =>
        simp only [sourceType, hn, propertyType_iff]
        exact ⟨_, hp, rfl, .inr ((hasAll_iff _ _).2 hw)⟩
  | .inArray c i d => fun t => by
    have ih := sourceType_iff E c
    rw [bindingType]
    constructor
    · intro h
      cases hs : sourceType E c with
      | none => simp [hs] at h
      | some t' =>
        simp only [hs, arrayElement_iff] at h
        rcases h with ⟨args, ht, ha⟩ | ⟨hl, hi⟩
        · exact .tuple ((ih _).1 hs) ht ha
        · cases ht : E.tuple t' with
          | none => exact .array ((ih _).1 hs) ht hi
          | some args => exact .beyond ((ih _).1 hs) ht (hl _ ht) hi
    · intro h
      cases h with
      | tuple hs ht ha => simp only [(ih _).2 hs, arrayElement_iff]; exact .inl ⟨_, ht, ha⟩
      | beyond hs ht hl hi =>
        simp only [(ih _).2 hs, arrayElement_iff]
        exact .inr ⟨fun args h => by rw [ht] at h; cases h; exact hl, hi⟩
      | array hs ht hi =>
        simp only [(ih _).2 hs, arrayElement_iff]
        exact .inr ⟨fun args h => by (rw [ht] at h; cases h), hi⟩
end

theorem checkBinding_iff (E : Env T) (b : Binding T) (r : Report) :
    checkBinding E b = some r ↔ ∃ t, Counts E b t ∧ ¬CanBeUndefined E t ∧ r = useless E "property" t := by
  have hc : ∀ t, checkType E t = some r ↔ ¬CanBeUndefined E t ∧ r = useless E "property" t := by
    intro t
    unfold checkType
    by_cases h : canBeUndefined E t = true
    · have := (canBeUndefined_iff E t).1 h
      simp [h, this]
    · have : ¬CanBeUndefined E t := fun h' => h ((canBeUndefined_iff E t).2 h')
      simp [h, this, eq_comm]
  cases b with
  | inObject c n d =>
    simp only [checkBinding, Option.bind_eq_some_iff, bindingType_iff, hc]
    constructor
    · rintro ⟨t, h, h'⟩; exact ⟨t, .property h, h'⟩
    · rintro ⟨t, h, h'⟩
      cases h with | property h => exact ⟨t, h, h'⟩
  | inArray c i d =>
    constructor
    · intro h
      simp only [checkBinding] at h
      cases hs : sourceType E c with
      | none => simp [hs] at h
      | some t =>
        simp only [hs] at h
        cases ht : E.tuple t with
        | none => simp [ht] at h
        | some args =>
          simp only [ht, Option.bind_eq_some_iff, hc] at h
          obtain ⟨a, ha, h⟩ := h
          exact ⟨a, .element ((sourceType_iff E c _).1 hs) ht ha, h⟩
    · rintro ⟨t, h, h'⟩
      cases h with
      | element hs ht ha =>
        simp only [checkBinding, (sourceType_iff E c _).2 hs, ht, Option.bind_eq_some_iff, hc]
        exact ⟨_, ha, h'⟩

/-- C89 (properties and elements).  A default value other than `undefined` in a pattern is reported exactly if the type of
what the pattern reads there is known — following the pattern from the initialiser or the parameter it takes apart — and
does not allow `undefined`. -/
theorem C89_binding (E : Env T) (b : Binding T) (d : Expr) (hd : b.default = some d) (hu : ¬IsUndefined d) (r : Report) :
    check E (.binding b) = some r ↔ ∃ t, Counts E b t ∧ ¬CanBeUndefined E t ∧ r = useless E "property" t := by
  have h : d.isUndefined = false := by
    cases h : d.isUndefined with
    | false => rfl
    | true => exact absurd ((isUndefined_iff d).1 h) hu
  simp only [check, Node.default, hd, h, Bool.false_eq_true, if_false]
  exact checkBinding_iff E b r

/-- C89 (parameters).  A default value other than `undefined` of a parameter is reported exactly if the function is an expression
with a contextual type whose first call signature is not the function's own and whose parameter at the same position is
required, no rest parameter, not of the type of a type parameter, and does not allow `undefined`. -/
theorem C89_parameter (E : Env T) (p : Param T) (d : Expr) (hd : p.default = some d) (hu : ¬IsUndefined d) (r : Report) :
    check E (.param p) = some r ↔ p.inExpression = true ∧ ∃ s rest q, p.contextual = some (s :: rest) ∧ s.own = false ∧
      s.params[p.index]? = some q ∧ q.rest = false ∧ q.optional = false ∧ E.isTypeParameter q.type = false ∧
      ¬CanBeUndefined E q.type ∧ r = useless E "parameter" q.type := by
  have h : d.isUndefined = false := by
    cases h : d.isUndefined with
    | false => rfl
    | true => exact absurd ((isUndefined_iff d).1 h) hu
  simp only [check, Node.default, hd, h, Bool.false_eq_true, if_false, checkParameter]
  cases hi : p.inExpression with
  | false => simp
  | true =>
    simp only [Bool.not_true, Bool.false_eq_true, if_false, true_and]
    cases hc : p.contextual with
    | none => simp
    | some l =>
      cases l with
      | nil => simp
      | cons s rest =>
        cases ho : s.own with
        | true =>
          simp only [ho, if_true, Option.some.injEq, List.cons.injEq]
          refine ⟨nofun, ?_⟩
          rintro ⟨s', _, _, ⟨rfl, _⟩, hf, _⟩
          rw [ho] at hf; cases hf
        | false =>
          simp only [ho, Bool.false_eq_true, if_false]
          constructor
          · intro hr
            cases hq : s.params[p.index]? with
            | none => simp [hq] at hr
            | some q =>
              simp only [hq] at hr
              cases h1 : q.rest with
              | true => simp [h1] at hr
              | false => cases h2 : q.optional with
                | true => simp [h1, h2] at hr
                | false =>
                  cases h3 : E.isTypeParameter q.type with
                  | true => simp [h1, h2, h3] at hr
                  | false => cases h4 : canBeUndefined E q.type with
                    | true => simp [h1, h2, h3, h4] at hr
                    | false =>
                      refine ⟨s, rest, q, rfl, ho, hq, h1, h2, h3, ?_, ?_⟩
                      · rw [← canBeUndefined_iff, h4]; simp
                      · simpa [h1, h2, h3, h4, eq_comm] using hr
          · rintro ⟨s', rest', q, he, _, hq, h1, h2, h3, h4, rfl⟩
            simp only [Option.some.injEq, List.cons.injEq] at he
            obtain ⟨rfl, rfl⟩ := he
            have : canBeUndefined E q.type = false := by
              cases h : canBeUndefined E q.type with
              | false => rfl
              | true => exact absurd ((canBeUndefined_iff E _).1 h) h4
            simp [hq, h1, h2, h3, this]

/-- C89 (`= undefined`).  It is always reported: for a parameter annotated with a type that admits `undefined` as to be written
with `?`, else as useless. -/
theorem C89_undefined (E : Env T) (n : Node T) (d : Expr) (hd : n.default = some d) (hu : IsUndefined d) (r : Report) :
    check E n = some r ↔
      (∃ p t, n = .param p ∧ p.annotation = some t ∧ CanBeUndefined E t ∧ r = .preferOptional p.nameIsIdentifier) ∨
      (∃ p, n = .param p ∧ (∀ t, p.annotation = some t → ¬CanBeUndefined E t) ∧ r = .uselessUndefined "parameter") ∨
      (∃ b, n = .binding b ∧ r = .uselessUndefined "property") := by
  simp only [check, hd, (isUndefined_iff d).2 hu, if_true]
  cases n with
  | binding b => simp [eq_comm]
  | param p =>
    cases ha : p.annotation with
    | none => simp [ha, eq_comm]
    | some t =>
      by_cases h : canBeUndefined E t = true
      · have h' := (canBeUndefined_iff E t).1 h
        simp only [ha, h, if_true, Option.some.injEq, Node.param.injEq, reduceCtorEq, false_and, exists_false, or_false]
        constructor
        · rintro rfl; exact .inl ⟨p, t, rfl, ha, h', rfl⟩
        · rintro (⟨p', _, rfl, _, _, rfl⟩ | ⟨p', rfl, hn, _⟩)
          · rfl
          · exact absurd h' (hn t ha)
      · have h' : ¬CanBeUndefined E t := fun x => h ((canBeUndefined_iff E t).2 x)
        simp only [ha, h, Option.some.injEq, Node.param.injEq, reduceCtorEq, false_and, exists_false, or_false]
        constructor
        · intro hr; exact .inr ⟨p, rfl, fun t' ht' => by rw [ha] at ht'; cases ht'; exact h', by simpa [eq_comm] using hr⟩
        · rintro (⟨p', t', rfl, ht, hb, _⟩ | ⟨p', rfl, hn, rfl⟩)
          · rw [ha] at ht; cases ht; exact absurd hb h'
          · simp

/-- C89 (what is done without asking).  Only `= undefined` is removed without asking; other default values only as a suggestion. -/
theorem C89_automatic (E : Env T) (n : Node T) (d : Expr) (hd : n.default = some d) (r : Report) (h : check E n = some r) : r.automatic = true ↔ IsUndefined d := by
  by_cases hu : IsUndefined d
  · simp only [hu, iff_true]
    rcases (C89_undefined E n d hd hu r).1 h with ⟨_, _, _, _, _, rfl⟩ | ⟨_, _, _, rfl⟩ | ⟨_, _, rfl⟩ <;> rfl
  · simp only [hu, iff_false]
    cases n with
    | binding b => obtain ⟨t, _, _, rfl⟩ := (C89_binding E b d hd hu r).1 h; simp [useless, Report.automatic]
    | param p => obtain ⟨_, _, _, _, _, _, _, _, _, _, _, rfl⟩ := (C89_parameter E p d hd hu r).1 h; simp [useless, Report.automatic]

/-- C89: without a default value nothing is reported. -/
theorem C89_none (E : Env T) (n : Node T) (h : n.default = none) : check E n = none := by simp [check, h]

theorem actual_of_static (R : Runtime T V) {p : PropName} {n : String} (h : p.static) (ht : p.text = some n) (k : String) : p.actual R k ↔ n = k := by
  cases p <;> simp_all [PropName.text, PropName.actual, PropName.static]

theorem present_of_writes (R : Runtime T V) {n : String} {e : Expr} (h : WritesIn n e) (hs : e.static) {v : V} (hv : Evaluates R e v) : R.present v n := by
  induction h with
  | object hm ht =>
    cases hv with
    | object h =>
      refine h _ hm n ?_ ((actual_of_static R (hs _ hm) ht n).2 rfl)
      rintro rfl; simp [PropName.text] at ht
  | cond _ _ iha ihb =>
    cases hv with
    | condTrue h => exact iha hs.1 h
    | condFalse h => exact ihb hs.2 h
  | paren _ ih => cases hv with | paren h => exact ih hs h

theorem Source.unique (E : Env T) {c : Ctx T} {t u : T} (h : Source E c t) (h' : Source E c u) : t = u := by
  rw [← sourceType_iff] at h h'
  rw [h] at h'; exact Option.some.inj h'

mutual
theorem source_sound (E : Env T) (R : Runtime T V) (L : Truthful E R) : (c : Ctx T) → c.plain E R → ∀ t v, Source E c t → Receives E R c v →
    R.has v t ∨ R.has R.undef t
  | .initialised e t' => fun _ t v hs hv => by
    cases hs; cases hv with | init h _ => exact .inl h
  | .bare => fun _ t v hs hv => by cases hs
  | .param sig f i => fun _ t v hs hv => by
    cases hv with | param h h' => cases Source.unique E hs h; exact .inl h'
  | .nested b => fun hp t v hs hv => by
    rw [Ctx.plain] at hp
    have hb : Bound E b t := by cases hs with | nested h => exact h
    cases hv with
    | nested hr hne =>
      rcases binding_sound E R L b hp.1 hp.2 t _ hb hr with h | h
      · exact .inl h
      · exact absurd h.1 hne
    | default hr hd _ =>
      rcases binding_sound E R L b hp.1 hp.2 t _ hb hr with h | h
      · exact .inr h
      · rw [h.2] at hd; cases hd
theorem binding_sound (E : Env T) (R : Runtime T V) (L : Truthful E R) : (b : Binding T) → b.plain E R → b.certain E R → ∀ t w, Bound E b t → Reads E R b w →
    R.has w t ∨ (w = R.undef ∧ b.default = none)
  | .inObject c n d => fun hp _ t w hb hr => by
    rw [Binding.plain] at hp
    have ih := source_sound E R L c hp.1
    cases hr with
    | property hv hk =>
      cases hb with
      | property hs hn hpr ho =>
        cases (actual_of_static R hp.2 hn _).1 hk
        rcases ih _ _ hs hv with h | h
        · exact .inl (L.property hpr h (.inl ho))
        · exact absurd h (L.noProperty hpr)
      | written hn hpr ho hw =>
        cases (actual_of_static R hp.2 hn _).1 hk
        cases hv with
        | init hh he =>
          exact .inl (L.property hpr hh (.inr (present_of_writes R hw (by simpa [Ctx.plain] using hp.1) he)))
  | .inArray c i d => fun hp hc t w hb hr => by
    rw [Binding.plain] at hp
    rw [Binding.certain] at hc
    have ih := source_sound E R L c hp
    cases hr with
    | element hv =>
      cases hb with
      | tuple hs ht ha =>
        rcases hc _ hs with ⟨args, hargs, hl, hf⟩ | ⟨hn, _⟩
        · rcases ih _ _ hs hv with h | h
          · exact .inl (L.tuple ht ha hf h)
          · exact absurd h (L.noTuple ht)
        · rw [List.getElem?_eq_none_iff.2 (hn _ ht)] at ha; cases ha
      | beyond hs ht hl hi =>
        rcases hc _ hs with ⟨args, hargs, hl', hf⟩ | ⟨hn, hd⟩
        · rw [ht] at hargs; cases hargs; omega
        · rcases ih _ _ hs hv with h | h
          · exact (L.index hi h).imp id (fun h => ⟨h, hd⟩)
          · exact absurd h (L.noIndex hi)
      | array hs ht hi =>
        rcases hc _ hs with ⟨args, hargs, hl', hf⟩ | ⟨hn, hd⟩
        · rw [ht] at hargs; cases hargs
        · rcases ih _ _ hs hv with h | h
          · exact (L.index hi h).imp id (fun h => ⟨h, hd⟩)
          · exact absurd h (L.noIndex hi)
end

/-- C89 (never used).  If a default value other than `undefined` in a pattern is reported, it is used in no execution: what the
pattern reads there is never `undefined` — provided types tell the truth, no key is computed from a variable, arrays of unknown
length are not taken apart further with a default value in between, the reported tuple has fixed length, and the type in
question shows it when `undefined` belongs to it. -/
theorem C89_never_used (E : Env T) (R : Runtime T V) (L : Truthful E R) (b : Binding T) (d : Expr) (hd : b.default = some d) (hu : ¬IsUndefined d)
    (r : Report) (hr : check E (.binding b) = some r) (hp : b.plain E R) (hf : b.fixedTuple E R)
    (hshow : ∀ t, Counts E b t → R.has R.undef t → CanBeUndefined E t) (w : V) (hw : Reads E R b w) : w ≠ R.undef := by
  obtain ⟨t, ht, hn, -⟩ := (C89_binding E b d hd hu r).1 hr
  rintro rfl
  have key : R.has R.undef t ∨ (R.undef = R.undef ∧ b.default = none) := by
    cases ht with
    | property h => exact binding_sound E R L _ hp (by simp [Binding.certain]) t _ h hw
    | element hs htu ha =>
      refine binding_sound E R L _ hp ?_ t _ (Bound.tuple hs htu ha) hw
      rw [Binding.certain]
      intro t' hs'
      cases Source.unique E hs hs'
      exact .inl ⟨_, htu, (List.getElem?_eq_some_iff.1 ha).1, hf _ hs'⟩
  rcases key with h | ⟨_, h⟩
  · exact hn (hshow t ht h)
  · rw [hd] at h; cases h

/-- C89 (never used, parameters).  A caller that passes a value of the contextual parameter's type does not pass `undefined`. -/
theorem C89_parameter_never_used (E : Env T) (R : Runtime T V) (p : Param T) (d : Expr) (hd : p.default = some d) (hu : ¬IsUndefined d)
    (r : Report) (hr : check E (.param p) = some r) (s : ContextSignature T) (rest : List (ContextSignature T)) (hc : p.contextual = some (s :: rest))
    (q : Sym T) (hq : s.params[p.index]? = some q) (hshow : R.has R.undef q.type → CanBeUndefined E q.type) (w : V) (hw : R.has w q.type) : w ≠ R.undef := by
  obtain ⟨-, s', rest', q', hc', -, hq', -, -, -, hn, -⟩ := (C89_parameter E p d hd hu r).1 hr
  rw [hc] at hc'
  cases hc'
  rw [hq] at hq'
  cases hq'
  rintro rfl
  exact hn (hshow hw)

/-- C89 (the edits).  Removing the default value leaves the rest of the declaration untouched; `?` goes directly behind the name. -/
theorem C89_fix (pre name ann init post : Bytes) (typed : Bool) (ht : typed = false → ann = []) (k : String) (ty : Option String) :
    let s : Spans := ⟨pre.length + name.length, if typed then some (pre.length + name.length + ann.length) else none, pre.length + name.length + ann.length + init.length⟩
    let code := pre ++ name ++ ann ++ init ++ post
    AppliesTo code ((Report.useless k ty).edits s) (pre ++ name ++ ann ++ post) ∧
    AppliesTo code ((Report.uselessUndefined k).edits s) (pre ++ name ++ ann ++ post) ∧
    AppliesTo code ((Report.preferOptional false).edits s) (pre ++ name ++ ann ++ post) := by
  have hstart : ∀ n, (Spans.mk (pre.length + name.length) (if typed then some (pre.length + name.length + ann.length) else none) n).start = pre.length + name.length + ann.length := by
    intro n
    cases typed with
    | true => rfl
    | false => simp [Spans.start, ht rfl]
  have key := Seg.applies_sorted [.keep (pre ++ name ++ ann), .sub init [], .keep post]
  simp only [Report.edits, hstart]
  refine ⟨?_, ?_, ?_⟩ <;> simpa [Seg.old, Seg.new, Seg.edits, Nat.add_assoc] using key

theorem C89_fix_optional (pre name ann init post : Bytes) (hann : ann ≠ []) :
    AppliesTo (pre ++ name ++ ann ++ init ++ post)
      ((Report.preferOptional true).edits ⟨pre.length + name.length, some (pre.length + name.length + ann.length), pre.length + name.length + ann.length + init.length⟩)
      (pre ++ name ++ ascii "?" ++ ann ++ post) := by
  have key := Seg.applies_shuffle [.keep (pre ++ name), .sub [] (ascii "?"), .keep ann, .sub init [], .keep post]
    ((Report.preferOptional true).edits ⟨pre.length + name.length, some (pre.length + name.length + ann.length), pre.length + name.length + ann.length + init.length⟩)
    (by
      have hl : 0 < ann.length := List.length_pos_iff.2 hann
      simp only [Report.edits, Spans.start, Option.getD, if_true, Seg.edits]
      have := Fixer.Shuffle.swap (⟨[], ((pre.length + name.length + ann.length : Nat) : Int), ((pre.length + name.length + ann.length + init.length : Nat) : Int)⟩ : Fix)
        ⟨ascii "?", ((pre.length + name.length : Nat) : Int), ((pre.length + name.length : Nat) : Int)⟩ [] (.inl (by simp; omega))
      simpa [Nat.add_assoc] using this)
  simpa [Seg.old, Seg.new, List.append_assoc] using key

/-! ## A concrete world -/

/-- `undefined`, `number`, `void`, `{a: number}`, `{a: void}`, `{a: number}[]`, `[...number[]]`, `[{a: number}]` -/
inductive Ty
  | undef
  | num
  | void
  | objA
  | objVoid
  | arrA
  | rest
  | one
deriving DecidableEq

inductive Val
  | undef
  | num
  | obj (fields : List (String × Val))
  | list (items : List Val)

def Val.get : Val → String → Val
  | .obj fs, n => (fs.lookup n).getD .undef
  | _, _ => .undef

def Val.elem : Val → Nat → Val
  | .list l, i => (l[i]?).getD .undef
  | _, _ => .undef

def Val.isObjA (v : Val) : Prop := ∃ fs, v = .obj fs ∧ fs.lookup "a" = some .num

def world : Env Ty where
  anyOrUnknown _ := false
  parts t := [t]
  isUndefined t := t == .undef
  isTypeParameter _ := false
  tuple
    | .rest => some [.num]
    | .one => some [.objA]
    | _ => none
  numberIndex
    | .rest => some .num
    | .one => some .objA
    | .arrA => some .objA
    | _ => none
  property t n := match t with
    | .objA => if n = "a" then some ⟨false, false, .num⟩ else none
    | .objVoid => if n = "a" then some ⟨false, false, .void⟩ else none
    | _ => none
  unionOrIntersection _ := false
  primitive t := t == .num
  named _ := false
  toString _ := "number"

def js : Runtime Ty Val where
  undef := .undef
  get := Val.get
  elem := Val.elem
  present v n := ∃ fs, v = .obj fs ∧ (fs.lookup n).isSome = true
  key _ := "other"
  fixed t := t = .one
  has v
    | .undef => v = .undef
    | .num => v = .num
    | .void => v = .undef
    | .objA => v.isObjA
    | .objVoid => ∃ fs, v = .obj fs ∧ fs.lookup "a" = some .undef
    | .arrA => ∃ l, v = .list l ∧ ∀ x ∈ l, x.isObjA
    | .rest => ∃ l, v = .list l ∧ ∀ x ∈ l, x = .num
    | .one => ∃ x, v = .list [x] ∧ x.isObjA

theorem world_truthful : Truthful world js where
  property := by
    intro t n s v h hv _
    cases t <;> simp only [world, reduceCtorEq] at h
    · by_cases hn : n = "a"
      · subst hn
        simp only [if_true, Option.some.injEq] at h
        subst h
        obtain ⟨fs, rfl, hf⟩ := hv
        simp [js, Val.get, hf]
      · simp [hn] at h
    · by_cases hn : n = "a"
      · subst hn
        simp only [if_true, Option.some.injEq] at h
        subst h
        obtain ⟨fs, rfl, hf⟩ := hv
        simp [js, Val.get, hf]
      · simp [hn] at h
  noProperty := by
    intro t n s h
    cases t <;> simp [world] at h <;> simp [js, Val.isObjA]
  noTuple := by
    intro t a h
    cases t <;> simp [world] at h <;> simp [js]
  noIndex := by
    intro t a h
    cases t <;> simp [world] at h <;> simp [js]
  tuple := by
    intro t args i a v h ha hf hv
    cases (show t = .one from hf)
    simp only [world, Option.some.injEq] at h
    subst h
    obtain ⟨x, rfl, hx⟩ := hv
    cases i with
    | zero => simp at ha; subst ha; simpa [js, Val.elem] using hx
    | succ i => simp at ha
  index := by
    have key : ∀ (l : List Val) (i : Nat) (P : Val → Prop), (∀ x ∈ l, P x) → P ((l[i]?).getD .undef) ∨ (l[i]?).getD .undef = .undef := by
      intro l i P hP
      cases h : l[i]? with
      | none => exact .inr rfl
      | some x => exact .inl (hP x (List.mem_of_getElem? h))
    intro t a i v h hv
    cases t <;> simp only [world, reduceCtorEq, Option.some.injEq] at h <;> subst h
    · obtain ⟨l, rfl, hl⟩ := hv
      exact key l i _ hl
    · obtain ⟨l, rfl, hl⟩ := hv
      exact key l i _ hl
    · obtain ⟨x, rfl, hx⟩ := hv
      exact key [x] i _ (by simpa using hx)

/-- `const [{ a = … } = {}] = v` with `v: [{a: number}]` — an instance of `C89_never_used`: the default is reported and never used. -/
example (w : Val) (hw : Reads world js (.inObject (.nested (.inArray (.initialised .other .one) 0 (some (.object [])))) (.ident "a") (some .other)) w) : w ≠ .undef := by
  refine C89_never_used world js world_truthful _ .other rfl (nofun) (.useless "property" (some "number")) (by decide) ?_ (by simp [Binding.fixedTuple]) ?_ w hw
  · simp only [Binding.plain, Ctx.plain, Binding.certain, Expr.static, PropName.static, and_true, true_and]
    intro t ht
    cases ht
    exact .inl ⟨_, rfl, by decide, rfl⟩
  · intro t ht hu
    rw [show t = .num from ?_] at hu
    · cases hu
    · cases ht with
      | property h =>
        have := (bindingType_iff world _ _).2 h
        simpa [bindingType, sourceType, world, arrayElement, PropName.text, propertyType, eq_comm] using this

example : Reads world js (.inObject (.nested (.inArray (.initialised .other .one) 0 (some (.object [])))) (.ident "a") (some .other)) .num := by
  have h : Receives world js (.initialised .other .one) (.list [.obj [("a", .num)]]) := .init ⟨_, rfl, _, rfl, rfl⟩ .other
  have h2 : Reads world js (.inArray (.initialised .other .one) 0 (some (.object []))) (.obj [("a", .num)]) := Reads.element h
  exact Reads.property (k := "a") (.nested h2 nofun) rfl

/-- C89 (hazard: keys held by variables).  `const { [k]: x = … } = obj` is judged as if it read the property named `k`. -/
theorem C89_hazard_computed : ∃ b : Binding Ty, (∃ r, check world (.binding b) = some r) ∧ b.default = some .other ∧ Reads world js b js.undef :=
  ⟨.inObject (.initialised .other .objA) (.computedIdent "a") (some .other), ⟨.useless "property" (some "number"), by decide⟩, rfl,
    Reads.property (E := world) (R := js) (k := "other") (v := Val.obj [("a", .num)]) (.init (show Val.isObjA _ from ⟨_, rfl, rfl⟩) .other) rfl⟩

/-- C89 (hazard: rest elements).  `const [x = …] = v` with `v: [...number[]]` is reported, although `v` may be empty. -/
theorem C89_hazard_rest : ∃ b : Binding Ty, (∃ r, check world (.binding b) = some r) ∧ b.default = some .other ∧ Reads world js b js.undef :=
  ⟨.inArray (.initialised .other .rest) 0 (some .other), ⟨.useless "property" (some "number"), by decide⟩, rfl,
    Reads.element (E := world) (R := js) (v := Val.list []) (.init (show ∃ l, _ ∧ _ from ⟨[], rfl, by simp⟩) .other)⟩

/-- C89 (hazard: defaults in between).  `const [{ a = … } = {}] = v` with `v: {a: number}[]` is reported, although an empty `v`
makes the inner pattern read from `{}`. -/
theorem C89_hazard_array : ∃ b : Binding Ty, (∃ r, check world (.binding b) = some r) ∧ b.default = some .other ∧ Reads world js b js.undef := by
  refine ⟨.inObject (.nested (.inArray (.initialised .other .arrA) 0 (some (.object [])))) (.ident "a") (some .other), ⟨.useless "property" (some "number"), by decide⟩, rfl, ?_⟩
  have h : Receives world js (.initialised .other .arrA) (.list []) := .init ⟨_, rfl, by simp⟩ .other
  have h2 : Reads world js (.inArray (.initialised .other .arrA) 0 (some (.object []))) js.undef := Reads.element h
  exact Reads.property (n := .ident "a") (k := "a") (v := .obj []) (.default h2 rfl (.object (by simp))) rfl

/-- C89 (hazard: `void`).  A property of type `void` is taken to be never `undefined`. -/
theorem C89_hazard_void : ∃ b : Binding Ty, (∃ r, check world (.binding b) = some r) ∧ b.default = some .other ∧ Reads world js b js.undef :=
  ⟨.inObject (.initialised .other .objVoid) (.ident "a") (some .other), ⟨.useless "property" none, by decide⟩, rfl,
    Reads.property (E := world) (R := js) (k := "a") (v := Val.obj [("a", .undef)]) (.init (show ∃ fs, _ ∧ _ from ⟨_, rfl, rfl⟩) .other) rfl⟩

/-- C89 (hazard: `this`).  The position of a parameter behind `this` is not adjusted: `function (this: X, a = 1, b)` as a callback
`(a: number | undefined, b: number) => void` has `a` judged by the type of `b`. -/
theorem C89_hazard_this : check world (.param ⟨some .other, none, true, true, 1, some [⟨false, [⟨false, false, .undef⟩, ⟨false, false, .num⟩]⟩]⟩) = some (.useless "parameter" (some "number")) := by decide

/-- C89 (hazard: patterns).  `({ a }: T | undefined = undefined)` loses its default value and gets no `?`: it becomes required. -/
theorem C89_hazard_pattern (E : Env T) (t : T) (h : CanBeUndefined E t) (p : Param T) (hd : p.default = some .undefinedName) (ha : p.annotation = some t)
    (hn : p.nameIsIdentifier = false) (s : Spans) : ∃ r, check E (.param p) = some r ∧ r.automatic = true ∧ r.edits s = [{ text := [], pos := s.start, stop := s.stop }] := by
  refine ⟨.preferOptional false, ?_, rfl, rfl⟩
  rw [C89_undefined E (.param p) .undefinedName hd .name]
  exact .inl ⟨p, t, rfl, ha, h, by rw [hn]⟩

-- the hypotheses of the other theorems are met
example : CanBeUndefined world .undef := .inr ⟨.undef, by simp [world], rfl⟩
example : check world (.param ⟨some (.paren .undefinedName), some .undef, true, false, 0, none⟩) = some (.preferOptional true) := by decide
example : check world (.param ⟨some .other, none, true, true, 0, some [⟨false, [⟨false, false, .num⟩]⟩]⟩) = some (.useless "parameter" (some "number")) := by decide
example : check world (.binding (.inObject (.initialised .other .objA) (.ident "b") (some .other))) = none := by decide
example : (Report.useless "property" (some "number")).message.2 =
  "Default value is useless because the property has type `number` (not nullish). This default assignment will never be used." := by decide +kernel

end Tsgolint.DefaultAssignment
