import Verif.Spec.ConditionChain
import Verif.Props.Condition
/-!
# Properties of no-unnecessary-condition, second part: optional chains (C120), calls of type guards (C121)
-/
namespace Tsgolint.Condition

/-! ### Reading the model -/

theorem leaf_iff' (t : Ty) : t.nullishLeaf = true ↔ t = .null ∨ t = .undefined ∨ t = .void := by
  cases t <;> simp [Ty.nullishLeaf]

theorem anyNullish_iff (ts : List Ty) : anyNullish ts = true ↔ ∃ t ∈ ts, nullish t = true := by
  induction ts with
  | nil => simp [anyNullish]
  | cons t ts ih => simp [anyNullish, ih]

theorem someNullableProperty_iff (T : Types) (obj : Ty) (ts : List Ty) :
    T.someNullableProperty obj ts = true ↔ ∃ t ∈ ts, T.nullableProperty obj t = true := by
  induction ts with
  | nil => simp [Types.someNullableProperty]
  | cons t ts ih => simp [Types.someNullableProperty, ih]

theorem hasSome_iff (M : Meaning) (ts : List Ty) (v : Value) : HasSome M ts v ↔ ∃ t ∈ ts, Has M t v := by
  induction ts with
  | nil => simp [HasSome]
  | cons t ts ih => simp [HasSome, ih]

theorem at_skip (T : Types) : ∀ e : Node, T.at e.skip = T.at e
  | .paren e => by simpa [Node.skip, Types.at] using at_skip T e
  | .root _ | .property _ _ _ _ | .element _ _ _ _ | .call _ _ _ => rfl

theorem resolved_skip (T : Types) (e : Node) : T.resolved e.skip = T.resolved e := by
  unfold Types.resolved; rw [at_skip]

theorem skip_not_paren : ∀ e x : Node, e.skip ≠ .paren x
  | .paren e, x => by simpa [Node.skip] using skip_not_paren e x
  | .root _, _ | .property _ _ _ _, _ | .element _ _ _ _, _ | .call _ _ _, _ => by simp [Node.skip]

variable {T : Types} {M : Meaning} {R : Run}

theorem resolve_has (hA : Agrees T M R) (t : Ty) (v : Value) (h : Has M t v) : Has M (T.checker.resolve t) v := by
  cases t
  case indexedAccess n => exact hA.access n v (by simpa [Has] using h)
  all_goals simpa [Checker.resolve] using h

theorem resolved_has (hA : Agrees T M R) {e : Node} {v : Value} {t : Ty} (he : R.eval e = .value v) (ht : T.resolved e = some t) : Has M t v := by
  unfold Types.resolved at ht
  cases hu : T.at e with
  | none => rw [hu] at ht; cases ht
  | some u =>
    rw [hu] at ht
    have hv := hA.value e v u he hu
    rcases (resolved_iff T.checker u t).1 ht with ⟨n, c, rfl, hc, rfl⟩ | ⟨_, rfl⟩
    · exact resolve_has hA c v (hA.constraint n c v hc (by simpa [Has] using hv))
    · exact resolve_has hA u v hv

/-- A link that gives a value was on a value that is not nullish -/
theorem link_value {o : Bool} {f : Value → Option Value} {x : Outcome} {w : Value} (h : link o f x = .value w) :
    ∃ v, x = .value v ∧ v.isNullish = false ∧ f v = some w := by
  cases x with
  | value v =>
    simp only [link] at h
    cases hv : v.isNullish with
    | true => rw [hv] at h; cases o <;> simp at h
    | false =>
      rw [hv] at h
      simp only [Bool.false_eq_true, if_false] at h
      cases hf : f v with
      | none => rw [hf] at h; cases h
      | some w' => rw [hf] at h; cases h; exact ⟨v, rfl, hv, hf⟩
  | short => cases h
  | fails => cases h

/-- The part of the union that a value is of; not a nullish one if the value is not nullish -/
theorem part_of (hA : Agrees T M R) {e : Node} {ts : List Ty} {v : Value} (he : R.eval e = .value v) (ht : T.resolved e = some (.union ts))
    (hv : v.isNullish = false) : ∃ t ∈ ts, Has M t v ∧ nullish t = false := by
  have h := resolved_has hA he ht
  rw [Has, hasSome_iff] at h
  obtain ⟨t, htm, hh⟩ := h
  refine ⟨t, htm, hh, ?_⟩
  rw [hA.flat e ts ht t htm]
  cases hl : t.nullishLeaf with
  | false => rfl
  | true =>
    rcases (leaf_iff' t).1 hl with rfl | rfl | rfl <;> (rw [Has] at hh; subst hh; cases hv)

theorem originIn_true {own : Ty → Bool} {x : Option Ty} (h : originIn own x = true) :
    ∃ ts, x = some (.union ts) ∧ (∀ t ∈ ts, own t = false) ∧ anyNullish ts = true := by
  cases x with
  | none => cases h
  | some t =>
    cases t
    case union ts =>
      simp only [originIn, Bool.and_eq_true, Bool.not_eq_true', List.any_eq_false] at h
      exact ⟨ts, rfl, fun t ht => by simpa using h.1 t ht, h.2⟩
    all_goals cases h

theorem nullishCallee_true {e : Node} (h : T.nullishCallee e = true) :
    ∃ ts, T.resolved e = some (.union ts) ∧ (∀ t ∈ ts, ∀ r ∈ T.signatures t, nullish r = false) ∧ anyNullish ts = true := by
  unfold Types.nullishCallee at h
  cases hx : T.resolved e with
  | none => rw [hx] at h; cases h
  | some t =>
    rw [hx] at h
    cases t
    case union ts =>
      simp only [Bool.and_eq_true, Bool.not_eq_true', List.any_eq_false] at h
      refine ⟨ts, rfl, fun t ht r hr => ?_, h.2⟩
      have := h.1 t ht
      simp only [List.any_eq_true, not_exists, not_and, Bool.not_eq_true] at this
      exact this r hr
    all_goals cases h

variable (hN : M.NonNull)
include hN

/-- `e.name`: nullish only because of `e` -/
theorem property_sound (hA : Agrees T M R) {s : Nat} {e : Node} {name : String} {o : Bool} {nt : Ty} {w : Value}
    (hnt : T.resolved (.property s e name o) = some nt) (ho : alwaysNecessary nt = false)
    (h : T.nullishObject (.property s e name o) = true) (hw : R.eval (.property s e name o) = .value w) : w.isNullish = false := by
  obtain ⟨ts, hts, hall, _⟩ := originIn_true h
  rw [Run.eval] at hw
  obtain ⟨v, hv, hvn, hg⟩ := link_value hw
  obtain ⟨t, htm, hh, hn⟩ := part_of hA hv hts hvn
  have hown := hall t htm
  obtain ⟨hne, hp⟩ := hA.property s e name o nt ts t v w hnt ho hts htm hv hvn hh hg
  unfold Types.ownProperty at hown
  rw [hn, if_neg (by simp), if_neg hne] at hown
  rcases hp with ⟨p, hp, hs, hpw⟩ | ⟨hp, i, hi, hk, hiw⟩
  · rw [hp] at hown
    exact nullish_sound hN p w hs hown hpw
  · rw [hp] at hown
    have := List.any_eq_false.1 hown i hi
    rw [hk] at this
    rcases hiw with hnu | ⟨hs, hiw⟩
    · rw [hnu] at this; simp at this
    · have hin : nullish i.2 = false := by
        cases hx : nullish i.2 with
        | false => rfl
        | true => rw [hx] at this; simp at this
      exact nullish_sound hN i.2 w hs hin hiw

/-- `e()`: nullish only because of `e` -/
theorem call_sound (hA : Agrees T M R) {s : Nat} {e : Node} {o : Bool} {nt : Ty} {w : Value}
    (hnt : T.resolved (.call s e o) = some nt) (ho : alwaysNecessary nt = false)
    (h : T.nullishCallee e = true) (hw : R.eval (.call s e o) = .value w) : w.isNullish = false := by
  obtain ⟨ts, hts, hall, _⟩ := nullishCallee_true h
  rw [Run.eval] at hw
  obtain ⟨v, hv, hvn, hg⟩ := link_value hw
  obtain ⟨t, htm, hh, _⟩ := part_of hA hv hts hvn
  obtain ⟨r, hr, hs, hrw⟩ := hA.call s e o nt ts t v w hnt ho hts htm hv hvn hh hg
  exact nullish_sound hN r w hs (hall t htm r hr) hrw

omit hN in
theorem stringLits_mem (ts : List Ty) (s : String) : s ∈ Ty.stringLits ts ↔ Ty.stringLit s ∈ ts := by
  induction ts with
  | nil => simp [Ty.stringLits]
  | cons t ts ih => cases t <;> simp [Ty.stringLits, ih]

omit hN in
/-- A value of a type with literal keys is one of them -/
theorem literalKey (M : Meaning) (t : Ty) (v : Value) (hne : t.literalKeys ≠ []) (h : Has M t v) : ∃ s, v = .string s ∧ s ∈ t.literalKeys := by
  cases t
  case stringLit s => rw [Has] at h; exact ⟨s, h, by simp [Ty.literalKeys]⟩
  case union ts =>
    unfold Ty.literalKeys at hne ⊢
    by_cases hall : ts.all Ty.isStringLit = true
    · simp only [hall, if_true] at hne ⊢
      rw [Has, hasSome_iff] at h
      obtain ⟨t, htm, hh⟩ := h
      have := List.all_eq_true.1 hall t htm
      cases t <;> simp [Ty.isStringLit] at this
      rename_i s
      rw [Has] at hh
      exact ⟨s, hh, (stringLits_mem ts s).2 htm⟩
    · simp only [hall] at hne
      exact absurd rfl hne
  all_goals exact absurd rfl hne

omit hN in
theorem literalKeys_resolved (C : Checker) (t : Ty) (hne : t.literalKeys ≠ []) : C.resolved (some t) = some t := by
  cases t
  case stringLit s => rfl
  case union ts => rfl
  all_goals exact absurd rfl hne

omit hN in
/-- A literal key that may be nullish in an object type -/
theorem nullable_literal (T : Types) (obj t : Ty) (s : String) (hs : s ∈ t.literalKeys) (h : T.nullableProperty obj t = false) :
    T.nullableKey obj (.stringLit s) = false := by
  cases t
  case stringLit s' =>
    simp only [Ty.literalKeys, List.mem_singleton] at hs
    subst hs
    exact h
  case union ts =>
    replace hs : s ∈ (if ts.all Ty.isStringLit = true then Ty.stringLits ts else []) := hs
    by_cases hall : ts.all Ty.isStringLit = true
    · rw [if_pos hall] at hs
      have hm := (stringLits_mem ts s).1 hs
      cases hk : T.nullableKey obj (.stringLit s) with
      | false => rfl
      | true =>
        have : T.someNullableProperty obj ts = true := (someNullableProperty_iff T obj ts).2 ⟨_, hm, hk⟩
        rw [Types.nullableProperty, this] at h
        cases h
    · rw [if_neg hall] at hs; cases hs
  all_goals (simp [Ty.literalKeys] at hs)

/-- `e[k]` with literal keys: nullish only because of `e` -/
theorem element_sound (hA : Agrees T M R) {s : Nat} {e : Node} {k : Key} {o : Bool} {nt kt : Ty} {w : Value}
    (hnt : T.resolved (.element s e (some k) o) = some nt) (ho : alwaysNecessary nt = false)
    (h : T.nullishObject (.element s e (some k) o) = true) (hkt : T.keyType k.id = some kt) (hl : kt.literalKeys ≠ [])
    (hw : R.eval (.element s e (some k) o) = .value w) : w.isNullish = false := by
  obtain ⟨ts, hts, hall, _⟩ := originIn_true h
  rw [Run.eval] at hw
  obtain ⟨v, hv, hvn, hg⟩ := link_value hw
  obtain ⟨t, htm, hh, hn⟩ := part_of hA hv hts hvn
  have hown := hall t htm
  obtain ⟨key, hkey, hmem⟩ := literalKey M kt _ hl (hA.key k.id kt hkt)
  rw [hkt, literalKeys_resolved _ kt hl, Types.ownElement, hn, if_neg (by simp)] at hown
  have hnk := nullable_literal T t kt key hmem (by simpa using hown)
  rcases hA.element s e k o nt ts t v w key hnt ho hts htm hv hvn hh hg hkey with ⟨p, hp, hs, hpw⟩ | ⟨hp, i, hi, hik⟩
  · simp only [Types.nullableKey, Ty.literalName, Option.bind_some, hp] at hnk
    exact nullish_sound hN p w hs hnk hpw
  · simp only [Types.nullableKey, Ty.literalName, Option.bind_some, hp] at hnk
    have := List.any_eq_false.1 hnk i hi
    rw [hik] at this
    simp at this

omit hN in
/-- What a report says -/
theorem checkOperand_iff (T : Types) (operand : Node) (r : ChainReport) : T.checkOperand operand = some r ↔
    T.skips operand = false ∧ T.optionable operand = false ∧ ∃ j, T.operandType operand = some j ∧ ∃ j', T.withoutCallee operand j = some j' ∧
      T.someReturn operand = false ∧ j'.type.unclear = false ∧ nullish j'.type = false ∧ r = ⟨operand, j'⟩ := by
  unfold Types.checkOperand
  cases hs : T.skips operand with
  | true => simp
  | false =>
    cases ho : T.optionable operand with
    | true => simp
    | false =>
      simp only [Bool.false_eq_true, if_false, Option.bind_eq_some_iff, true_and]
      constructor
      · rintro ⟨j', ⟨j, hj, hj'⟩, h⟩
        unfold Types.judge at h
        by_cases h1 : T.someReturn operand = true
        · rw [if_pos h1] at h; cases h
        · rw [if_neg h1] at h
          by_cases h2 : j'.type.unclear = true
          · rw [if_pos h2] at h; cases h
          · rw [if_neg h2] at h
            by_cases h3 : nullish j'.type = true
            · rw [if_pos h3] at h; cases h
            · rw [if_neg h3] at h
              cases h
              exact ⟨j, hj, j', hj', by simpa using h1, by simpa using h2, by simpa using h3, rfl⟩
      · rintro ⟨j, hj, j', hj', h1, h2, h3, rfl⟩
        exact ⟨j', ⟨j, hj, hj'⟩, by simp [Types.judge, h1, h2, h3]⟩

omit hN in
theorem not_optionable {e : Node} {t : Ty} (ht : T.resolved e = some t) (h : T.optionable e = false) :
    alwaysNecessary t = false ∧ (nullish t = false ∨ T.ownNullable e.skip = false) := by
  unfold Types.optionable at h
  rw [resolved_skip, ht] at h
  replace h : (if alwaysNecessary t = true then true else T.ownNullable e.skip && nullish t) = false := h
  by_cases ha : alwaysNecessary t = true
  · rw [ha] at h; cases h
  · have ha : alwaysNecessary t = false := by simpa using ha
    refine ⟨ha, ?_⟩
    rw [ha, if_neg (by simp)] at h
    cases hn : nullish t with
    | false => exact .inl rfl
    | true => rw [hn] at h; exact .inr (by simpa using h)

omit hN in
/-- The type an element is judged by, if not by literal keys, is that at the node -/
theorem chainedElement_cases {b : Ty} {whole : Node} {key : Option Key} {j : Judgement} (h : T.chainedElement b whole key = some j) :
    (∃ k kt, key = some k ∧ T.keyType k.id = some kt ∧ kt.literalKeys ≠ []) ∨ T.at whole = some j.type := by
  unfold Types.chainedElement at h
  cases hk : (key.bind fun k => T.keyType k.id).bind fun t => T.literalElement b t.literalKeys with
  | some j' =>
    obtain ⟨kt, hkt, hl⟩ := Option.bind_eq_some_iff.1 hk
    obtain ⟨k, rfl, hk'⟩ := Option.bind_eq_some_iff.1 hkt
    refine .inl ⟨k, kt, rfl, hk', fun hnil => ?_⟩
    rw [hnil] at hl
    cases hl
  | none =>
    rw [hk] at h
    obtain ⟨t, ht, rfl⟩ := Option.map_eq_some_iff.1 h
    exact .inr ht

omit hN in
theorem unclear_typeParameter {n : Nat} (h : (Ty.typeParameter n).unclear = false) : False := by cases h

/-- The type at the node, if it is not nullish: the element is not -/
theorem at_sound (hA : Agrees T M R) {s : Nat} {e : Node} {key : Option Key} {o : Bool} {nt t : Ty} {w : Value}
    (hnt : T.resolved (.element s e key o) = some nt) (ho : alwaysNecessary nt = false)
    (horigin : T.nullishObject (.element s e key o) = true)
    (ht : T.at (.element s e key o) = some t) (hu : t.unclear = false) (hn : nullish t = false)
    (hw : R.eval (.element s e key o) = .value w) : w.isNullish = false := by
  have htnt : t = nt := by
    unfold Types.resolved at hnt
    rw [ht] at hnt
    rcases (resolved_iff T.checker t nt).1 hnt with ⟨n, c, rfl, _, _⟩ | ⟨_, rfl⟩
    · cases hu
    · cases t
      case indexedAccess m hm =>
        cases key with
        | none => cases horigin
        | some k =>
          obtain ⟨ts, hts, _, hany⟩ := originIn_true horigin
          exact absurd ht (hA.element_type s e (some k) o ts m hts hany)
      all_goals rfl
  subst htnt
  exact nullish_sound hN t w (hA.settled _ t hnt ho) hn (resolved_has hA hw hnt)

/-- **C120** If a `?.` is reported, what is before it is never nullish when the `?.` is reached -/
theorem reported_not_nullish (hA : Agrees T M R) (e : Node) (r : ChainReport) (h : T.checkOperand e = some r)
    (t : Ty) (ht : T.resolved e = some t) (v : Value) (hv : R.eval e = .value v) : v.isNullish = false := by
  obtain ⟨_, hopt, j, hj, j', hj', _, hu, hn, rfl⟩ := (checkOperand_iff T e r).1 h
  obtain ⟨ho, hor⟩ := not_optionable ht hopt
  rcases hor with hnn | hown
  · exact nullish_sound hN t v (hA.settled e t ht ho) hnn (resolved_has hA hv ht)
  · cases e with
    | root n => cases hown
    | paren e =>
      have hjt : T.resolved (.paren e) = some j.type := by
        obtain ⟨u, hu', rfl⟩ := Option.map_eq_some_iff.1 (show (T.resolved (.paren e)).map named = some j from hj)
        exact hu'
      cases (show some j = some j' from hj')
      rw [ht] at hjt
      cases hjt
      exact nullish_sound hN _ v (hA.settled _ _ ht ho) hn (resolved_has hA hv ht)
    | property s e name o => exact property_sound hN hA ht ho (by simpa [Node.skip, Types.ownNullable] using hown) hv
    | call s e o => exact call_sound hN hA ht ho (by simpa [Node.skip, Types.ownNullable] using hown) hv
    | element s e key o =>
      have horigin : T.nullishObject (.element s e key o) = true := by simpa [Node.skip, Types.ownNullable] using hown
      cases (show some j = some j' from hj')
      cases o with
      | true =>
        obtain ⟨b, _, hb⟩ := Option.bind_eq_some_iff.1 (show ((T.resolved e).bind removeNullish).bind (fun b => T.chainedElement b (.element s e key true) key) = some j from hj)
        rcases chainedElement_cases hb with ⟨k, kt, rfl, hkt, hl⟩ | hat
        · exact element_sound hN hA ht ho horigin hkt hl hv
        · exact at_sound hN hA ht ho horigin hat hu hn hv
      | false =>
        obtain ⟨u, hu', rfl⟩ := Option.map_eq_some_iff.1 (show (T.ofAccess e (.element s e key false)).map named = some j from hj)
        unfold Types.ofAccess at hu'
        by_cases hc : e.isCall = true
        · rw [if_pos hc] at hu'
          obtain ⟨_, _, hb⟩ := Option.bind_eq_some_iff.1 hu'
          exact at_sound hN hA ht ho horigin hb hu hn hv
        · rw [if_neg hc, ht] at hu'
          cases hu'
          exact nullish_sound hN _ v (hA.settled _ _ ht ho) hn (resolved_has hA hv ht)

omit hN in
theorem link_optional {f : Value → Option Value} {x : Outcome} (h : ∀ v, x = .value v → v.isNullish = false) (o o' : Bool) :
    link o f x = link o' f x := by
  cases x with
  | value v => simp [link, h v rfl]
  | short => rfl
  | fails => rfl

/-- **C120** With `.` in place of a reported `?.` the program does the same -/
theorem removable (hA : Agrees T M R) (node : Node) (r : ChainReport) (h : T.checkChain node = some r)
    (t : Ty) (ht : ∀ e, node.operand = some e → T.resolved e = some t) : R.eval node.withoutOptional = R.eval node := by
  cases node with
  | root n => cases h
  | paren e => cases h
  | property s e name o =>
    cases o with
    | false => cases h
    | true => exact link_optional (fun v hv => reported_not_nullish hN hA e r h t (ht e rfl) v hv) false true
  | element s e key o =>
    cases o with
    | false => cases h
    | true => exact link_optional (fun v hv => reported_not_nullish hN hA e r h t (ht e rfl) v hv) false true
  | call s e o =>
    cases o with
    | false => cases h
    | true => exact link_optional (fun v hv => reported_not_nullish hN hA e r h t (ht e rfl) v hv) false true

omit hN

/-! ### What is reported -/

theorem open_iff (t : Ty) : alwaysNecessary t = false ↔ NoOpen t := by
  unfold alwaysNecessary NoOpen
  rw [List.any_eq_false]
  refine forall_congr' fun p => forall_congr' fun _ => ?_
  cases p <;> simp [Ty.open]

theorem clear_iff (t : Ty) : t.unclear = false ↔ Clear t := by
  have key : ∀ p : Ty, p.indeterminate = true ↔ (p = .any ∨ p = .unknown ∨ (∃ n, p = .typeParameter n) ∨ ∃ n, p = .index n) := by
    intro p; cases p <;> simp [Ty.indeterminate]
  unfold Clear
  simp only [← key]
  cases t
  case union ts => simp [Ty.unclear, parts]
  all_goals simp [Ty.unclear, parts, Ty.indeterminate]

theorem nullish_flat (t : Ty) (h : ∀ us, t ≠ .union us) : nullish t = t.nullishLeaf := by
  cases t
  case union us => exact absurd rfl (h us)
  all_goals simp [nullish]

theorem noNullish_iff (t : Ty) (hf : Flat t) : nullish t = false ↔ NoNullish t := by
  have key : ∀ p : Ty, (∀ us, p ≠ .union us) → (nullish p = false ↔ (p ≠ .null ∧ p ≠ .undefined ∧ p ≠ .void)) := by
    intro p hp
    rw [nullish_flat p hp, ← Bool.not_eq_true, leaf_iff']
    simp
  unfold NoNullish
  cases t
  case union ts =>
    rw [nullish, ← Bool.not_eq_true, anyNullish_iff]
    simp only [not_exists, not_and, Bool.not_eq_true, parts]
    exact forall_congr' fun p => forall_congr' fun hp => key p (hf ts rfl p hp)
  all_goals (rw [key _ (by simp)]; simp [parts])

/-! #### Elements that may be out of bounds -/

theorem endsOptional_iff : ∀ e : Node, e.usesOptional = true ↔ EndsOptional e
  | .root n => ⟨fun h => (nomatch h), fun h => (nomatch h)⟩
  | .paren e => ⟨fun h => .paren ((endsOptional_iff e).1 h), fun h => by cases h with | paren h => exact (endsOptional_iff e).2 h⟩
  | .property s e name o => by cases o <;> exact ⟨fun h => (by first | exact .property s e name | cases h), fun h => (by first | rfl | cases h)⟩
  | .element s e key o => by cases o <;> exact ⟨fun h => (by first | exact .element s e key | cases h), fun h => (by first | rfl | cases h)⟩
  | .call s e o => by cases o <;> exact ⟨fun h => (by first | exact .call s e | cases h), fun h => (by first | rfl | cases h)⟩

theorem safeTuple_iff (T : Types) (b : Node) (key : Option Key) :
    T.safeTuple b key = true ↔ ∃ k t, key = some k ∧ k.numeric = true ∧ T.resolved b = some t ∧ T.tuple t = true := by
  unfold Types.safeTuple
  cases key with
  | none => simp
  | some k => simp [Option.any_eq_true_iff_get]; cases T.resolved b <;> simp

theorem unsafe_iff (T : Types) (s : Nat) (b : Node) (key : Option Key) (o : Bool) :
    T.unsafeElement b key o = true ↔ T.noUnchecked = false ∧ Unguarded T (.element s b key o) := by
  unfold Types.unsafeElement Unguarded
  simp only [Bool.and_eq_true, Bool.not_eq_true', Node.element.injEq]
  rw [show (T.safeTuple b key = false) ↔ ¬ T.safeTuple b key = true by simp, safeTuple_iff]
  constructor
  · rintro ⟨⟨rfl, hn⟩, h⟩
    exact ⟨hn, s, b, key, ⟨rfl, rfl, rfl, rfl⟩, h⟩
  · rintro ⟨hn, s', b', key', ⟨rfl, rfl, rfl, rfl⟩, h⟩
    exact ⟨⟨rfl, hn⟩, h⟩

theorem unguarded_element {T : Types} {x : Node} (h : Unguarded T x) : ∃ s b key, x = .element s b key false := by
  obtain ⟨s, b, key, rfl, _⟩ := h
  exact ⟨s, b, key, rfl⟩

theorem hasUnsafe_iff (T : Types) : ∀ e : Node, T.hasUnsafe e = true ↔ T.noUnchecked = false ∧ ∃ x, Spine x e ∧ Unguarded T x
  | .root n => by
    constructor
    · intro h; cases h
    · rintro ⟨_, x, hx, hu⟩
      cases hx
      obtain ⟨s, b, key, h⟩ := unguarded_element hu
      cases h
  | .paren e => by
    rw [Types.hasUnsafe, hasUnsafe_iff T e]
    constructor
    · rintro ⟨hn, x, hx, hu⟩; exact ⟨hn, x, .paren hx, hu⟩
    · rintro ⟨hn, x, hx, hu⟩
      cases hx with
      | here => obtain ⟨s, b, key, h⟩ := unguarded_element hu; cases h
      | paren hx => exact ⟨hn, x, hx, hu⟩
  | .property s e name o => by
    rw [Types.hasUnsafe, hasUnsafe_iff T e]
    constructor
    · rintro ⟨hn, x, hx, hu⟩; exact ⟨hn, x, .property s name o hx, hu⟩
    · rintro ⟨hn, x, hx, hu⟩
      cases hx with
      | here => obtain ⟨s, b, key, h⟩ := unguarded_element hu; cases h
      | property _ _ _ hx => exact ⟨hn, x, hx, hu⟩
  | .call s e o => by
    rw [Types.hasUnsafe, hasUnsafe_iff T e]
    constructor
    · rintro ⟨hn, x, hx, hu⟩; exact ⟨hn, x, .call s o hx, hu⟩
    · rintro ⟨hn, x, hx, hu⟩
      cases hx with
      | here => obtain ⟨s, b, key, h⟩ := unguarded_element hu; cases h
      | call _ _ hx => exact ⟨hn, x, hx, hu⟩
  | .element s e key o => by
    rw [Types.hasUnsafe]
    by_cases h : T.unsafeElement e key o = true
    · rw [if_pos h]
      have := (unsafe_iff T s e key o).1 h
      exact ⟨fun _ => ⟨this.1, _, .here _, this.2⟩, fun _ => rfl⟩
    · rw [if_neg h, hasUnsafe_iff T e]
      constructor
      · rintro ⟨hn, x, hx, hu⟩; exact ⟨hn, x, .element s key o hx, hu⟩
      · rintro ⟨hn, x, hx, hu⟩
        cases hx with
        | here => exact absurd ((unsafe_iff T s e key o).2 ⟨hn, hu⟩) h
        | element _ _ _ hx => exact ⟨hn, x, hx, hu⟩

/-- **C120** `b[k]?.…`, and a second `?.` after `b[k]`, are not judged unless `noUncheckedIndexedAccess` is on or the key is a number in a tuple -/
theorem skips_iff (T : Types) (e : Node) : T.skips e = true ↔ Skipped T e := by
  have h1 : T.isUnsafe e.skip = true ↔ T.noUnchecked = false ∧ Unguarded T e.skip := by
    cases e.skip with
    | element s b key o => exact unsafe_iff T s b key o
    | _ =>
      constructor
      · intro h; cases h
      · rintro ⟨_, h⟩; obtain ⟨s, b, key, h⟩ := unguarded_element h; cases h
  unfold Types.skips Skipped
  rw [Bool.or_eq_true, Bool.and_eq_true, h1, endsOptional_iff, hasUnsafe_iff]
  constructor
  · rintro (⟨hn, h⟩ | ⟨he, hn, h⟩)
    · exact ⟨hn, .inl h⟩
    · exact ⟨hn, .inr ⟨he, h⟩⟩
  · rintro ⟨hn, h | ⟨he, h⟩⟩
    · exact .inl ⟨hn, h⟩
    · exact .inr ⟨he, hn, h⟩

theorem skipped_not_reported (T : Types) (e : Node) (h : Skipped T e) : T.checkOperand e = none := by
  unfold Types.checkOperand
  rw [if_pos ((skips_iff T e).2 h)]

theorem skips_false {T : Types} {e : Node} (h : ¬ Skipped T e) : T.skips e = false := by
  rw [← Bool.not_eq_true, skips_iff]; exact h

/-! #### Operands judged by their own types -/

theorem direct_type {T : Types} {e : Node} (h : Direct e) : T.operandType e = (T.resolved e).map named := by
  have hc : ∀ e : Node, (∀ s' e' o, e ≠ .call s' e' o) → e.isCall = false := by
    intro e he
    cases e with
    | call s e o => exact absurd rfl (he s e o)
    | _ => rfl
  cases h with
  | root n => rfl
  | paren e => rfl
  | property s e name he =>
    show (T.ofAccess e _).map named = _
    unfold Types.ofAccess
    rw [if_neg (by simp [hc e he])]
  | element s e key he =>
    show (T.ofAccess e _).map named = _
    unfold Types.ofAccess
    rw [if_neg (by simp [hc e he])]

theorem direct_call {T : Types} {e : Node} (h : Direct e) (j : Judgement) : T.withoutCallee e j = some j ∧ T.someReturn e = false := by
  cases h <;> exact ⟨rfl, rfl⟩

theorem optionable_of {T : Types} {e : Node} {t : Ty} (ht : T.resolved e = some t) :
    T.optionable e = if alwaysNecessary t then true else T.ownNullable e.skip && nullish t := by
  unfold Types.optionable
  rw [resolved_skip, ht]

/-- **C120** `x?.…`, `(…)?.…`, `a.b?.…`: reported exactly if the type is known, and no part of it is nullish, `any`, `unknown`, a type variable or `keyof T` -/
theorem direct_iff (T : Types) (e : Node) (hd : Direct e) (hs : ¬ Skipped T e) (hf : ∀ t, T.resolved e = some t → Flat t) (r : ChainReport) :
    T.checkOperand e = some r ↔ ∃ t, T.resolved e = some t ∧ NoOpen t ∧ Clear t ∧ NoNullish t ∧ r = ⟨e, ⟨t, []⟩⟩ := by
  rw [checkOperand_iff, direct_type hd]
  constructor
  · rintro ⟨_, ho, j, hj, j', hj', _, hu, hn, rfl⟩
    obtain ⟨t, ht, rfl⟩ := Option.map_eq_some_iff.1 hj
    rw [(direct_call hd _).1] at hj'
    cases hj'
    exact ⟨t, ht, (open_iff t).1 (not_optionable ht ho).1, (clear_iff t).1 hu, (noNullish_iff t (hf t ht)).1 hn, rfl⟩
  · rintro ⟨t, ht, ho, hc, hn, rfl⟩
    have hn' := (noNullish_iff t (hf t ht)).2 hn
    refine ⟨skips_false hs, ?_, named t, by rw [ht]; rfl, named t, (direct_call hd (named t)).1, (direct_call hd (named t)).2, (clear_iff t).2 hc, hn', rfl⟩
    rw [optionable_of ht, (open_iff t).2 ho, hn']
    simp

/-! #### The second `?.` -/

theorem removeNullish_some {t u : Ty} (h : removeNullish t = some u) : nullish u = false := by
  cases t
  case union ts =>
    have hm : u ∈ ts.filter fun t => !nullish t := List.mem_of_head? h
    simpa using (List.mem_filter.1 hm).2
  all_goals
    simp only [removeNullish] at h
    split at h
    · cases h
    · cases h
      rename_i hl
      first
        | (simp only [nullish]; simpa using hl)
        | rfl

theorem removeNullish_self {t : Ty} (hu : ∀ us, t ≠ .union us) (hn : nullish t = false) : removeNullish t = some t := by
  have hl := nullish_flat t hu
  rw [hn] at hl
  cases t
  case union us => exact absurd rfl (hu us)
  all_goals (simp only [removeNullish, ← hl]; rfl)

theorem originIn_iff (own : Ty → Bool) (ts : List Ty) (ha : anyNullish ts = true) :
    originIn own (some (.union ts)) = true ↔ ∀ t ∈ ts, own t = false := by
  simp only [originIn, ha, Bool.and_true, Bool.not_eq_true', List.any_eq_false, Bool.not_eq_true]

/-- **C120** `e?.name?.…` where `e` may be nullish: reported exactly if `name` is not nullish in any part of the type of `e`, and not `any`, `unknown`, a type parameter or `keyof T` in the first -/
theorem property_iff (T : Types) (s : Nat) (e : Node) (name : String) (ts : List Ty) (a p t : Ty) (r : ChainReport)
    (hs : ¬ Skipped T (.property s e name true)) (hname : name ≠ "")
    (he : T.resolved e = some (.union ts)) (hflat : Flat (.union ts)) (hnull : ∃ u ∈ ts, u = .null ∨ u = .undefined ∨ u = .void)
    (ha : (ts.filter fun u => !nullish u).head? = some a) (hp : T.property a name = some p)
    (hall : ∀ u ∈ ts, nullish u = false → ∃ q, T.property u name = some q)
    (ht : T.resolved (.property s e name true) = some t) (ho : NoOpen t) (htn : nullish t = true) :
    T.checkOperand (.property s e name true) = some r ↔
      (∀ u ∈ ts, nullish u = false → ∀ q, T.property u name = some q → nullish q = false) ∧ Clear p ∧ r = ⟨.property s e name true, ⟨p, []⟩⟩ := by
  have hany : anyNullish ts = true := by
    obtain ⟨u, hu, hl⟩ := hnull
    refine (anyNullish_iff ts).2 ⟨u, hu, ?_⟩
    rcases hl with rfl | rfl | rfl <;> rfl
  have ham : a ∈ ts ∧ nullish a = false := by
    have := List.mem_filter.1 (List.mem_of_head? ha)
    exact ⟨this.1, by simpa using this.2⟩
  have hopt : T.optionable (.property s e name true) = false ↔ ∀ u ∈ ts, nullish u = false → ∀ q, T.property u name = some q → nullish q = false := by
    rw [optionable_of ht, (open_iff t).2 ho, htn, if_neg (by simp), Bool.and_true]
    simp only [Node.skip, Types.ownNullable, Bool.not_eq_false', Types.nullishObject]
    rw [he, originIn_iff _ _ hany]
    refine forall_congr' fun u => forall_congr' fun hu => ?_
    unfold Types.ownProperty
    cases hn : nullish u with
    | true => simp
    | false =>
      obtain ⟨q, hq⟩ := hall u hu hn
      simp [hq, hname]
  have htype : T.operandType (.property s e name true) = some (named p) := by
    show (((T.resolved e).bind removeNullish).bind fun b => T.chainedProperty b (.property s e name true) name).map named = _
    rw [he]
    simp only [Option.bind_some, removeNullish, ha]
    unfold Types.chainedProperty Types.propertyFrom
    rw [removeNullish_self (hflat ts rfl a ham.1) ham.2]
    simp only [Option.bind_some, if_neg hname, Types.found, hp]
    rfl
  rw [checkOperand_iff, htype, hopt]
  constructor
  · rintro ⟨_, h, j, hj, j', hj', _, hu, hn, rfl⟩
    cases hj
    cases hj'
    exact ⟨h, (clear_iff p).1 hu, rfl⟩
  · rintro ⟨h, hc, rfl⟩
    exact ⟨skips_false hs, h, named p, rfl, named p, rfl, rfl, (clear_iff p).2 hc, h a ham.1 ham.2 p hp, rfl⟩

/-- **C120** `e?.name?.…` where `name` is given by a string index signature: reported exactly without `noUncheckedIndexedAccess`, if the type of the index is not nullish and known -/
theorem index_iff (T : Types) (s : Nat) (e : Node) (name : String) (ts : List Ty) (a i t : Ty) (r : ChainReport)
    (hs : ¬ Skipped T (.property s e name true)) (hname : name ≠ "")
    (he : T.resolved e = some (.union ts)) (hflat : Flat (.union ts)) (hnull : ∃ u ∈ ts, u = .null ∨ u = .undefined ∨ u = .void)
    (ha : (ts.filter fun u => !nullish u) = [a]) (hp : T.found a name = none)
    (hi : T.stringIndex a = some i) (hinfo : T.indexInfos a = [("string", i)])
    (ht : T.resolved (.property s e name true) = some t) (ho : NoOpen t) (htn : nullish t = true) :
    T.checkOperand (.property s e name true) = some r ↔
      T.noUnchecked = false ∧ nullish i = false ∧ Clear i ∧ r = ⟨.property s e name true, ⟨i, []⟩⟩ := by
  have hany : anyNullish ts = true := by
    obtain ⟨u, hu, hl⟩ := hnull
    refine (anyNullish_iff ts).2 ⟨u, hu, ?_⟩
    rcases hl with rfl | rfl | rfl <;> rfl
  have hmem : ∀ u, (u ∈ ts ∧ nullish u = false) ↔ u = a := by
    intro u
    have := List.mem_filter (p := fun u => !nullish u) (as := ts) (x := u)
    rw [ha] at this
    simpa using this.symm
  have ham := (hmem a).2 rfl
  have hpa : T.property a name = none := by
    unfold Types.found at hp
    cases h : T.property a name with
    | none => rfl
    | some q => rw [h] at hp; cases hp
  have hopt : T.optionable (.property s e name true) = false ↔ T.noUnchecked = false ∧ nullish i = false := by
    rw [optionable_of ht, (open_iff t).2 ho, htn, if_neg (by simp), Bool.and_true]
    simp only [Node.skip, Types.ownNullable, Bool.not_eq_false', Types.nullishObject]
    rw [he, originIn_iff _ _ hany]
    have hown : T.ownProperty name a = (T.noUnchecked || nullish i) := by
      unfold Types.ownProperty
      rw [ham.2, if_neg (by simp), if_neg hname, hpa, hinfo]
      simp
    constructor
    · intro h
      have := h a ham.1
      rw [hown] at this
      simpa using this
    · rintro ⟨h1, h2⟩ u hu
      cases hn : nullish u with
      | true => unfold Types.ownProperty; simp [hn]
      | false =>
        have := (hmem u).1 ⟨hu, hn⟩
        subst this
        rw [hown, h1, h2]
        rfl
  have htype : T.noUnchecked = false → T.operandType (.property s e name true) = some (named i) := by
    intro hnu
    show (((T.resolved e).bind removeNullish).bind fun b => T.chainedProperty b (.property s e name true) name).map named = _
    rw [he]
    simp only [Option.bind_some, removeNullish, ha, List.head?_cons]
    unfold Types.chainedProperty Types.propertyFrom
    rw [removeNullish_self (hflat ts rfl a ham.1) ham.2]
    simp only [Option.bind_some, if_neg hname, hp, Types.fromIndex, Types.stringIndexOf, hi, hnu]
    rfl
  rw [checkOperand_iff, hopt]
  constructor
  · rintro ⟨_, ⟨hnu, hin⟩, j, hj, j', hj', _, hu, hn, rfl⟩
    rw [htype hnu] at hj
    cases hj
    cases hj'
    exact ⟨hnu, hin, (clear_iff i).1 hu, rfl⟩
  · rintro ⟨hnu, hin, hc, rfl⟩
    exact ⟨skips_false hs, ⟨hnu, hin⟩, named i, htype hnu, named i, rfl, rfl, (clear_iff i).2 hc, hin, rfl⟩

/-! #### Calls -/

/-- **C120** `e?.()?.…`, `….f()?.…` with a `?.` before, where what is called may be nullish: reported exactly if no signature of any part returns something nullish, and the return type is known -/
theorem call_iff (T : Types) (s : Nat) (e : Node) (o : Bool) (ts : List Ty) (a ret t : Ty) (r : ChainReport)
    (hs : ¬ Skipped T (.call s e o)) (hopt : o = true ∨ e.hasOptional = true)
    (he : T.resolved e = some (.union ts)) (hflat : Flat (.union ts)) (hnull : ∃ u ∈ ts, u = .null ∨ u = .undefined ∨ u = .void)
    (ha : (ts.filter fun u => !nullish u).head? = some a) (hret : T.signature (.call s e o) = some ret)
    (ht : T.resolved (.call s e o) = some t) (ho : NoOpen t) (htn : nullish t = true) :
    T.checkOperand (.call s e o) = some r ↔
      (∀ u ∈ ts, ∀ q ∈ T.signatures u, nullish q = false) ∧ ∃ x, removeNullish ret = some x ∧ Clear x ∧ r = ⟨.call s e o, ⟨x, []⟩⟩ := by
  have hany : anyNullish ts = true := by
    obtain ⟨u, hu, hl⟩ := hnull
    refine (anyNullish_iff ts).2 ⟨u, hu, ?_⟩
    rcases hl with rfl | rfl | rfl <;> rfl
  have hcallee : T.nullishCallee e = true ↔ ∀ u ∈ ts, ∀ q ∈ T.signatures u, nullish q = false := by
    unfold Types.nullishCallee
    rw [he]
    simp only [hany, Bool.and_true, Bool.not_eq_true', List.any_eq_false, List.any_eq_true, not_exists, not_and, Bool.not_eq_true]
  have hoptionable : T.optionable (.call s e o) = false ↔ T.nullishCallee e = true := by
    rw [optionable_of ht, (open_iff t).2 ho, htn, if_neg (by simp), Bool.and_true]
    simp only [Node.skip, Types.ownNullable, Bool.not_eq_false']
  have hcr : T.callReturn (.call s e o) = some ret := by
    unfold Types.callReturn
    have hcond : (!o && !e.hasOptional) = false := by rcases hopt with h | h <;> simp [h]
    simp only [hcond, hret]
    rfl
  have htype : T.operandType (.call s e o) = some (named ret) := by
    cases o with
    | true =>
      show (((T.resolved e).bind removeNullish).bind fun _ => T.ofCall (.call s e true)).map named = _
      rw [he]
      simp only [Option.bind_some, removeNullish, ha, Types.ofCall, hcr]
      rfl
    | false =>
      show (T.ofCall (.call s e false)).map named = _
      simp only [Types.ofCall, hcr]
      rfl
  have hsome : (∀ u ∈ ts, ∀ q ∈ T.signatures u, nullish q = false) → T.someReturn (.call s e o) = false := by
    intro h
    show ((T.resolved e).any fun t => (parts t).any fun p => !p.nullishLeaf && (T.signatures p).head?.any nullish) = false
    rw [he]
    simp only [Option.any_some, parts, List.any_eq_false, Bool.and_eq_true, not_and, Bool.not_eq_true]
    intro u hu _
    cases hh : (T.signatures u).head? with
    | none => rfl
    | some q => exact h u hu q (List.mem_of_head? hh)
  rw [checkOperand_iff, htype, hoptionable]
  constructor
  · rintro ⟨_, h, j, hj, j', hj', _, hu, hn, rfl⟩
    cases hj
    replace hj' : (if T.nullishCallee e then (removeNullish ret).map (fun t => { named ret with type := t }) else some (named ret)) = some j' := hj'
    rw [if_pos h] at hj'
    obtain ⟨x, hx, rfl⟩ := Option.map_eq_some_iff.1 hj'
    exact ⟨hcallee.1 h, x, hx, (clear_iff x).1 hu, rfl⟩
  · rintro ⟨h, x, hx, hc, rfl⟩
    refine ⟨skips_false hs, hcallee.2 h, named ret, rfl, ⟨x, []⟩, ?_, hsome h, (clear_iff x).2 hc, removeNullish_some hx, rfl⟩
    show (if T.nullishCallee e then (removeNullish ret).map (fun t => { named ret with type := t }) else some (named ret)) = _
    rw [if_pos (hcallee.2 h), hx]
    rfl

/-- **C120** `f()?.…` without a `?.` before, where `f` is not nullish: reported exactly if the type of the call has no nullish part and is known, and no part of the type of `f` returns something nullish by its first signature -/
theorem plain_call_iff (T : Types) (s : Nat) (e : Node) (f t : Ty) (r : ChainReport)
    (hs : ¬ Skipped T (.call s e false)) (hopt : e.hasOptional = false)
    (he : T.resolved e = some f) (hfn : nullish f = false)
    (ht : T.resolved (.call s e false) = some t) (hflat : Flat t) :
    T.checkOperand (.call s e false) = some r ↔
      NoOpen t ∧ Clear t ∧ NoNullish t ∧ (∀ u ∈ parts f, ∀ q, (T.signatures u).head? = some q → nullish q = false) ∧ r = ⟨.call s e false, ⟨t, []⟩⟩ := by
  have hcallee : T.nullishCallee e = false := by
    cases h : T.nullishCallee e with
    | false => rfl
    | true =>
      obtain ⟨ts, hts, _, hany⟩ := nullishCallee_true h
      rw [he] at hts
      cases hts
      rw [nullish, hany] at hfn
      cases hfn
  have htype : T.operandType (.call s e false) = some (named t) := by
    show (T.ofCall (.call s e false)).map named = _
    have : T.callReturn (.call s e false) = some t := by
      unfold Types.callReturn
      simp only [hopt, ht]
      rfl
    simp only [Types.ofCall, this]
    rfl
  have hwithout : ∀ j, T.withoutCallee (.call s e false) j = some j := by
    intro j
    show (if T.nullishCallee e then _ else some j) = _
    rw [hcallee]
    rfl
  have hsome : T.someReturn (.call s e false) = false ↔ ∀ u ∈ parts f, ∀ q, (T.signatures u).head? = some q → nullish q = false := by
    have hleaf : ∀ u ∈ parts f, u.nullishLeaf = false := by
      intro u hu
      cases hl : u.nullishLeaf with
      | false => rfl
      | true =>
        have hun : nullish u = true := by rcases (leaf_iff' u).1 hl with rfl | rfl | rfl <;> rfl
        cases f
        case union ts =>
          have := (anyNullish_iff ts).2 ⟨u, hu, hun⟩
          rw [nullish, this] at hfn
          cases hfn
        all_goals
          simp only [parts, List.mem_singleton] at hu
          subst hu
          rw [hun] at hfn
          cases hfn
    show ((T.resolved e).any fun t => (parts t).any fun p => !p.nullishLeaf && (T.signatures p).head?.any nullish) = false ↔ _
    rw [he]
    simp only [Option.any_some, List.any_eq_false, Bool.and_eq_true, Bool.not_eq_true', not_and, Bool.not_eq_true]
    constructor
    · intro h u hu q hq
      have := h u hu (hleaf u hu)
      rw [hq] at this
      exact this
    · intro h u hu _
      cases hh : (T.signatures u).head? with
      | none => rfl
      | some q => exact h u hu q hh
  rw [checkOperand_iff, htype, hsome]
  constructor
  · rintro ⟨_, ho, j, hj, j', hj', h, hu, hn, rfl⟩
    cases hj
    rw [hwithout] at hj'
    cases hj'
    exact ⟨(open_iff t).1 (not_optionable ht ho).1, (clear_iff t).1 hu, (noNullish_iff t hflat).1 hn, h, rfl⟩
  · rintro ⟨ho, hc, hn, h, rfl⟩
    have hn' := (noNullish_iff t hflat).2 hn
    refine ⟨skips_false hs, ?_, named t, rfl, named t, hwithout _, h, (clear_iff t).2 hc, hn', rfl⟩
    rw [optionable_of ht, (open_iff t).2 ho, hn']
    simp

/-- **C120** `f().name?.…` or `f?.().name?.…`, where the call gives an object type that is no union: judged by the property of the return type -/
theorem call_property_iff (T : Types) (s s' : Nat) (c : Node) (o : Bool) (name : String) (b t p : Ty) (r : ChainReport)
    (hs : ¬ Skipped T (.property s (.call s' c o) name false)) (hname : name ≠ "")
    (hret : T.callReturn (.call s' c o) = some b) (hbu : ∀ us, b ≠ .union us) (hbn : nullish b = false)
    (hp : T.property b name = some p)
    (ht : T.resolved (.property s (.call s' c o) name false) = some t) (ho : NoOpen t) (htn : nullish t = false) :
    T.checkOperand (.property s (.call s' c o) name false) = some r ↔
      nullish p = false ∧ Clear p ∧ r = ⟨.property s (.call s' c o) name false, ⟨p, []⟩⟩ := by
  have htype : T.operandType (.property s (.call s' c o) name false) = some (named p) := by
    show (T.ofAccess (.call s' c o) _).map named = _
    have hacc : T.ofAccess (.call s' c o) (.property s (.call s' c o) name false) = T.callProperty (.call s' c o) (.property s (.call s' c o) name false) := rfl
    rw [hacc]
    unfold Types.callProperty
    rw [hret]
    simp only [Option.bind_some, removeNullish_self hbu hbn]
    show (T.propertyFrom b _ name).map named = _
    unfold Types.propertyFrom
    rw [removeNullish_self hbu hbn]
    simp only [Option.bind_some, if_neg hname, Types.found, hp]
    rfl
  rw [checkOperand_iff, htype]
  constructor
  · rintro ⟨_, _, j, hj, j', hj', _, hu, hn, rfl⟩
    cases hj
    cases hj'
    exact ⟨hn, (clear_iff p).1 hu, rfl⟩
  · rintro ⟨hn, hc, rfl⟩
    refine ⟨skips_false hs, ?_, named p, rfl, named p, rfl, rfl, (clear_iff p).2 hc, hn, rfl⟩
    rw [optionable_of ht, (open_iff t).2 ho, htn]
    simp

/-! #### Elements with literal keys -/

theorem literalTypes_iff (T : Types) (b : Ty) (keys : List String) (ps : List Ty) :
    T.literalTypes b keys = some ps ↔ keys.map (T.property b) = ps.map some ∧ ∀ p ∈ ps, nullish p = false := by
  induction keys generalizing ps with
  | nil => cases ps <;> simp [Types.literalTypes]
  | cons k ks ih =>
    unfold Types.literalTypes
    cases hk : T.property b k with
    | none => cases ps <;> simp [hk]
    | some p =>
      simp only
      cases hn : nullish p with
      | true =>
        cases ps with
        | nil => simp
        | cons q qs =>
          simp only [if_true, List.map_cons, hk, List.cons.injEq, Option.some.injEq, false_iff, not_and, reduceCtorEq]
          rintro ⟨rfl, _⟩ h
          have := h p (by simp)
          rw [hn] at this
          cases this
      | false =>
        simp only [Bool.false_eq_true, if_false, Option.map_eq_some_iff, ih]
        cases ps with
        | nil => simp
        | cons q qs =>
          simp only [List.map_cons, hk, List.cons.injEq, Option.some.injEq, List.mem_cons, forall_eq_or_imp]
          constructor
          · rintro ⟨l, ⟨h1, h2⟩, rfl, rfl⟩
            exact ⟨⟨rfl, h1⟩, hn, h2⟩
          · rintro ⟨⟨rfl, h1⟩, _, h2⟩
            exact ⟨qs, ⟨h1, h2⟩, rfl, rfl⟩

theorem addNames_spec (ns : List String) : ∀ names : List String, names.Nodup →
    (addNames names ns).Nodup ∧ (∀ n, n ∈ addNames names ns ↔ n ∈ names ∨ n ∈ ns) ∧ ∃ l : List String, addNames names ns = names ++ l ∧ l.Sublist ns := by
  induction ns with
  | nil => intro names h; exact ⟨h, by simp [addNames], [], by simp [addNames], .slnil⟩
  | cons n ns ih =>
    intro names h
    by_cases hn : n ∈ names
    · obtain ⟨h1, h2, l, h3, h4⟩ := ih names h
      simp only [addNames, if_pos hn]
      refine ⟨h1, fun m => ?_, l, h3, h4.cons n⟩
      rw [h2 m]
      simp only [List.mem_cons]
      constructor
      · rintro (h | h)
        · exact .inl h
        · exact .inr (.inr h)
      · rintro (h | rfl | h)
        · exact .inl h
        · exact .inl hn
        · exact .inr h
    · have hnd : (names ++ [n]).Nodup := by
        rw [List.nodup_append]
        refine ⟨h, by simp, ?_⟩
        intro a ha b hb
        simp only [List.mem_singleton] at hb
        subst hb
        rintro rfl
        exact hn ha
      obtain ⟨h1, h2, l, h3, h4⟩ := ih (names ++ [n]) hnd
      simp only [addNames, if_neg hn]
      refine ⟨h1, fun m => ?_, n :: l, by rw [h3]; simp, h4.cons_cons n⟩
      rw [h2 m]
      simp only [List.mem_append, List.mem_cons, List.not_mem_nil, or_false, or_assoc]

/-- **C120** The names in a report on `e?.[k]?.…`: those of the properties' types, each once, in order -/
theorem names_spec (ns : List String) : (addNames [] ns).Nodup ∧ (∀ n, n ∈ addNames [] ns ↔ n ∈ ns) ∧ (addNames [] ns).Sublist ns := by
  obtain ⟨h1, h2, l, h3, h4⟩ := addNames_spec ns [] .nil
  refine ⟨h1, fun n => by simpa using h2 n, ?_⟩
  rw [h3]
  simpa using h4

theorem nullableProperty_literal (T : Types) (obj kt : Ty) (hl : kt.literalKeys ≠ []) :
    T.nullableProperty obj kt = false ↔ ∀ key ∈ kt.literalKeys, T.nullableKey obj (.stringLit key) = false := by
  constructor
  · intro h key hk
    exact nullable_literal T obj kt key hk h
  · intro h
    cases kt
    case stringLit s => exact h s (by simp [Ty.literalKeys])
    case union ts =>
      replace hl : (if ts.all Ty.isStringLit = true then Ty.stringLits ts else []) ≠ [] := hl
      replace h : ∀ key ∈ (if ts.all Ty.isStringLit = true then Ty.stringLits ts else []), T.nullableKey obj (.stringLit key) = false := h
      by_cases hall : ts.all Ty.isStringLit = true
      · rw [if_pos hall] at h
        rw [Types.nullableProperty, ← Bool.not_eq_true, someNullableProperty_iff]
        rintro ⟨t, ht, hn⟩
        have := List.all_eq_true.1 hall t ht
        cases t <;> simp [Ty.isStringLit] at this
        rename_i s
        have := h s ((stringLits_mem ts s).2 ht)
        rw [Types.nullableProperty, this] at hn
        · cases hn
        · intro ts h; cases h
      · rw [if_neg hall] at hl; exact absurd rfl hl
    all_goals exact absurd rfl hl

/-- **C120** `e?.[k]?.…` where `e` may be nullish and `k` is one of some literals: reported exactly if the property is not nullish for any key in any part of the type of `e`, and known for the first key in the first part; with the names of its types -/
theorem element_iff (T : Types) (s : Nat) (e : Node) (k : Key) (ts : List Ty) (a kt t p : Ty) (ps : List Ty) (r : ChainReport)
    (hs : ¬ Skipped T (.element s e (some k) true))
    (he : T.resolved e = some (.union ts)) (hnull : ∃ u ∈ ts, u = .null ∨ u = .undefined ∨ u = .void)
    (hkt : T.keyType k.id = some kt) (hl : kt.literalKeys ≠ [])
    (ha : (ts.filter fun u => !nullish u).head? = some a) (hp : kt.literalKeys.map (T.property a) = (p :: ps).map some)
    (hall : ∀ u ∈ ts, nullish u = false → ∀ key ∈ kt.literalKeys, ∃ q, T.property u key = some q)
    (ht : T.resolved (.element s e (some k) true) = some t) (ho : NoOpen t) (htn : nullish t = true) :
    T.checkOperand (.element s e (some k) true) = some r ↔
      (∀ u ∈ ts, nullish u = false → ∀ key ∈ kt.literalKeys, ∀ q, T.property u key = some q → nullish q = false) ∧ Clear p ∧
        r = ⟨.element s e (some k) true, ⟨p, addNames [] ((p :: ps).map T.display)⟩⟩ := by
  have hany : anyNullish ts = true := by
    obtain ⟨u, hu, hl⟩ := hnull
    refine (anyNullish_iff ts).2 ⟨u, hu, ?_⟩
    rcases hl with rfl | rfl | rfl <;> rfl
  have ham : a ∈ ts ∧ nullish a = false := by
    have := List.mem_filter.1 (List.mem_of_head? ha)
    exact ⟨this.1, by simpa using this.2⟩
  have hopt : T.optionable (.element s e (some k) true) = false ↔
      ∀ u ∈ ts, nullish u = false → ∀ key ∈ kt.literalKeys, ∀ q, T.property u key = some q → nullish q = false := by
    rw [optionable_of ht, (open_iff t).2 ho, htn, if_neg (by simp), Bool.and_true]
    simp only [Node.skip, Types.ownNullable, Bool.not_eq_false', Types.nullishObject]
    rw [he, originIn_iff _ _ hany]
    refine forall_congr' fun u => forall_congr' fun hu => ?_
    rw [hkt, literalKeys_resolved _ kt hl, Types.ownElement]
    cases hn : nullish u with
    | true => simp
    | false =>
      simp only [Bool.false_eq_true, if_false, Option.any_some, forall_const]
      rw [nullableProperty_literal T u kt hl]
      refine forall_congr' fun key => forall_congr' fun hkey => ?_
      obtain ⟨q, hq⟩ := hall u hu hn key hkey
      simp [Types.nullableKey, Ty.literalName, hq]
  have hfirst : (∀ key ∈ kt.literalKeys, ∀ q, T.property a key = some q → nullish q = false) →
      T.operandType (.element s e (some k) true) = some ⟨p, addNames [] ((p :: ps).map T.display)⟩ := by
    intro h
    have hlt : T.literalTypes a kt.literalKeys = some (p :: ps) := by
      refine (literalTypes_iff T a _ _).2 ⟨hp, fun q hq => ?_⟩
      have : some q ∈ kt.literalKeys.map (T.property a) := by rw [hp]; exact List.mem_map.2 ⟨q, hq, rfl⟩
      obtain ⟨key, hkey, hkq⟩ := List.mem_map.1 this
      exact h key hkey q hkq
    show ((T.resolved e).bind removeNullish).bind (fun b => T.chainedElement b (.element s e (some k) true) (some k)) = _
    rw [he]
    simp only [Option.bind_some, removeNullish, ha, Types.chainedElement, hkt, Types.literalElement, hlt]
  rw [checkOperand_iff, hopt]
  constructor
  · rintro ⟨_, h, j, hj, j', hj', _, hu, hn, rfl⟩
    rw [hfirst (h a ham.1 ham.2)] at hj
    cases hj
    cases hj'
    exact ⟨h, (clear_iff p).1 hu, rfl⟩
  · rintro ⟨h, hc, rfl⟩
    have hpn : nullish p = false := by
      have : some p ∈ kt.literalKeys.map (T.property a) := by rw [hp]; simp
      obtain ⟨key, hkey, hkq⟩ := List.mem_map.1 this
      exact h a ham.1 ham.2 key hkey p hkq
    exact ⟨skips_false hs, h, _, hfirst (h a ham.1 ham.2), _, rfl, rfl, (clear_iff p).2 hc, hpn, rfl⟩

/-- **C120** `e?.[i]?.…` is judged by the type of the element although `e[i]?.…` is not: an element that is missing is not expected after `?.` -/
theorem guarded_index (T : Types) (s : Nat) (e : Node) (k : Key) (b a t : Ty) (hnu : T.noUnchecked = false)
    (he : T.resolved e = some b) (ha : removeNullish b = some a) (htuple : T.tuple b = false)
    (hu : ∀ x, Spine x e → ¬ Unguarded T x) (hkey : ∀ kt, T.keyType k.id = some kt → kt.literalKeys = [])
    (ht : T.at (.element s e (some k) true) = some t) (ho : NoOpen t) (hc : Clear t) (hflat : Flat t) (hn : NoNullish t) :
    T.checkOperand (.element s e (some k) true) = some ⟨.element s e (some k) true, ⟨t, []⟩⟩ ∧
    T.checkOperand (.element s e (some k) false) = none := by
  have hn' := (noNullish_iff t hflat).2 hn
  have hres : T.resolved (.element s e (some k) true) = some t := by
    unfold Types.resolved
    rw [ht]
    have h := (open_iff t).2 ho
    cases t <;> first | rfl | cases h
  constructor
  · rw [checkOperand_iff]
    refine ⟨skips_false ?_, ?_, named t, ?_, named t, rfl, rfl, (clear_iff t).2 hc, hn', rfl⟩
    · rintro ⟨_, h | ⟨_, x, hx, hxu⟩⟩
      · obtain ⟨s', b', key', h', _⟩ := h
        cases h'
      · cases hx with
        | here => obtain ⟨s', b', key', h', _⟩ := hxu; cases h'
        | element _ _ _ hx => exact hu x hx hxu
    · rw [optionable_of hres, (open_iff t).2 ho, hn']
      simp
    · show ((T.resolved e).bind removeNullish).bind (fun b => T.chainedElement b (.element s e (some k) true) (some k)) = _
      rw [he]
      simp only [Option.bind_some, ha, Types.chainedElement]
      cases hk : T.keyType k.id with
      | none => simp [ht, named]
      | some kt => simp [hkey kt hk, Types.literalElement, Types.literalTypes, ht, named]
  · refine skipped_not_reported T _ ⟨hnu, .inl ⟨s, e, some k, rfl, ?_⟩⟩
    rintro ⟨k', t', _, _, h, h'⟩
    rw [he] at h
    cases h
    rw [htuple] at h'
    cases h'

/-! ### `??` after an access -/

/-- **C120** A key that may lead to something nullish: one of its parts names a nullish property, or names none and there is an index for keys of its type -/
theorem nullableProperty_iff (T : Types) (obj kt : Ty) (hflat : Flat kt) : T.nullableProperty obj kt = true ↔
    ∃ key ∈ parts kt, (∃ n p, (key = .stringLit n ∨ key = .numberLit n) ∧ T.property obj n = some p ∧ nullish p = true) ∨
      ((∀ n, key = .stringLit n ∨ key = .numberLit n → T.property obj n = none) ∧ ∃ i ∈ T.indexInfos obj, i.1 = T.typeName key) := by
  have hkey : ∀ key : Ty, T.nullableKey obj key = true ↔ (∃ n p, (key = .stringLit n ∨ key = .numberLit n) ∧ T.property obj n = some p ∧ nullish p = true) ∨
      ((∀ n, key = .stringLit n ∨ key = .numberLit n → T.property obj n = none) ∧ ∃ i ∈ T.indexInfos obj, i.1 = T.typeName key) := by
    intro key
    unfold Types.nullableKey
    cases key
    case stringLit n => cases h : T.property obj n <;> simp [Ty.literalName, h]
    case numberLit n => cases h : T.property obj n <;> simp [Ty.literalName, h]
    all_goals simp [Ty.literalName]
  have hone : ∀ key : Ty, (∀ us, key ≠ .union us) → T.nullableProperty obj key = T.nullableKey obj key := by
    intro key hu
    cases key
    case union us => exact absurd rfl (hu us)
    all_goals (rw [Types.nullableProperty]; intro ts h; cases h)
  simp only [← hkey]
  cases kt
  case union ts =>
    rw [Types.nullableProperty, someNullableProperty_iff]
    simp only [parts]
    constructor
    · rintro ⟨t, ht, h⟩; exact ⟨t, ht, by rw [← hone t (hflat ts rfl t ht)]; exact h⟩
    · rintro ⟨t, ht, h⟩; exact ⟨t, ht, by rw [hone t (hflat ts rfl t ht)]; exact h⟩
  all_goals (rw [hone _ (by simp)]; simp [parts])

/-- **C120** `e.name` on the left of `??` may be nullish although its type is not: exactly if the property is optional, by the symbol of the name, or else of the type's property, or else of a member -/
theorem nullableMember_property (T : Types) (s : Nat) (e : Node) (name : String) (o : Bool) : T.nullableMember (.property s e name o) = true ↔
    ∃ b, T.at e = some b ∧ name ≠ "" ∧
      (T.symbolAt (.property s e name o) = some true ∨
        (T.symbolAt (.property s e name o) = none ∧ (T.optionalProperty b name = some true ∨
          (T.optionalProperty b name = none ∧ ∃ t, T.member b name = some (true, t))))) := by
  rw [Types.nullableMember]
  cases hb : T.at e with
  | none => simp
  | some b =>
    by_cases hn : name = ""
    · simp [hn]
    · simp only [if_neg hn, Option.some.injEq, exists_eq_left', Types.symbolOptional]
      cases T.symbolAt (.property s e name o) with
      | some x => simp [hn]
      | none =>
        cases T.optionalProperty b name with
        | some x => simp [hn]
        | none =>
          cases T.member b name with
          | none => simp
          | some x => obtain ⟨x, t⟩ := x; simp [hn]

/-- **C120** `e[k]` on the left of `??`: exactly if the key may lead to something nullish in the type of `e` -/
theorem nullableMember_element (T : Types) (s : Nat) (e : Node) (key : Option Key) (o : Bool) : T.nullableMember (.element s e key o) = true ↔
    ∃ k obj kt, key = some k ∧ T.at e = some obj ∧ T.keyType k.id = some kt ∧ T.nullableProperty obj kt = true := by
  rw [Types.nullableMember]
  cases key with
  | none => simp [Types.nullableElement]
  | some k =>
    unfold Types.nullableElement
    cases T.at e with
    | none => simp
    | some obj => cases hk : T.keyType k.id <;> simp [hk]

theorem nullableMember_paren (T : Types) (e : Node) : T.nullableMember (.paren e) = T.nullableMember e := by rw [Types.nullableMember]

/-! ### Calls of type guards -/

theorem checkable_get (args : List Argument) (i n : Nat) : (checkable args)[i]? = some n ↔ args[i]? = some (.plain n) ∧ .spread ∉ args.take i := by
  induction args generalizing i with
  | nil => simp [checkable]
  | cons a as ih =>
    cases a with
    | spread => cases i <;> simp [checkable]
    | plain m =>
      cases i with
      | zero => simp [checkable]
      | succ i => simp [checkable, ih]

theorem sameType_iff (argType : Nat → Option Nat) (n : Nat) (type : Option Nat) (r : GuardReport) :
    sameType argType n type = some r ↔ ∃ t, type = some t ∧ argType n = some t ∧ r = .same n t := by
  unfold sameType
  cases argType n with
  | none => simp
  | some a =>
    cases type with
    | none => simp
    | some t =>
      by_cases h : a = t
      · subst h; simp [eq_comm]
      · simp only [if_neg h, reduceCtorEq, Option.some.injEq, false_iff, not_exists, not_and]
        rintro t' rfl ha
        exact absurd ha h

/-- **C121** A call of a type guard is reported exactly with the option, if the guarded parameter's argument comes before any spread and already has the type; the argument of `asserts x` is judged as a condition -/
theorem guardCall_iff (enabled : Bool) (argType : Nat → Option Nat) (guard : Option CallGuard) (args : List Argument) (r : GuardReport) :
    checkGuardCall enabled argType guard args = some r ↔ enabled = true ∧ ∃ g i n, guard = some g ∧ g.index = Int.ofNat i ∧
      args[i]? = some (.plain n) ∧ .spread ∉ args.take i ∧
      ((g.kind = .assertsIdentifier ∧ g.type = none ∧ r = .condition n) ∨
       ((g.kind = .assertsIdentifier ∨ g.kind = .identifier) ∧ ∃ t, g.type = some t ∧ argType n = some t ∧ r = .same n t)) := by
  have harg : ∀ (g : CallGuard) (n : Nat), guardArgument argType g n = some r ↔
      ((g.kind = .assertsIdentifier ∧ g.type = none ∧ r = .condition n) ∨
       ((g.kind = .assertsIdentifier ∨ g.kind = .identifier) ∧ ∃ t, g.type = some t ∧ argType n = some t ∧ r = .same n t)) := by
    intro g n
    unfold guardArgument
    cases hk : g.kind <;> cases ht : g.type
    case assertsIdentifier.none => simp [eq_comm]
    all_goals simp [sameType_iff]
  unfold checkGuardCall
  cases enabled with
  | false => simp
  | true =>
    cases guard with
    | none => simp
    | some g =>
      simp only [Bool.not_true, Bool.false_eq_true, if_false, true_and, Option.some.injEq]
      by_cases hneg : g.index < 0
      · rw [if_pos hneg]
        constructor
        · intro h; cases h
        · rintro ⟨g', i, n, rfl, hi, _⟩
          rw [hi] at hneg
          exact absurd hneg (by simp)
      · rw [if_neg hneg]
        have hidx : g.index = Int.ofNat g.index.toNat := (Int.toNat_of_nonneg (Int.not_lt.1 hneg)).symm
        constructor
        · intro h
          cases hc : (checkable args)[g.index.toNat]? with
          | none => rw [hc] at h; cases h
          | some n =>
            rw [hc] at h
            obtain ⟨h1, h2⟩ := (checkable_get args _ n).1 hc
            exact ⟨g, _, n, rfl, hidx, h1, h2, (harg g n).1 h⟩
        · rintro ⟨g', i, n, rfl, hi, h1, h2, h⟩
          have : g.index.toNat = i := by rw [hi]; rfl
          rw [this, (checkable_get args i n).2 ⟨h1, h2⟩]
          exact (harg g n).2 h

/-! ### Examples -/

/-- `x: { bar: B } | null`; `x?.bar` -/
def sampleBar : Node := .property 0 (.root 0) "bar" true

def sampleTypeAt : Node → Option Ty
  | .root 0 => some (.union [.object 0, .null])
  | .property 0 (.root 0) "bar" true => some (.union [.object 1, .undefined])
  | _ => none

def sampleTypes : Types where
  checker := ⟨fun _ => none, fun _ => none⟩
  noUnchecked := false
  typeAt := sampleTypeAt
  keyType _ := none
  property t n := match t with
    | .object 0 => if n = "bar" then some (.object 1) else none
    | _ => none
  apparent _ := none
  stringIndex _ := none
  indexInfos _ := []
  typeName _ := ""
  display _ := ""
  mapped _ := false
  mappedOptional _ := false
  member _ _ := none
  tuple _ := false
  signatures _ := []
  signature _ := none
  symbolAt _ := none
  optionalProperty _ _ := none

def sampleRun (x : Value) : Run where
  root _ := .value x
  key _ := .null
  get _ _ := some (.object 8)
  call _ _ := none

/-- `x?.bar?.baz`: the second `?.` is reported, the first is not -/
example : (sampleTypes.checkChain (.property 1 sampleBar "baz" true)).isSome = true ∧ (sampleTypes.checkChain sampleBar).isSome = false := by
  constructor <;> rfl

theorem sampleAt : ∀ (e : Node) (t : Ty), sampleTypes.at e = some t →
    (e.skip = .root 0 ∧ t = .union [.object 0, .null]) ∨ (e.skip = sampleBar ∧ t = .union [.object 1, .undefined])
  | .paren e, t, h => sampleAt e t h
  | .root n, t, h => by
    replace h : sampleTypeAt (.root n) = some t := h
    unfold sampleTypeAt at h
    split at h <;> cases h
    · rename_i h'; cases h'; exact .inl ⟨rfl, rfl⟩
    · rename_i h'; cases h'
  | .property s e n o, t, h => by
    replace h : sampleTypeAt (.property s e n o) = some t := h
    unfold sampleTypeAt at h
    split at h <;> cases h
    · rename_i h'; cases h'
    · rename_i h'; cases h'; exact .inr ⟨rfl, rfl⟩
  | .element s e n o, t, h => by
    replace h : sampleTypeAt (.element s e n o) = some t := h
    unfold sampleTypeAt at h
    split at h <;> cases h
    all_goals (rename_i h'; cases h')
  | .call s e o, t, h => by
    replace h : sampleTypeAt (.call s e o) = some t := h
    unfold sampleTypeAt at h
    split at h <;> cases h
    all_goals (rename_i h'; cases h')

theorem sampleResolved (e : Node) (t : Ty) (h : sampleTypes.resolved e = some t) :
    (e.skip = .root 0 ∧ t = .union [.object 0, .null]) ∨ (e.skip = sampleBar ∧ t = .union [.object 1, .undefined]) := by
  unfold Types.resolved at h
  cases ha : sampleTypes.at e with
  | none => rw [ha] at h; cases h
  | some u =>
    rw [ha] at h
    rcases sampleAt e u ha with ⟨h1, rfl⟩ | ⟨h1, rfl⟩ <;> cases h
    · exact .inl ⟨h1, rfl⟩
    · exact .inr ⟨h1, rfl⟩

theorem eval_skip (R : Run) : ∀ e : Node, R.eval e = R.eval e.skip ∨ R.eval e = endChain (R.eval e.skip)
  | .paren e => by
    rw [Run.eval, Node.skip]
    rcases eval_skip R e with h | h <;> rw [h]
    · exact .inr rfl
    · right; cases R.eval e.skip <;> rfl
  | .root _ | .property _ _ _ _ | .element _ _ _ _ | .call _ _ _ => .inl rfl

/-- The hypotheses of `reported_not_nullish` and `removable`, for `x` an object and for `x` null -/
theorem sampleAgrees (x : Value) (hx : x = .null ∨ ∃ n, x = .object n) : Agrees sampleTypes sampleMeaning (sampleRun x) where
  value e v t he ht := by
    rcases sampleAt e t ht with ⟨hs, rfl⟩ | ⟨hs, rfl⟩
    · have hv : v = x := by
        rcases eval_skip (sampleRun x) e with h | h <;> rw [hs, he] at h <;> (cases h; rfl)
      subst hv
      rcases hx with rfl | ⟨n, rfl⟩
      · simp [Has, HasSome, sampleMeaning]
      · simp [Has, HasSome, sampleMeaning]
    · rcases hx with rfl | ⟨n, rfl⟩
      · have : v = .undefined := by
          rcases eval_skip (sampleRun .null) e with h | h <;> rw [hs, he] at h <;> (cases h; try rfl)
        subst this
        simp [Has, HasSome]
      · have : v = .object 8 := by
          rcases eval_skip (sampleRun (.object n)) e with h | h <;> rw [hs, he] at h <;> (cases h; rfl)
        subst this
        simp [Has, HasSome, sampleMeaning]
  constraint n t v h := nomatch h
  access n v h := by rw [Checker.resolve]; simp [sampleTypes, Has, sampleMeaning]
  key n t h := nomatch h
  settled e t h _ := by
    rcases sampleResolved e t h with ⟨_, rfl⟩ | ⟨_, rfl⟩ <;> simp [Settled, EverySettled]
  flat e ts h t ht := by
    rcases sampleResolved e _ h with ⟨_, h⟩ | ⟨_, h⟩ <;> cases h
    all_goals
      simp only [List.mem_cons, List.not_mem_nil, or_false] at ht
      rcases ht with rfl | rfl <;> rfl
  property s e name o nt ts t v w h _ he ht hv hvn hh hg := by
    rcases sampleResolved _ _ h with ⟨h1, _⟩ | ⟨h1, _⟩
    · cases h1
    · cases h1
      rcases sampleResolved _ _ he with ⟨_, h2⟩ | ⟨h2, _⟩
      · cases h2
        cases hg
        simp only [List.mem_cons, List.not_mem_nil, or_false] at ht
        rcases ht with rfl | rfl
        · exact ⟨by decide, .inl ⟨.object 1, rfl, by simp [Settled], by simp [Has, sampleMeaning]⟩⟩
        · rw [Has] at hh; subst hh; cases hvn
      · cases h2
  element s e k o nt ts t v w key h := by
    rcases sampleResolved _ _ h with ⟨h1, _⟩ | ⟨h1, _⟩ <;> cases h1
  call s e o nt ts t v w h := by
    rcases sampleResolved _ _ h with ⟨h1, _⟩ | ⟨h1, _⟩ <;> cases h1
  element_type s e k o ts n _ _ h := by
    rcases sampleAt _ _ h with ⟨h1, _⟩ | ⟨h1, _⟩ <;> cases h1

example : sampleTypes.resolved sampleBar = some (.union [.object 1, .undefined]) := rfl
example : (sampleRun .null).eval (.property 1 sampleBar "baz" true) = .short := by decide
example : (sampleRun (.object 7)).eval (.property 1 sampleBar "baz" true) = .value (.object 8) := by decide
/-- with parentheses it is needed: not reported -/
example : (sampleTypes.checkChain (.property 1 (.paren sampleBar) "baz" true)).isSome = false ∧
    (sampleRun .null).eval (.property 1 (.paren sampleBar) "baz" false) = .fails := ⟨rfl, by decide⟩

/-- the hypotheses of `property_iff` -/
example : ¬ Skipped sampleTypes sampleBar := by rw [← skips_iff]; decide
example : ([Ty.object 0, .null].filter fun u => !nullish u) = [.object 0] := by simp [List.filter, nullish, Ty.nullishLeaf]

/-- what is known of: 0, `x: T`; 1, `f: F | null`, with `f?.()`; 2, `a: A | null` with `a?.[k]`; 3, `d: D | null` with `d?.n`; 4, `l: L` with `l?.[i]` -/
def richTypeAt : Node → Option Ty
  | .root 0 => some (.object 0)
  | .root 1 => some (.union [.object 1, .null])
  | .call 0 (.root 1) true => some (.union [.object 0, .undefined])
  | .root 2 => some (.union [.object 2, .null])
  | .element 0 (.root 2) _ true => some (.union [.object 0, .object 3, .undefined])
  | .root 3 => some (.union [.object 4, .undefined])
  | .property 0 (.root 3) "n" true => some (.union [.object 0, .undefined])
  | .root 4 => some (.object 5)
  | .element 0 (.root 4) _ true => some (.object 0)
  | .root 5 => some (.object 1)
  | .call 0 (.root 5) false => some (.object 2)
  | .property 0 (.call 0 (.root 5) false) "p" false => some (.object 0)
  | _ => none

def richTypes : Types where
  checker := ⟨fun _ => none, fun _ => none⟩
  noUnchecked := false
  typeAt := richTypeAt
  keyType n := if n = 0 then some (.union [.stringLit "p", .stringLit "q", .stringLit "r"]) else some (.primitive 1)
  property t n := match t with
    | .object 2 => if n = "q" then some (.object 3) else some (.object 0)
    | _ => none
  apparent _ := none
  stringIndex t := match t with
    | .object 4 => some (.object 0)
    | _ => none
  indexInfos t := match t with
    | .object 4 => [("string", .object 0)]
    | _ => []
  typeName _ := "string"
  display t := match t with
    | .object 0 => "B"
    | _ => "C"
  mapped _ := false
  mappedOptional _ := false
  member _ _ := none
  tuple _ := false
  signatures t := match t with
    | .object 1 => [.object 2]
    | _ => []
  signature _ := some (.object 2)
  symbolAt _ := none
  optionalProperty _ _ := some true

example : (richTypes.checkOperand (.root 0)).isSome = true := by rfl
example : (richTypes.checkOperand (.call 0 (.root 1) true)).isSome = true := by rfl
example : ((richTypes.checkOperand (.element 0 (.root 2) (some ⟨0, false⟩) true)).map fun r => r.judged.names) = some ["B", "C"] := by rfl
example : (richTypes.checkOperand (.property 0 (.root 3) "n" true)).isSome = true := by rfl
example : (richTypes.checkOperand (.element 0 (.root 4) (some ⟨1, false⟩) true)).isSome = true ∧ (richTypes.checkOperand (.element 0 (.root 4) (some ⟨1, false⟩) false)).isSome = false := ⟨rfl, rfl⟩
example : (richTypes.checkOperand (.call 0 (.root 5) false)).isSome = true := by rfl
example : (richTypes.checkOperand (.property 0 (.call 0 (.root 5) false) "p" false)).isSome = true := by rfl
example : richTypes.nullableMember (.paren (.property 0 (.root 0) "p" false)) = true := by rfl
example : Skipped richTypes (.element 0 (.root 4) (some ⟨1, false⟩) false) :=
  ⟨rfl, .inl ⟨0, .root 4, some ⟨1, false⟩, rfl, by rintro ⟨k, t, _, _, _, h⟩; cases h⟩⟩

/-- `isFoo(x)` where `x` is a `Foo` already; `assert(x)`; `isFoo(...xs, x)` -/
example : checkGuardCall true (fun _ => some 3) (some ⟨.identifier, 0, some 3⟩) [.plain 1] = some (.same 1 3) := by decide
example : checkGuardCall true (fun _ => some 3) (some ⟨.assertsIdentifier, 1, none⟩) [.plain 1, .plain 2, .spread] = some (.condition 2) := by decide
example : checkGuardCall true (fun _ => some 3) (some ⟨.identifier, 1, some 3⟩) [.spread, .plain 1] = none := by decide

end Tsgolint.Condition
