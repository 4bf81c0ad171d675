import Verif.Proof.StrictBoolean
/-! # C59: strict-boolean-expressions -/
namespace Tsgolint.StrictBoolean

/-- C59 (conditions).  In every file, the expressions whose type is checked are exactly those whose value is used as a condition, and none
is checked twice — although several listeners run into the same expressions. -/
theorem C59_conditions (root : Node) (h : (ids root).Nodup) :
    (∀ a, a ∈ (visit root {}).checked ↔ ∃ n, At root false n true ∧ Atom n ∧ n.id = a) ∧ (visit root {}).checked.Nodup := by
  have v := visit_spec root false {} h (fun a _ => by simp)
  have cnt : ∀ a, (visit root {}).checked.count a = (spineConds false root ++ inner root).count a := by
    intro a
    have := v.2 a
    simpa using this
  constructor
  · intro a
    rw [← List.count_pos_iff, cnt, List.count_pos_iff]
    constructor
    · intro ha
      rcases List.mem_append.1 ha with ha | ha
      · exact spineConds_at false root a ha
      · exact inner_at false root a ha
    · rintro ⟨n, hn, hat, rfl⟩
      apply at_lists hn
      cases hat <;> simp [spineConds, Node.id]
  · rw [List.nodup_iff_count]
    intro a
    rw [cnt, List.count_append]
    have h1 := inner_count root a
    have h2 := spineConds_count false root a
    have h3 := List.nodup_iff_count.1 h a
    omega

/-- `if ((a && b) || !c) d && e`: a, b, `!c`, c and d are checked, e is not. -/
example : (visit (.cond 0 [] (.logic 1 (.paren 2 (.logic 3 (.other 4 []) (.other 5 []))) (.cond 6 [] (.other 7 []) []))
    [.logic 8 (.other 9 []) (.other 10 [])]) {}).checked = [9, 7, 6, 5, 4] := by decide
example : (ids (.cond 0 [] (.logic 1 (.paren 2 (.logic 3 (.other 4 []) (.other 5 []))) (.cond 6 [] (.other 7 []) []))
    [.logic 8 (.other 9 []) (.other 10 [])])).Nodup := by decide

/-- C59 (classification).  A type is classified as `v` exactly if it has a part of this class and no other parts, except nullish ones; as nullish
if it has only nullish parts; otherwise as mixed.  It is nullable if a part is nullish, counts as an enum if a part is an enum member,
and as truthy if it has primitive parts and all of them are truthy literals. -/
theorem C59_classify (parts : List Ty) :
    (∀ v, v ≠ .nullish → v ≠ .mixed → ((analyze parts).variant = v ↔
      (∃ t ∈ parts, (analyzePart t).variant = v) ∧ ∀ t ∈ parts, (analyzePart t).variant = v ∨ (analyzePart t).variant = .nullish)) ∧
    ((analyze parts).variant = .nullish ↔ parts ≠ [] ∧ ∀ t ∈ parts, (analyzePart t).variant = .nullish) ∧
    ((analyze parts).isNullable = true ↔ ∃ t ∈ parts, (analyzePart t).variant = .nullish) ∧
    ((analyze parts).isEnum = true ↔ ∃ t ∈ parts, (analyzePart t).isEnum = true) ∧
    ((analyze parts).isTruthy = true ↔
      (∃ t ∈ parts, (analyzePart t).variant ∈ [.boolean, .number, .string, .bigint]) ∧
      ∀ t ∈ parts, (analyzePart t).variant ∈ [.boolean, .number, .string, .bigint] → (analyzePart t).isTruthy = true) := by
  obtain ⟨nodup, mem, nullable, enum, met, truthy⟩ := analyze_spec parts
  have prim : ∀ v, Prim v ↔ v ∈ [Variant.boolean, .number, .string, .bigint] := by intro v; simp [Prim]
  have ex : ∀ P : PartInfo → Prop, (∃ p ∈ parts.map analyzePart, P p) ↔ ∃ t ∈ parts, P (analyzePart t) := by
    intro P
    constructor
    · rintro ⟨p, hp, h⟩
      obtain ⟨t, ht, rfl⟩ := List.mem_map.1 hp
      exact ⟨t, ht, h⟩
    · rintro ⟨t, ht, h⟩; exact ⟨_, List.mem_map_of_mem ht, h⟩
  have mem := fun v => (mem v).trans (ex _)
  have nullable := nullable.trans (ex _)
  have enum := enum.trans (ex _)
  have met := met.trans (ex _)
  rw [ex] at truthy
  have nl : ((parts.map analyzePart).foldl Acc.step {}).isNullable = true ↔
      Variant.nullish ∈ ((parts.map analyzePart).foldl Acc.step {}).variants := by rw [nullable, mem]
  refine ⟨fun v h1 h2 => ?_, ?_, ?_, ?_, ?_⟩
  · show pick _ _ = v ↔ _
    rw [pick_iff _ _ nodup nl v h1 h2, mem]
    constructor
    · rintro ⟨h, h'⟩
      exact ⟨h, fun t ht => h' _ ((mem _).2 ⟨t, ht, rfl⟩)⟩
    · rintro ⟨h, h'⟩
      refine ⟨h, fun w hw => ?_⟩
      obtain ⟨t, ht, rfl⟩ := (mem w).1 hw
      exact h' t ht
  · show pick _ _ = _ ↔ _
    rw [pick_nullish _ _ nodup, mem]
    constructor
    · rintro ⟨⟨t, ht, -⟩, h'⟩
      exact ⟨List.ne_nil_of_mem ht, fun t ht => h' _ ((mem _).2 ⟨t, ht, rfl⟩)⟩
    · rintro ⟨h, h'⟩
      obtain ⟨t, ht⟩ := List.exists_mem_of_ne_nil _ h
      refine ⟨⟨t, ht, h' t ht⟩, fun w hw => ?_⟩
      obtain ⟨t, ht, rfl⟩ := (mem w).1 hw
      exact h' t ht
  · exact nullable
  · exact enum
  · show ((parts.map analyzePart).foldl Acc.step {}).isTruthy = true ↔ _
    rw [truthy]
    simp only [← prim]
    constructor
    · rintro ⟨h, hm⟩
      refine ⟨h, fun t ht hp => ?_⟩
      cases hx : (analyzePart t).isTruthy with
      | true => rfl
      | false => rw [met.2 ⟨t, ht, hp, hx⟩] at hm; cases hm
    · rintro ⟨h, hm⟩
      refine ⟨h, ?_⟩
      cases hx : ((parts.map analyzePart).foldl Acc.step {}).metNotTruthy with
      | false => rfl
      | true =>
        obtain ⟨t, ht, hp, hf⟩ := met.1 hx
        rw [hm t ht hp] at hf; cases hf

/-- C59 (order).  The verdict does not depend on the order of the parts of a union. -/
theorem C59_order (o : Options) (p q : List Ty) (h : p.Perm q) : checkCondition o p = checkCondition o q := by
  have m : ∀ P : Ty → Prop, (∃ t ∈ p, P t) ↔ ∃ t ∈ q, P t := fun P => by simp [h.mem_iff]
  have a : ∀ P : Ty → Prop, (∀ t ∈ p, P t) ↔ ∀ t ∈ q, P t := fun P => by simp [h.mem_iff]
  have ne : p ≠ [] ↔ q ≠ [] := by
    constructor <;> rintro h' rfl
    · exact h' (by simpa using h)
    · exact h' (by simpa using h)
  obtain ⟨p1, p2, p3, p4, p5⟩ := C59_classify p
  obtain ⟨q1, q2, q3, q4, q5⟩ := C59_classify q
  have e3 : (analyze p).isNullable = (analyze q).isNullable := by rw [Bool.eq_iff_iff, p3, q3, m]
  have e4 : (analyze p).isEnum = (analyze q).isEnum := by rw [Bool.eq_iff_iff, p4, q4, m]
  have e5 : (analyze p).isTruthy = (analyze q).isTruthy := by
    rw [Bool.eq_iff_iff, p5, q5, m (fun t => (analyzePart t).variant ∈ _), a (fun t => (analyzePart t).variant ∈ _ → _)]
  have e2 : (analyze p).variant = .nullish ↔ (analyze q).variant = .nullish := by
    rw [p2, q2, ne, a (fun t => (analyzePart t).variant = .nullish)]
  have e1 : ∀ v, v ≠ .nullish → v ≠ .mixed → ((analyze p).variant = v ↔ (analyze q).variant = v) := by
    intro v h1 h2
    rw [p1 v h1 h2, q1 v h1 h2, m (fun t => (analyzePart t).variant = v), a (fun t => (analyzePart t).variant = v ∨ _)]
  have e0 : (analyze p).variant = (analyze q).variant := by
    by_cases n : (analyze p).variant = .nullish
    · rw [n, e2.1 n]
    · by_cases x : (analyze p).variant = .mixed
      · by_cases y : (analyze q).variant = .mixed
        · rw [x, y]
        · exact ((e1 _ (fun h' => n (e2.2 h')) y).2 rfl)
      · exact ((e1 _ n x).1 rfl).symm
  have : analyze p = analyze q := by
    cases hp : analyze p; cases hq : analyze q
    rw [hp, hq] at e0 e3 e4 e5
    simp only at e0 e3 e4 e5
    subst e0 e3 e4 e5
    rfl
  rw [checkCondition, checkCondition, this]

def str : Ty := .leaf { string := true }
def undef : Ty := .leaf { nullish := true }
def bool' (b : Bool) : Ty := .leaf { boolean := true, isTrue := b }
def obj : Ty := .leaf { object := true }
def num : Ty := .leaf { number := true }
def enumMember : Ty := .leaf { enum := true, number := true }
def none' : Options := ⟨false, false, false, false, false, false, false, false⟩
def default' : Options := ⟨false, false, false, false, true, false, true, true⟩

example : checkCondition default' [str, undef] = some .nullableString ∧ checkCondition default' [undef, str] = some .nullableString ∧
    checkCondition default' [obj, undef] = none ∧ checkCondition default' [num, str] = some .other := by decide

/-- C59 (strict).  With nothing allowed, a condition without enums that is not reported is a boolean for all run-time values, or, beside
nullish, can only be `true`.  (`never` is never a part of a union with nullish parts.) -/
theorem C59_strict (parts : List Ty) (hok : ∀ t ∈ parts, t.Ok) (he : (analyze parts).isEnum = false)
    (hnever : (∃ t ∈ parts, (analyzePart t).variant = .nullish) → ¬∃ t ∈ parts, (analyzePart t).variant = .never)
    (h : checkCondition ⟨false, false, false, false, false, false, false, false⟩ parts = none) (v : Val) (hv : ∃ t ∈ parts, t.Has v) :
    (∃ b, v = .bool b) ∨ (v = .nullish ∧ ∀ w, (∃ t ∈ parts, t.Has w) → w = .nullish ∨ w = .bool true) := by
  obtain ⟨p1, p2, p3, p4, p5⟩ := C59_classify parts
  have pe : ∀ t ∈ parts, (analyzePart t).isEnum = false := by
    intro t ht
    cases hx : (analyzePart t).isEnum with
    | false => rfl
    | true => rw [p4.2 ⟨t, ht, hx⟩] at he; cases he
  unfold checkCondition checkInfo at h
  cases hvar : (analyze parts).variant with
  | boolean =>
    obtain ⟨_, hall⟩ := (p1 _ (by simp) (by simp)).1 hvar
    obtain ⟨t, ht, hvt⟩ := hv
    have pv := part_values t (hok t ht) (pe t ht) v hvt
    rcases hall t ht with hb | hn
    · obtain ⟨b, hb, -⟩ := pv.2.1 hb
      exact .inl ⟨b, hb⟩
    · right
      refine ⟨pv.1 hn, ?_⟩
      have hnl := p3.2 ⟨t, ht, hn⟩
      have htr : (analyze parts).isTruthy = true := by
        cases hx : (analyze parts).isTruthy with
        | true => rfl
        | false => simp [hvar, hx, hnl] at h
      rintro w ⟨t', ht', hw⟩
      have pv' := part_values t' (hok t' ht') (pe t' ht') w hw
      rcases hall t' ht' with hb' | hn'
      · obtain ⟨b, rfl, hb⟩ := pv'.2.1 hb'
        rw [hb ((p5.1 htr).2 t' ht' (by simp [hb']))]
        exact .inr rfl
      · exact .inl (pv'.1 hn')
  | never =>
    obtain ⟨_, hall⟩ := (p1 _ (by simp) (by simp)).1 hvar
    obtain ⟨t, ht, hvt⟩ := hv
    have pv := part_values t (hok t ht) (pe t ht) v hvt
    rcases hall t ht with hb | hn
    · exact absurd hb pv.2.2.2.2.2.2.1
    · exfalso
      obtain ⟨t', ht', hv'⟩ := (p1 _ (by simp) (by simp)).1 hvar |>.1
      rw [hvar] at h
      exact hnever ⟨t, ht, hn⟩ ⟨t', ht', hv'⟩
  | nullish => simp [hvar] at h
  | any => simp [hvar] at h
  | unknown => simp [hvar] at h
  | generic => simp [hvar] at h
  | mixed => simp [hvar, he] at h
  | object => cases hn : (analyze parts).isNullable <;> simp [hvar, hn] at h
  | string => cases hn : (analyze parts).isNullable <;> simp [hvar, hn, he] at h
  | number => cases hn : (analyze parts).isNullable <;> simp [hvar, hn, he] at h
  | bigint => cases hn : (analyze parts).isNullable <;> simp [hvar, hn] at h

/-- The hypotheses can be met: `boolean`, and `true | undefined`. -/
example : checkCondition none' [bool' true, bool' false] = none ∧ checkCondition none' [bool' true, undef] = none ∧
    (analyze [bool' true, undef]).isEnum = false := by decide

/-- C59 (no confusion).  Unless nullable booleans, strings, numbers or enums, or any, are allowed: if a condition is not reported and
may be nullish, then it is falsy exactly when it is nullish (no enums, no intersections; see the hazards). -/
theorem C59_no_confusion (o : Options) (ho : o.allowAny = false ∧ o.allowNullableBoolean = false ∧ o.allowNullableNumber = false ∧
      o.allowNullableString = false)
    (parts : List Ty) (hok : ∀ t ∈ parts, t.Ok) (he : (analyze parts).isEnum = false) (hi : ∀ t ∈ parts, ∃ f, t = .leaf f)
    (hnever : (∃ t ∈ parts, (analyzePart t).variant = .nullish) → ¬∃ t ∈ parts, (analyzePart t).variant = .never)
    (h : checkCondition o parts = none) (hnl : ∃ t ∈ parts, (analyzePart t).variant = .nullish)
    (v : Val) (hv : ∃ t ∈ parts, t.Has v) : v.Falsy ↔ v = .nullish := by
  obtain ⟨p1, p2, p3, p4, p5⟩ := C59_classify parts
  obtain ⟨o1, o2, o3, o4⟩ := ho
  have pe : ∀ t ∈ parts, (analyzePart t).isEnum = false := by
    intro t ht
    cases hx : (analyzePart t).isEnum with
    | false => rfl
    | true => rw [p4.2 ⟨t, ht, hx⟩] at he; cases he
  have hnull := p3.2 hnl
  obtain ⟨t, ht, hvt⟩ := hv
  obtain ⟨v1, v2, v3, v4, v5, v6, v7, v8⟩ := part_values t (hok t ht) (pe t ht) v hvt
  have hnn : v = .nullish → (v.Falsy ↔ v = .nullish) := by rintro rfl; simp [Val.Falsy]
  have htrue : ∀ x, (analyzePart t).variant = x → x ∈ [Variant.boolean, .number, .string, .bigint] → (analyze parts).isTruthy = true →
      (analyzePart t).isTruthy = true := fun x hx hm htr => (p5.1 htr).2 t ht (hx ▸ hm)
  have uniform := p1 (analyze parts).variant
  unfold checkCondition checkInfo at h
  cases hvar : (analyze parts).variant with
  | nullish => simp [hvar] at h
  | any => simp [hvar, o1] at h
  | unknown => simp [hvar, o1] at h
  | generic => simp [hvar, o1] at h
  | mixed => simp [hvar, he] at h
  | never => exact absurd ((p1 _ (by simp) (by simp)).1 hvar).1 (hnever hnl)
  | boolean =>
    rcases ((p1 _ (by simp) (by simp)).1 hvar).2 t ht with hb | hn
    · obtain ⟨b, rfl, hb'⟩ := v2 hb
      have : (analyze parts).isTruthy = true := by
        cases hx : (analyze parts).isTruthy with
        | true => rfl
        | false => simp [hvar, hx, hnull, o2] at h
      rw [hb' (htrue _ hb (by simp) this)]
      simp [Val.Falsy]
    · exact hnn (v1 hn)
  | string =>
    rcases ((p1 _ (by simp) (by simp)).1 hvar).2 t ht with hb | hn
    · obtain ⟨b, rfl, hb'⟩ := v3 hb
      have : (analyze parts).isTruthy = true := by
        cases hx : (analyze parts).isTruthy with
        | true => rfl
        | false => simp [hvar, hx, hnull, he, o4] at h
      rw [hb' (htrue _ hb (by simp) this)]
      simp [Val.Falsy]
    · exact hnn (v1 hn)
  | number =>
    rcases ((p1 _ (by simp) (by simp)).1 hvar).2 t ht with hb | hn
    · obtain ⟨b, rfl, hb'⟩ := v4 hb
      have : (analyze parts).isTruthy = true := by
        cases hx : (analyze parts).isTruthy with
        | true => rfl
        | false => simp [hvar, hx, hnull, he, o3] at h
      rw [hb' (htrue _ hb (by simp) this)]
      simp [Val.Falsy]
    · exact hnn (v1 hn)
  | bigint => simp [hvar, hnull, o3] at h
  | object =>
    rcases ((p1 _ (by simp) (by simp)).1 hvar).2 t ht with hb | hn
    · rw [v6 hb (hi t ht)]; simp [Val.Falsy]
    · exact hnn (v1 hn)

example : checkCondition default' [obj, undef] = none ∧ checkCondition default' [.leaf { string := true, truthyLiteral := true }, undef] = none := by decide

/-- C59 (hazards).  A member of an enum in a union of different kinds silences the rule, whatever is allowed; and an intersection that is no
boolean counts as an object, even if its values are strings, so that with the default options a nullable branded string is not
reported although `""` and `undefined` are confused. -/
theorem C59_hazard_enum : checkCondition none' [enumMember, obj] = none ∧ checkCondition none' [enumMember, str] = none ∧
    checkCondition none' [obj, str] = some .other := by decide

theorem C59_hazard_brand : checkCondition default' [.inter [str, .leaf {}], undef] = none ∧ checkCondition default' [str, undef] = some .nullableString := by
  decide

/-- C59 (reports).  What is reported for each class of types, in terms of the options. -/
theorem C59_messages (o : Options) (i : Info) :
    (checkInfo o i = some .any ↔ (i.variant = .any ∨ i.variant = .unknown ∨ i.variant = .generic) ∧ o.allowAny = false) ∧
    (checkInfo o i = some .nullish ↔ i.variant = .nullish) ∧
    (checkInfo o i = some .other ↔ i.variant = .mixed ∧ i.isEnum = false) ∧
    (checkInfo o i = some .object ↔ i.variant = .object ∧ i.isNullable = false) ∧
    (checkInfo o i = some .nullableObject ↔ i.variant = .object ∧ i.isNullable = true ∧ o.allowNullableObject = false) ∧
    (checkInfo o i = some .nullableBoolean ↔ i.variant = .boolean ∧ i.isNullable = true ∧ i.isTruthy = false ∧ o.allowNullableBoolean = false) ∧
    (checkInfo o i = some .string ↔ i.variant = .string ∧ i.isNullable = false ∧ o.allowString = false) ∧
    (checkInfo o i = some .nullableString ↔ i.variant = .string ∧ i.isNullable = true ∧ i.isEnum = false ∧
      ¬(o.allowString = true ∧ i.isTruthy = true) ∧ o.allowNullableString = false) ∧
    (checkInfo o i = some .number ↔ (i.variant = .number ∨ i.variant = .bigint) ∧ i.isNullable = false ∧ o.allowNumber = false) ∧
    (checkInfo o i = some .nullableNumber ↔ ((i.variant = .number ∧ i.isEnum = false ∧ ¬(o.allowNumber = true ∧ i.isTruthy = true)) ∨
      i.variant = .bigint) ∧ i.isNullable = true ∧ o.allowNullableNumber = false) ∧
    (checkInfo o i = some .nullableEnum ↔ i.isEnum = true ∧ i.isNullable = true ∧ o.allowNullableEnum = false ∧
      ((i.variant = .string ∧ ¬(o.allowString = true ∧ i.isTruthy = true)) ∨
        (i.variant = .number ∧ ¬(o.allowNumber = true ∧ i.isTruthy = true)) ∨ i.variant = .mixed)) := by
  obtain ⟨v, n, t, e⟩ := i
  obtain ⟨o1, o2, o3, o4, o5, o6, o7, o8⟩ := o
  cases v <;> cases n <;> cases t <;> cases e <;> simp [checkInfo] <;> (try (cases o7 <;> simp)) <;> (try (cases o8 <;> simp))

/-! ## Asserted arguments -/

theorem checkable_get (args : List Arg) (k : Nat) (a : Nat) :
    (checkable args)[k]? = some a ↔ args[k]? = some ⟨a, false⟩ ∧ ∀ j x, j < k → args[j]? = some x → x.spread = false := by
  induction args generalizing k with
  | nil => simp [checkable]
  | cons x xs ih =>
    obtain ⟨i, sp⟩ := x
    rw [checkable]
    cases sp with
    | true =>
      simp only [if_true, List.getElem?_nil, reduceCtorEq, false_iff, not_and]
      intro h hall
      cases k with
      | zero => simp at h
      | succ k => simpa using hall 0 ⟨i, true⟩ (by omega) rfl
    | false =>
      simp only [Bool.false_eq_true, if_false]
      cases k with
      | zero => simp
      | succ k =>
        rw [List.getElem?_cons_succ, ih, List.getElem?_cons_succ]
        constructor
        · rintro ⟨h, hall⟩
          refine ⟨h, fun j x hj hx => ?_⟩
          cases j with
          | zero => simp at hx; subst hx; rfl
          | succ j => exact hall j x (by omega) (by simpa using hx)
        · rintro ⟨h, hall⟩
          exact ⟨h, fun j x hj hx => hall (j+1) x (by omega) (by simpa using hx)⟩

theorem inPredicate_iff (p : Option Predicate) (args : List Arg) (a : Nat) :
    inPredicate p (checkable args) = some a ↔ ∃ q, p = some q ∧ Asserts q args a := by
  cases p with
  | none => simp [inPredicate]
  | some q =>
    have he : (∃ q', some q = some q' ∧ Asserts q' args a) ↔ Asserts q args a := by simp
    rw [he]
    unfold inPredicate Asserts
    cases h1 : q.assertsIdentifier <;> cases h2 : q.hasType <;> simp only [h1, h2, Bool.not_true, Bool.not_false, Bool.or_self, Bool.or_true,
      Bool.or_false, Bool.false_eq_true, if_true, if_false, reduceCtorEq, false_and, true_and, and_false, iff_self]
    rw [show (∃ k : Nat, q.index = k ∧ args[k]? = some ⟨a, false⟩ ∧ ∀ j x, j < k → args[j]? = some x → x.spread = false) ↔
      ∃ k : Nat, q.index = k ∧ (checkable args)[k]? = some a by simp only [checkable_get]]
    by_cases hr : q.index < 0 ∨ q.index ≥ (checkable args).length
    · rw [if_pos hr]
      simp only [reduceCtorEq, false_iff, not_exists, not_and]
      intro k hk hg
      have := (List.getElem?_eq_some_iff.1 hg).1
      omega
    · rw [if_neg hr]
      have : q.index = (q.index.toNat : Int) := by omega
      constructor
      · intro h; exact ⟨_, this, h⟩
      · rintro ⟨k, hk, hg⟩
        rw [hk]; simpa using hg

theorem inSignatures_append (ps qs : List (Option Predicate)) (args : List Nat) :
    inSignatures (ps ++ qs) args = (inSignatures ps args).or (inSignatures qs args) := by
  induction ps with
  | nil => simp [inSignatures]
  | cons p ps ih =>
    rw [List.cons_append, inSignatures, inSignatures]
    cases inPredicate p args <;> simp [ih]

theorem inUnion_flat (ts : List (List (Option Predicate))) (args : List Nat) : inUnion ts args = inSignatures ts.flatten args := by
  induction ts with
  | nil => rfl
  | cons t ts ih =>
    rw [inUnion, List.flatten_cons, inSignatures_append]
    cases inSignatures t args <;> simp [ih]

theorem inSignatures_iff (ps : List (Option Predicate)) (args : List Arg) (a : Nat) :
    inSignatures ps (checkable args) = some a ↔
      ∃ pre q post, ps = pre ++ some q :: post ∧ Asserts q args a ∧ ∀ q', some q' ∈ pre → ∀ b, ¬ Asserts q' args b := by
  induction ps with
  | nil => simp [inSignatures]
  | cons p ps ih =>
    rw [inSignatures]
    cases h : inPredicate p (checkable args) with
    | some b =>
      obtain ⟨q, rfl, hq⟩ := (inPredicate_iff p args b).1 h
      simp only [Option.some.injEq]
      constructor
      · rintro rfl; exact ⟨[], q, ps, rfl, hq, by simp⟩
      · rintro ⟨pre, q', post, he, hq', hno⟩
        cases pre with
        | nil =>
          simp only [List.nil_append, List.cons.injEq, Option.some.injEq] at he
          obtain ⟨rfl, -⟩ := he
          have := (inPredicate_iff (some q) args a).2 ⟨q, rfl, hq'⟩
          rw [this] at h; exact (Option.some.inj h).symm
        | cons x xs =>
          simp only [List.cons_append, List.cons.injEq] at he
          exact absurd hq (hno q (by simp [he.1]) b)
    | none =>
      simp only [ih]
      have hnone : ∀ q, p = some q → ∀ b, ¬ Asserts q args b := by
        intro q hq b hb
        rw [(inPredicate_iff p args b).2 ⟨q, hq, hb⟩] at h; cases h
      constructor
      · rintro ⟨pre, q, post, rfl, hq, hno⟩
        refine ⟨p :: pre, q, post, rfl, hq, ?_⟩
        intro q' hq' b
        rcases List.mem_cons.1 hq' with h' | h'
        · exact hnone q' h'.symm b
        · exact hno q' h' b
      · rintro ⟨pre, q, post, he, hq, hno⟩
        cases pre with
        | nil =>
          simp only [List.nil_append, List.cons.injEq] at he
          exact absurd hq (hnone q he.1 a)
        | cons x xs =>
          simp only [List.cons_append, List.cons.injEq] at he
          exact ⟨xs, q, post, he.2, hq, fun q' hq' => hno q' (List.mem_cons_of_mem _ hq')⟩

/-- C59 (assertions).  The argument treated as a condition is exactly the one the called signature asserts; if that has no predicate and the
callee is a union, the one asserted by the first signature of a part that asserts any. -/
theorem C59_asserted (c : Call) (a : Nat) :
    assertedArgument c = some a ↔
      (∃ p, c.resolved = some p ∧ Asserts p c.args a) ∨
      (c.resolved = none ∧ 1 < c.parts.length ∧
        ∃ pre q post, c.parts.flatten = pre ++ some q :: post ∧ Asserts q c.args a ∧ ∀ q', some q' ∈ pre → ∀ b, ¬ Asserts q' c.args b) := by
  have hempty : (checkable c.args).isEmpty = true → ∀ q b, ¬ Asserts q c.args b := by
    rintro h q b ⟨-, -, k, -, hk⟩
    rw [← checkable_get, List.isEmpty_iff.1 h] at hk
    simp at hk
  unfold assertedArgument
  simp only
  by_cases he : (checkable c.args).isEmpty = true
  · rw [if_pos he]
    simp [hempty he]
  · rw [if_neg he]
    cases hr : c.resolved with
    | some p => simp [inPredicate_iff]
    | none =>
      simp only [reduceCtorEq, false_and, exists_false, false_or, true_and]
      by_cases hl : c.parts.length > 1
      · rw [if_pos hl, inUnion_flat, inSignatures_iff]; simp [hl]
      · rw [if_neg hl]
        simp only [reduceCtorEq, false_iff, not_and]
        intro h; exact absurd h hl

example : assertedArgument ⟨[⟨7, false⟩, ⟨8, false⟩, ⟨9, true⟩], some ⟨true, false, 1⟩, []⟩ = some 8 ∧
    assertedArgument ⟨[⟨7, true⟩, ⟨8, false⟩], some ⟨true, false, 1⟩, []⟩ = none := by decide

end Tsgolint.StrictBoolean
