import Verif.Spec.Condition
/-!
# C106, C107: no-unnecessary-condition
-/
namespace Tsgolint.Condition

/-! ### Truthiness of types -/

section
variable {M : Meaning} (hM : M.ObjectsOnly)
include hM

mutual
theorem condition_sound : ∀ (t : Ty) (v : Value), Has M t v → ((condition t).1 = true → v.truthy = true) ∧ ((condition t).2 = true → v.truthy = false)
  | .never, v, h => by simp [Has] at h
  | .null, v, h => by simp [Has] at h; subst h; simp [condition, Value.truthy]
  | .undefined, v, h => by simp [Has] at h; subst h; simp [condition, Value.truthy]
  | .void, v, h => by simp [Has] at h; subst h; simp [condition, Value.truthy]
  | .object n, v, h => by
    obtain ⟨k, rfl⟩ := hM n v (by simpa [Has] using h)
    simp [condition, Value.truthy]
  | .nonPrimitive, v, h => by
    obtain ⟨k, rfl⟩ : ∃ k, v = .object k := by simpa [Has] using h
    simp [condition, Value.truthy]
  | .symbol, v, h => by
    obtain ⟨k, rfl⟩ : ∃ k, v = .symbol k := by simpa [Has] using h
    simp [condition, Value.truthy]
  | .boolLit none, v, h => by simp [condition]
  | .boolLit (some true), v, h => by simp [Has] at h; subst h; simp [condition, Value.truthy]
  | .boolLit (some false), v, h => by simp [Has] at h; subst h; simp [condition, Value.truthy]
  | .stringLit s, v, h => by
    simp [Has] at h; subst h
    by_cases hs : s = "" <;> simp [condition, Value.truthy, hs]
  | .numberLit s, v, h => by
    simp [Has] at h; subst h
    by_cases h1 : s = "0" <;> by_cases h2 : s = "NaN" <;> simp [condition, Value.truthy, h1, h2]
  | .bigintLit s, v, h => by
    simp [Has] at h; subst h
    by_cases h1 : s = "0" <;> by_cases h2 : s = "0n" <;> simp [condition, Value.truthy, h1, h2]
  | .primitive _, v, h => by simp [condition]
  | .any, v, h => by simp [condition]
  | .unknown, v, h => by simp [condition]
  | .typeParameter _, v, h => by simp [condition]
  | .indexedAccess _, v, h => by simp [condition]
  | .index _, v, h => by simp [condition]
  | .deferred _, v, h => by simp [condition]
  | .union ts, v, h => by
    simp only [condition]
    exact some_sound ts v (by simpa [Has] using h)
  | .intersection ts, v, h => by
    simp only [Has] at h
    simp only [condition]
    have := every_sound ts v true h.2
    exact ⟨fun h1 => this.1 h1 h.1, this.2⟩
theorem some_sound : ∀ (ts : List Ty) (v : Value), HasSome M ts v → (allTruthy ts = true → v.truthy = true) ∧ (allFalsy ts = true → v.truthy = false)
  | [], v, h => by simp [HasSome] at h
  | t :: ts, v, h => by
    simp only [HasSome] at h
    simp only [allTruthy, allFalsy, Bool.and_eq_true]
    rcases h with h | h
    · have := condition_sound t v h
      exact ⟨fun h => this.1 h.1, fun h => this.2 h.1⟩
    · have := some_sound ts v h
      exact ⟨fun h => this.1 h.2, fun h => this.2 h.2⟩
theorem every_sound : ∀ (ts : List Ty) (v : Value) (all : Bool), HasEvery M ts v →
    ((conditionAll all ts).1 = true → ts ≠ [] → v.truthy = true) ∧ ((conditionAll all ts).2 = true → v.truthy = false)
  | [], v, all, h => by simp [conditionAll]
  | t :: ts, v, all, h => by
    simp only [HasEvery] at h
    have h1 := condition_sound t v h.1
    simp only [conditionAll]
    split
    · rename_i h2
      exact ⟨by simp, fun _ => h1.2 h2⟩
    · have h3 := every_sound ts v (all && (condition t).1) h.2
      refine ⟨fun h4 _ => ?_, h3.2⟩
      cases ts with
      | nil => simp only [conditionAll, Bool.and_eq_true] at h4; exact h1.1 h4.2
      | cons t' ts => exact h3.1 h4 (by simp)
end

/-- **C106** A type that the rule calls always truthy has only truthy values -/
theorem truthy_sound (t : Ty) (h : (condition t).1 = true) (v : Value) (hv : Has M t v) : v.truthy = true :=
  (condition_sound hM t v hv).1 h

/-- **C106** A type that the rule calls always falsy has only falsy values -/
theorem falsy_sound (t : Ty) (h : (condition t).2 = true) (v : Value) (hv : Has M t v) : v.truthy = false :=
  (condition_sound hM t v hv).2 h

end

section
variable {M : Meaning} (hX : M.Mixed)
include hX

/-- Witnesses: a type that is not called always truthy has a falsy value, and the other way round -/
def Complete (M : Meaning) (t : Ty) : Prop :=
  ((condition t).1 = false → ∃ v, Has M t v ∧ v.truthy = false) ∧ ((condition t).2 = false → ∃ v, Has M t v ∧ v.truthy = true) ∧ ∃ v, Has M t v

theorem complete_of {t : Ty} {p : Value → Prop} (hp : ∀ v, Has M t v ↔ p v) (h : (∃ v, p v ∧ v.truthy = true) ∧ ∃ v, p v ∧ v.truthy = false) : Complete M t := by
  obtain ⟨⟨v, h1, h2⟩, w, h3, h4⟩ := h
  exact ⟨fun _ => ⟨w, (hp w).2 h3, h4⟩, fun _ => ⟨v, (hp v).2 h1, h2⟩, v, (hp v).2 h1⟩

mutual
theorem condition_complete (hM : M.ObjectsOnly) : ∀ t : Ty, Simple t → Complete M t
  | .never, h => by simp [Simple] at h
  | .null, _ => ⟨fun _ => ⟨.null, by simp [Has, Value.truthy]⟩, by simp [condition], .null, by simp [Has]⟩
  | .undefined, _ => ⟨fun _ => ⟨.undefined, by simp [Has, Value.truthy]⟩, by simp [condition], .undefined, by simp [Has]⟩
  | .void, _ => ⟨fun _ => ⟨.undefined, by simp [Has, Value.truthy]⟩, by simp [condition], .undefined, by simp [Has]⟩
  | .object n, _ => by
    obtain ⟨v, hv⟩ := hX.objects n
    obtain ⟨k, rfl⟩ := hM n v hv
    exact ⟨by simp [condition], fun _ => ⟨.object k, by simpa [Has] using hv, rfl⟩, .object k, by simpa [Has] using hv⟩
  | .nonPrimitive, _ => ⟨by simp [condition], fun _ => ⟨.object 0, by simp [Has], rfl⟩, .object 0, by simp [Has]⟩
  | .symbol, _ => ⟨by simp [condition], fun _ => ⟨.symbol 0, by simp [Has], rfl⟩, .symbol 0, by simp [Has]⟩
  | .boolLit none, _ => complete_of hX (p := fun v => ∃ b, v = .bool b) (by simp [Has]) ⟨⟨.bool true, by simp, rfl⟩, .bool false, by simp, rfl⟩
  | .boolLit (some true), _ => ⟨by simp [condition], fun _ => ⟨.bool true, by simp [Has], rfl⟩, .bool true, by simp [Has]⟩
  | .boolLit (some false), _ => ⟨fun _ => ⟨.bool false, by simp [Has], rfl⟩, by simp [condition], .bool false, by simp [Has]⟩
  | .stringLit s, _ => by
    refine ⟨fun h => ⟨.string s, by simp [Has], ?_⟩, fun h => ⟨.string s, by simp [Has], ?_⟩, .string s, by simp [Has]⟩ <;>
      (by_cases hs : s = "" <;> simp_all [condition, Value.truthy])
  | .numberLit s, _ => by
    refine ⟨fun h => ⟨.number s, by simp [Has], ?_⟩, fun h => ⟨.number s, by simp [Has], ?_⟩, .number s, by simp [Has]⟩ <;>
      (by_cases h1 : s = "0" <;> by_cases h2 : s = "NaN" <;> simp_all [condition, Value.truthy])
  | .bigintLit s, _ => by
    refine ⟨fun h => ⟨.bigint s, by simp [Has], ?_⟩, fun h => ⟨.bigint s, by simp [Has], ?_⟩, .bigint s, by simp [Has]⟩ <;>
      (by_cases h1 : s = "0" <;> by_cases h2 : s = "0n" <;> simp_all [condition, Value.truthy])
  | .primitive n, _ => complete_of hX (p := M.primitive n) (by simp [Has]) (hX.primitive n)
  | .any, _ => complete_of hX (p := fun _ => True) (by simp [Has]) ⟨⟨.bool true, trivial, rfl⟩, .null, trivial, rfl⟩
  | .unknown, _ => complete_of hX (p := fun _ => True) (by simp [Has]) ⟨⟨.bool true, trivial, rfl⟩, .null, trivial, rfl⟩
  | .typeParameter n, _ => complete_of hX (p := M.typeParameter n) (by simp [Has]) (hX.typeParameter n)
  | .indexedAccess n, _ => complete_of hX (p := M.indexedAccess n) (by simp [Has]) (hX.indexedAccess n)
  | .index n, _ => complete_of hX (p := M.index n) (by simp [Has]) (hX.index n)
  | .deferred n, _ => complete_of hX (p := M.deferred n) (by simp [Has]) (hX.deferred n)
  | .union ts, h => by
    simp only [Simple] at h
    have := some_complete hM ts h.2
    unfold Complete
    simp only [condition, Has]
    exact ⟨this.1, this.2.1, this.2.2 h.1⟩
  | .intersection ts, h => by simp [Simple] at h
theorem some_complete (hM : M.ObjectsOnly) : ∀ ts : List Ty, EverySimple ts →
    (allTruthy ts = false → ∃ v, HasSome M ts v ∧ v.truthy = false) ∧ (allFalsy ts = false → ∃ v, HasSome M ts v ∧ v.truthy = true) ∧
    (ts ≠ [] → ∃ v, HasSome M ts v)
  | [], _ => by simp [allTruthy, allFalsy]
  | t :: ts, h => by
    simp only [EverySimple] at h
    have h1 := condition_complete hM t h.1
    have h2 := some_complete hM ts h.2
    simp only [allTruthy, allFalsy, Bool.and_eq_false_iff, HasSome]
    refine ⟨?_, ?_, fun _ => ?_⟩
    · rintro (h | h)
      · obtain ⟨v, hv, hf⟩ := h1.1 h; exact ⟨v, Or.inl hv, hf⟩
      · obtain ⟨v, hv, hf⟩ := h2.1 h; exact ⟨v, Or.inr hv, hf⟩
    · rintro (h | h)
      · obtain ⟨v, hv, hf⟩ := h1.2.1 h; exact ⟨v, Or.inl hv, hf⟩
      · obtain ⟨v, hv, hf⟩ := h2.2.1 h; exact ⟨v, Or.inr hv, hf⟩
    · obtain ⟨v, hv⟩ := h1.2.2; exact ⟨v, Or.inl hv⟩
end

end

/-- **C106** Apart from intersections: a type is called always truthy (falsy) exactly if all its values are -/
theorem condition_exact {M : Meaning} (hM : M.ObjectsOnly) (hX : M.Mixed) (t : Ty) (hs : Simple t) :
    ((condition t).1 = true ↔ ∀ v, Has M t v → v.truthy = true) ∧ ((condition t).2 = true ↔ ∀ v, Has M t v → v.truthy = false) := by
  have hc := condition_complete hX hM t hs
  refine ⟨⟨fun h v => truthy_sound hM t h v, fun h => ?_⟩, ⟨fun h v => falsy_sound hM t h v, fun h => ?_⟩⟩
  · cases hc1 : (condition t).1 with
    | true => rfl
    | false => obtain ⟨v, hv, hf⟩ := hc.1 hc1; rw [h v hv] at hf; cases hf
  · cases hc1 : (condition t).2 with
    | true => rfl
    | false => obtain ⟨v, hv, hf⟩ := hc.2.1 hc1; rw [h v hv] at hf; cases hf

theorem conditionAll_iff (ts : List Ty) (all : Bool) :
    ((conditionAll all ts).2 = true ↔ ∃ t ∈ ts, (condition t).2 = true) ∧
    ((conditionAll all ts).1 = true ↔ all = true ∧ ∀ t ∈ ts, (condition t).1 = true ∧ (condition t).2 = false) := by
  induction ts generalizing all with
  | nil => simp [conditionAll]
  | cons t ts ih =>
    simp only [conditionAll]
    cases h : (condition t).2 with
    | true => simp [h]
    | false => simp [h, ih, and_assoc]

/-- **C106** An intersection is called always falsy if one part is, and always truthy if all are: whatever the order -/
theorem intersection_iff (ts : List Ty) :
    ((condition (.intersection ts)).2 = true ↔ ∃ t ∈ ts, (condition t).2 = true) ∧
    ((condition (.intersection ts)).1 = true ↔ ∀ t ∈ ts, (condition t).1 = true ∧ (condition t).2 = false) := by
  simpa [condition] using conditionAll_iff ts true

/-- **C106** (hazard) If an object type has a falsy value, as `{}` has `0` and `""` in TypeScript, the rule still calls it always truthy -/
theorem empty_object (M : Meaning) (n : Nat) (h : M.object n (.string "")) :
    (condition (.object n)).1 = true ∧ ∃ v, Has M (.object n) v ∧ v.truthy = false :=
  ⟨by simp [condition], .string "", by simpa [Has] using h, rfl⟩

/-! ### Conditions -/

theorem verdict_iff (negated : Bool) (t : Ty) (m : Message) : verdict negated t = some m ↔
    (m = .never ∧ t = .never) ∨
    (t ≠ .never ∧ (condition t).2 = true ∧ m = if negated then .alwaysTruthy else .alwaysFalsy) ∨
    (t ≠ .never ∧ (condition t).2 = false ∧ (condition t).1 = true ∧ m = if negated then .alwaysFalsy else .alwaysTruthy) := by
  have key : ∀ t : Ty, t ≠ .never → verdict negated t = (if (condition t).2 then some (if negated then .alwaysTruthy else .alwaysFalsy)
    else if (condition t).1 then some (if negated then .alwaysFalsy else .alwaysTruthy) else none) := by
    intro t ht; cases t <;> first | rfl | exact absurd rfl ht
  by_cases ht : t = .never
  · subst ht
    simp only [verdict, Option.some.injEq, ne_eq, not_true_eq_false, false_and, or_false, and_true]
    exact eq_comm
  · rw [key t ht]
    cases (condition t).2 <;> cases (condition t).1 <;> cases negated <;> simp [ht, eq_comm]

/-- **C106** No condition is judged whose type is, or has in its union, `any`, `unknown`, a type parameter or `T[K]` -/
theorem alwaysNecessary_iff (t : Ty) : alwaysNecessary t = true ↔
    ∃ u, (u = t ∨ ∃ ts, t = .union ts ∧ u ∈ ts) ∧ (u = .any ∨ u = .unknown ∨ (∃ c, u = .typeParameter c) ∨ ∃ i, u = .indexedAccess i) := by
  have hopen : ∀ u : Ty, u.open = true ↔ (u = .any ∨ u = .unknown ∨ (∃ c, u = .typeParameter c) ∨ ∃ i, u = .indexedAccess i) := by
    intro u; cases u <;> simp [Ty.open]
  unfold alwaysNecessary
  rw [List.any_eq_true]
  simp only [hopen]
  constructor
  · rintro ⟨u, hu, h⟩
    refine ⟨u, ?_, h⟩
    cases t <;> simp_all [parts]
  · rintro ⟨u, rfl | ⟨ts, rfl, hu⟩, h⟩
    · refine ⟨u, ?_, h⟩
      rcases h with rfl | rfl | ⟨c, rfl⟩ | ⟨i, rfl⟩ <;> simp [parts]
    · exact ⟨u, hu, h⟩

theorem not_access {t : Ty} (h : alwaysNecessary t = false) : t.isAccess = false := by
  cases t <;> simp_all [alwaysNecessary, parts, Ty.open, Ty.isAccess]

/-- **C106** The code for types `T[K]` of `a[b]` has no effect: such a type is never judged -/
theorem throughIndex_dead (element : Option (Option Ty)) (t : Ty) (h : alwaysNecessary t = false) : throughIndex element t = t := by
  unfold throughIndex
  rw [not_access h]
  cases element with
  | none => rfl
  | some s => cases s <;> simp

/-- What is said of a leaf -/
def LeafSays (L : Leaves) (noUnchecked : Bool) (n : Nat) (negated : Bool) (m : Message) : Prop :=
  ¬ (noUnchecked = false ∧ L.arrayIndex n = true) ∧ ∃ t, L.type n = some t ∧ alwaysNecessary t = false ∧ verdict negated t = some m

theorem leaf_iff (L : Leaves) (noUnchecked : Bool) (n : Nat) (negated : Bool) (report r : Expr) (m : Message) :
    check L noUnchecked (.leaf n) negated report = some (r, m) ↔ r = report ∧ LeafSays L noUnchecked n negated m := by
  unfold LeafSays
  simp only [check]
  by_cases h : noUnchecked = false ∧ L.arrayIndex n = true
  · simp [h.1, h.2]
  · have h' : (!noUnchecked && L.arrayIndex n) = false := by
      cases noUnchecked <;> simp_all
    simp only [h', Bool.false_eq_true, if_false, Option.map_eq_some_iff, Prod.mk.injEq, checkLeaf]
    cases ht : L.type n with
    | none => simp
    | some t =>
      cases hn : alwaysNecessary t with
      | true => simp [hn]
      | false =>
        simp only [hn, Bool.false_eq_true, if_false, throughIndex_dead _ _ hn, Option.some.injEq, exists_eq_left', true_and]
        constructor
        · rintro ⟨m', h1, rfl, rfl⟩; exact ⟨rfl, h, h1⟩
        · rintro ⟨rfl, _, h1⟩; exact ⟨m, h1, rfl, rfl⟩

/-- Either a leaf under `!`, or an `&&` or `||` under `!` -/
theorem shape (e : Expr) : (∃ n b, Under e n b ∧ ∀ L nu neg report, check L nu e neg report = check L nu (.leaf n) (neg ^^ b) report) ∨
    (∃ r, RightOf e r ∧ ∀ L nu neg report, check L nu e neg report = check L nu r false r) := by
  induction e with
  | leaf n => exact Or.inl ⟨n, false, .leaf n, by simp⟩
  | paren e ih =>
    rcases ih with ⟨n, b, h, hc⟩ | ⟨r, h, hc⟩
    · exact Or.inl ⟨n, b, .paren h, fun L nu neg report => by rw [check, hc]⟩
    · exact Or.inr ⟨r, .paren h, fun L nu neg report => by rw [check, hc]⟩
  | not e ih =>
    rcases ih with ⟨n, b, h, hc⟩ | ⟨r, h, hc⟩
    · exact Or.inl ⟨n, !b, .not h, fun L nu neg report => by rw [check, hc]; cases neg <;> cases b <;> rfl⟩
    · exact Or.inr ⟨r, .not h, fun L nu neg report => by rw [check, hc]⟩
  | and l r => exact Or.inr ⟨r, .and l r, fun L nu neg report => by rw [check]⟩
  | or l r => exact Or.inr ⟨r, .or l r, fun L nu neg report => by rw [check]⟩

theorem under_unique {e : Expr} {n : Nat} {b : Bool} (h : Under e n b) : ∀ {n' b'}, Under e n' b' → n' = n ∧ b' = b := by
  induction h with
  | leaf n => intro n' b' h; cases h; exact ⟨rfl, rfl⟩
  | paren _ ih => intro n' b' h; cases h with | paren h => exact ih h
  | not _ ih => intro n' b' h; cases h with | not h => obtain ⟨h1, h2⟩ := ih h; exact ⟨h1, by rw [h2]⟩

theorem right_unique {e r : Expr} (h : RightOf e r) : ∀ {r'}, RightOf e r' → r' = r := by
  induction h with
  | and => intro r' h; cases h; rfl
  | or => intro r' h; cases h; rfl
  | paren _ ih => intro r' h; cases h with | paren h => exact ih h
  | not _ ih => intro r' h; cases h with | not h => exact ih h

theorem right_under {e r : Expr} (h : RightOf e r) : ∀ {n b}, ¬ Under e n b := by
  induction h with
  | and => intro n b h; cases h
  | or => intro n b h; cases h
  | paren _ ih => intro n b h; cases h with | paren h => exact ih h
  | not _ ih => intro n b h; cases h with | not h => exact ih h

theorem right_size {e r : Expr} (h : RightOf e r) : sizeOf r < sizeOf e := by
  induction h <;> simp <;> omega

/-- **C106** A condition is reported exactly if what it is judged by, a value under `!` or the same on the right of the last `&&` or `||`, has a type that settles it -/
theorem check_iff (L : Leaves) (noUnchecked : Bool) (e r : Expr) (m : Message) :
    checkCondition L noUnchecked e = some (r, m) ↔ Judged e r ∧ ∃ n b, Under r n b ∧ LeafSays L noUnchecked n b m := by
  unfold checkCondition
  rcases shape e with ⟨n, b, h, hc⟩ | ⟨r', h, hc⟩
  · rw [hc, leaf_iff]
    constructor
    · rintro ⟨rfl, hl⟩; exact ⟨.whole h, n, b, h, by simpa using hl⟩
    · rintro ⟨hj, n', b', hu, hl⟩
      cases hj with
      | whole => obtain ⟨rfl, rfl⟩ := under_unique h hu; exact ⟨rfl, by simpa using hl⟩
      | right hr _ => exact absurd h (right_under hr)
  · rw [hc]
    have hlt := right_size h
    have ih := check_iff L noUnchecked r' r m
    unfold checkCondition at ih
    rw [ih]
    refine and_congr_left fun _ => ⟨.right h, fun hj => ?_⟩
    cases hj with
    | whole hu => exact absurd hu (right_under h)
    | right hr hj => rw [right_unique h hr] at hj; exact hj
termination_by sizeOf e

theorem under_eval {e : Expr} {n : Nat} {b : Bool} (h : Under e n b) (ρ : Nat → Value) :
    (e.eval ρ).truthy = ((ρ n).truthy ^^ b) := by
  induction h with
  | leaf n => simp [Expr.eval]
  | paren _ ih => simpa [Expr.eval] using ih
  | not _ ih =>
    have : ∀ v, (Value.bool v).truthy = v := fun _ => rfl
    rw [Expr.eval, this, ih]; rename_i b _; cases b <;> simp

theorem under_leaf {e : Expr} {n : Nat} {b : Bool} (h : Under e n b) : n ∈ e.leaves := by
  induction h with
  | leaf n => simp [Expr.leaves]
  | paren _ ih => simpa [Expr.leaves] using ih
  | not _ ih => simpa [Expr.leaves] using ih

/-- **C106** What is reported as always truthy is truthy, and what is reported as always falsy is falsy, whenever the values are of their types; what is reported as `never` has no value -/
theorem check_sound {M : Meaning} (hM : M.ObjectsOnly) (L : Leaves) (noUnchecked : Bool) (e r : Expr) (m : Message)
    (h : checkCondition L noUnchecked e = some (r, m)) (ρ : Nat → Value) (hρ : Typed M L ρ r) :
    match m with
    | .never => False
    | .alwaysTruthy => (r.eval ρ).truthy = true
    | .alwaysFalsy => (r.eval ρ).truthy = false := by
  obtain ⟨_, n, b, hu, _, t, ht, _, hv⟩ := (check_iff L noUnchecked e r m).1 h
  have hh := hρ n (under_leaf hu) t ht
  have he := under_eval hu ρ
  rcases (verdict_iff b t m).1 hv with ⟨rfl, rfl⟩ | ⟨_, hf, rfl⟩ | ⟨_, _, htr, rfl⟩
  · simp [Has] at hh
  · have := falsy_sound hM t hf _ hh
    rw [this] at he
    cases b <;> simpa using he
  · have := truthy_sound hM t htr _ hh
    rw [this] at he
    cases b <;> simpa using he

/-! ### Loops -/

/-- **C106** The option: a string as it is, `true` for `always`, anything else is `never` -/
theorem mode_iff (o : LoopOption) :
    (o.mode = "always" ↔ o = .string "always" ∨ o = .stringPointer (some "always") ∨ o = .bool true ∨ o = .boolPointer (some true)) ∧
    (o.mode = "only-allowed-literals" ↔ o = .string "only-allowed-literals" ∨ o = .stringPointer (some "only-allowed-literals")) := by
  cases o with
  | string s => simp [LoopOption.mode]
  | stringPointer s => cases s <;> simp [LoopOption.mode]
  | bool b => cases b <;> simp [LoopOption.mode]
  | boolPointer b =>
    cases b with
    | none => simp [LoopOption.mode]
    | some b => cases b <;> simp [LoopOption.mode]
  | other => simp [LoopOption.mode]

/-- **C106** A loop's condition is left alone with `only-allowed-literals` if it is `true`, `false`, `0` or `1`, and with `always` if it is `true` or of that type; otherwise it is checked like any other -/
theorem loop_iff (L : Leaves) (noUnchecked : Bool) (mode : String) (literal : Literal) (type : Option Ty) (e r : Expr) (m : Message) :
    checkLoop L noUnchecked mode literal type e = some (r, m) ↔
      ¬ (mode = "only-allowed-literals" ∧ (literal = .true ∨ literal = .false ∨ literal = .number "0" ∨ literal = .number "1")) ∧
      ¬ (mode = "always" ∧ (literal = .true ∨ type = some (.boolLit (some true)))) ∧
      checkCondition L noUnchecked e = some (r, m) := by
  have h1 : literal.allowed = true ↔ (literal = .true ∨ literal = .false ∨ literal = .number "0" ∨ literal = .number "1") := by
    cases literal <;> simp [Literal.allowed]
  have h2 : type.any Ty.isTrue = true ↔ type = some (.boolLit (some true)) := by
    cases type with
    | none => simp
    | some t =>
      cases t
      case boolLit b =>
        cases b with
        | none => simp [Ty.isTrue]
        | some b => cases b <;> simp [Ty.isTrue]
      all_goals simp [Ty.isTrue]
  unfold checkLoop
  simp only [h1]
  rw [← h2]
  split
  · rename_i h; simp only [reduceCtorEq, false_iff]; exact fun h' => h'.1 h
  · rename_i h
    split
    · rename_i h3; simp only [reduceCtorEq, false_iff]; exact fun h' => h'.2.1 h3
    · rename_i h3; exact ⟨fun h' => ⟨h, h3, h'⟩, fun h' => h'.2.2⟩

/-! ### Predicates -/

/-- What is said of one signature of a predicate -/
def SignatureSays (s : Signature) (m : PredicateMessage) : Prop :=
  (m = .alwaysTruthy ∧ (condition s.returns).1 = true) ∨ (m = .alwaysFalsy ∧ (condition s.returns).1 = false ∧ (condition s.returns).2 = true)

/-- **C106** A guard is unnecessary if it is `x is T` on a parameter whose argument's type is already assignable to `T` -/
theorem guarded_iff (s : Signature) : s.guarded = true ↔ ∃ g, s.guard = some g ∧ g.applies = true ∧ g.isIdentifier = true ∧ g.assignable = true := by
  unfold Signature.guarded
  cases s.guard <;> simp [and_assoc]

/-- **C106** Each signature of a predicate is judged by its return type, up to the first one with an unnecessary guard (if these are checked), which is reported -/
theorem predicate_iff (checkGuards : Bool) (ss : List Signature) (m : PredicateMessage) :
    m ∈ predicate checkGuards ss ↔
      (∃ a s b, ss = a ++ s :: b ∧ (∀ x ∈ a, ¬ (checkGuards = true ∧ x.guarded = true)) ∧
        ((m = .guard ∧ checkGuards = true ∧ s.guarded = true) ∨ (¬ (checkGuards = true ∧ s.guarded = true) ∧ SignatureSays s m))) := by
  induction ss with
  | nil => simp [predicate]
  | cons s ss ih =>
    simp only [predicate]
    by_cases hg : checkGuards = true ∧ s.guarded = true
    · rw [if_pos (by simp [hg.1, hg.2])]
      simp only [List.mem_singleton]
      constructor
      · rintro rfl; exact ⟨[], s, ss, rfl, by simp, Or.inl ⟨rfl, hg⟩⟩
      · rintro ⟨a, x, b, he, ha, h⟩
        cases a with
        | nil =>
          simp only [List.nil_append, List.cons.injEq] at he
          obtain ⟨rfl, _⟩ := he
          rcases h with h | h
          · exact h.1
          · exact absurd hg h.1
        | cons y a =>
          simp only [List.cons_append, List.cons.injEq] at he
          obtain ⟨rfl, _⟩ := he
          exact absurd hg (ha _ (by simp))
    · rw [if_neg (by simpa using hg)]
      rw [List.mem_append, ih]
      constructor
      · rintro (h | ⟨a, x, b, rfl, ha, h⟩)
        · refine ⟨[], s, ss, rfl, by simp, Or.inr ⟨hg, ?_⟩⟩
          unfold SignatureSays
          cases h1 : (condition s.returns).1 <;> cases h2 : (condition s.returns).2 <;> simp_all
        · exact ⟨s :: a, x, b, rfl, List.forall_mem_cons.2 ⟨hg, ha⟩, h⟩
      · rintro ⟨a, x, b, he, ha, h⟩
        cases a with
        | nil =>
          simp only [List.nil_append, List.cons.injEq] at he
          obtain ⟨rfl, _⟩ := he
          rcases h with h | h
          · exact absurd h.2 hg
          · left
            unfold SignatureSays at h
            rcases h.2 with ⟨rfl, h1⟩ | ⟨rfl, h1, h2⟩
            · simp [h1]
            · simp [h1, h2]
        | cons y a =>
          simp only [List.cons_append, List.cons.injEq] at he
          obtain ⟨rfl, rfl⟩ := he
          exact Or.inr ⟨a, x, b, rfl, fun z hz => ha z (by simp [hz]), h⟩

/-! ### `??` -/

section
variable {M : Meaning} (hN : M.NonNull)
include hN

mutual
theorem nullish_sound : ∀ (t : Ty) (v : Value), Settled t → nullish t = false → Has M t v → v.isNullish = false
  | .never, v, _, _, h => by simp [Has] at h
  | .null, v, _, hn, _ => by simp [nullish, Ty.nullishLeaf] at hn
  | .undefined, v, _, hn, _ => by simp [nullish, Ty.nullishLeaf] at hn
  | .void, v, _, hn, _ => by simp [nullish, Ty.nullishLeaf] at hn
  | .object n, v, _, _, h => hN.object n v (by simpa [Has] using h)
  | .nonPrimitive, v, _, _, h => by
    obtain ⟨k, rfl⟩ : ∃ k, v = .object k := by simpa [Has] using h
    rfl
  | .symbol, v, _, _, h => by
    obtain ⟨k, rfl⟩ : ∃ k, v = .symbol k := by simpa [Has] using h
    rfl
  | .boolLit none, v, _, _, h => by
    obtain ⟨k, rfl⟩ : ∃ k, v = .bool k := by simpa [Has] using h
    rfl
  | .boolLit (some b), v, _, _, h => by simp [Has] at h; subst h; rfl
  | .stringLit s, v, _, _, h => by simp [Has] at h; subst h; rfl
  | .numberLit s, v, _, _, h => by simp [Has] at h; subst h; rfl
  | .bigintLit s, v, _, _, h => by simp [Has] at h; subst h; rfl
  | .primitive n, v, _, _, h => hN.primitive n v (by simpa [Has] using h)
  | .any, v, h, _, _ => by simp [Settled] at h
  | .unknown, v, h, _, _ => by simp [Settled] at h
  | .typeParameter _, v, h, _, _ => by simp [Settled] at h
  | .indexedAccess _, v, h, _, _ => by simp [Settled] at h
  | .index n, v, _, _, h => hN.index n v (by simpa [Has] using h)
  | .deferred _, v, h, _, _ => by simp [Settled] at h
  | .union ts, v, hs, hn, h => someNullish_sound ts v (by simpa [Settled] using hs) (by simpa [nullish] using hn) (by simpa [Has] using h)
  | .intersection ts, v, hs, _, h => by
    simp only [Has] at h
    exact everyNullish_sound ts v (by simpa [Settled] using hs) h.2
theorem someNullish_sound : ∀ (ts : List Ty) (v : Value), EverySettled ts → anyNullish ts = false → HasSome M ts v → v.isNullish = false
  | [], v, _, _, h => by simp [HasSome] at h
  | t :: ts, v, hs, hn, h => by
    simp only [anyNullish, Bool.or_eq_false_iff] at hn
    simp only [EverySettled] at hs
    simp only [HasSome] at h
    rcases h with h | h
    · exact nullish_sound t v hs.1 hn.1 h
    · exact someNullish_sound ts v hs.2 hn.2 h
theorem everyNullish_sound : ∀ (ts : List Ty) (v : Value), SomeSettled ts → HasEvery M ts v → v.isNullish = false
  | [], v, h, _ => by simp [SomeSettled] at h
  | t :: ts, v, hs, h => by
    simp only [SomeSettled] at hs
    simp only [HasEvery] at h
    rcases hs with hs | hs
    · exact nullish_sound t v hs.1 hs.2 h.1
    · exact everyNullish_sound ts v hs h.2
end

end

mutual
theorem nullish_complete (M : Meaning) : ∀ t : Ty, nullish t = true → ∃ v, Has M t v ∧ v.isNullish = true
  | .null, _ => ⟨.null, by simp [Has], rfl⟩
  | .undefined, _ => ⟨.undefined, by simp [Has], rfl⟩
  | .void, _ => ⟨.undefined, by simp [Has], rfl⟩
  | .union ts, h => by
    obtain ⟨v, h1, h2⟩ := someNullish_complete M ts (by simpa [nullish] using h)
    exact ⟨v, by simpa [Has] using h1, h2⟩
  | .never, h | .object _, h | .nonPrimitive, h | .symbol, h | .boolLit _, h | .stringLit _, h | .numberLit _, h | .bigintLit _, h | .primitive _, h
  | .any, h | .unknown, h | .typeParameter _, h | .indexedAccess _, h | .index _, h | .deferred _, h | .intersection _, h => by
    simp [nullish, Ty.nullishLeaf] at h
theorem someNullish_complete (M : Meaning) : ∀ ts : List Ty, anyNullish ts = true → ∃ v, HasSome M ts v ∧ v.isNullish = true
  | [], h => by simp [anyNullish] at h
  | t :: ts, h => by
    simp only [anyNullish, Bool.or_eq_true] at h
    simp only [HasSome]
    rcases h with h | h
    · obtain ⟨v, h1, h2⟩ := nullish_complete M t h; exact ⟨v, Or.inl h1, h2⟩
    · obtain ⟨v, h1, h2⟩ := someNullish_complete M ts h; exact ⟨v, Or.inr h1, h2⟩
end

/-- **C107** A type without type variables and the like is taken to be possibly nullish exactly if it has a nullish value -/
theorem nullish_iff {M : Meaning} (hN : M.NonNull) (t : Ty) (hs : Settled t) : nullish t = true ↔ ∃ v, Has M t v ∧ v.isNullish = true := by
  refine ⟨nullish_complete M t, fun ⟨v, h1, h2⟩ => ?_⟩
  cases hn : nullish t with
  | true => rfl
  | false => rw [nullish_sound hN t v hs hn h1] at h2; cases h2

theorem constrain_dead (C : Checker) (t : Ty) (h : alwaysNecessary t = false) : C.constrain t = some t := by
  simp [Checker.constrain, not_access h]

/-- **C107** The left side of `??` is reported exactly if its type is `never`; `null`, `undefined` or `void`; or not nullish, unless it is an optional member or an array element that may be missing -/
theorem checkNullish_iff (C : Checker) (noUnchecked : Bool) (o : Operand) (m : NullishMessage) :
    checkNullish C noUnchecked o = some m ↔ ∃ t, o.type = some t ∧ alwaysNecessary t = false ∧
      ((m = .never ∧ t = .never) ∨
       (m = .alwaysNullish ∧ (t = .null ∨ t = .undefined ∨ t = .void)) ∨
       (m = .neverNullish ∧ t ≠ .never ∧ nullish t = false ∧ o.nullableMember = false ∧
         (noUnchecked = true ∨ (o.arrayIndex = false ∧ o.chainIndex = false)))) := by
  unfold checkNullish
  cases o.type with
  | none => simp
  | some t =>
    simp only [Option.some.injEq, exists_eq_left']
    cases hn : alwaysNecessary t with
    | true => simp
    | false =>
      simp only [Bool.false_eq_true, if_false, constrain_dead C t hn, Option.bind_some, true_and]
      have key : ∀ t : Ty, t ≠ .never → nullishVerdict noUnchecked o t = (if t.nullishLeaf then some .alwaysNullish
        else if !nullish t && !o.nullableMember then
          if noUnchecked || (!o.arrayIndex && !o.chainIndex) then some .neverNullish else none
        else none) := by
        intro t ht; cases t <;> first | rfl | exact absurd rfl ht
      have hl : t.nullishLeaf = true ↔ t = .null ∨ t = .undefined ∨ t = .void := by cases t <;> simp [Ty.nullishLeaf]
      have hl2 : t.nullishLeaf = true → nullish t = true := by cases t <;> simp [Ty.nullishLeaf, nullish]
      by_cases ht : t = .never
      · subst ht
        simp only [nullishVerdict, Option.some.injEq, reduceCtorEq, or_self, and_false, false_and, ne_eq, not_true_eq_false, or_false, and_true]
        exact eq_comm
      · rw [key t ht, ← hl]
        cases h1 : t.nullishLeaf with
        | true => simp only [if_true, Option.some.injEq, ht, and_false, and_true, hl2 h1, Bool.true_eq_false, false_and, or_false, false_or]; exact eq_comm
        | false =>
          cases nullish t <;> cases o.nullableMember <;> cases noUnchecked <;> cases o.arrayIndex <;> cases o.chainIndex <;> simp [ht, eq_comm]

/-- **C107** What is reported as never nullish is never nullish, and what is reported as always nullish always is -/
theorem checkNullish_sound {M : Meaning} (hN : M.NonNull) (C : Checker) (noUnchecked : Bool) (o : Operand) (m : NullishMessage)
    (h : checkNullish C noUnchecked o = some m) (t : Ty) (ht : o.type = some t) (hs : Settled t) (v : Value) (hv : Has M t v) :
    match m with
    | .never => False
    | .alwaysNullish => v.isNullish = true
    | .neverNullish => v.isNullish = false := by
  obtain ⟨t', ht', _, h⟩ := (checkNullish_iff C noUnchecked o m).1 h
  rw [ht] at ht'
  cases ht'
  rcases h with ⟨rfl, rfl⟩ | ⟨rfl, rfl | rfl | rfl⟩ | ⟨rfl, _, hn, _⟩
  · simp [Has] at hv
  · simp [Has] at hv; subst hv; rfl
  · simp [Has] at hv; subst hv; rfl
  · simp [Has] at hv; subst hv; rfl
  · exact nullish_sound hN t v hs hn hv

/-- **C107** (hazard) A value of a conditional type that is not resolved is reported as never nullish, even if `null` is of that type -/
theorem conditional_reported (M : Meaning) (C : Checker) (n : Nat) (h : M.deferred n .null) :
    checkNullish C false ⟨some (.deferred n), false, false, false⟩ = some .neverNullish ∧ Has M (.deferred n) .null :=
  ⟨(checkNullish_iff _ _ _ _).2 ⟨_, rfl, by simp [alwaysNecessary, parts, Ty.open], Or.inr (Or.inr ⟨rfl, by simp, by simp [nullish, Ty.nullishLeaf], rfl, Or.inr ⟨rfl, rfl⟩⟩)⟩,
    by simpa [Has] using h⟩

/-- **C107** (hazard) The same for `T & U` with two type parameters -/
theorem intersection_reported (M : Meaning) (C : Checker) (n m : Nat) (h : M.typeParameter n .null) (h' : M.typeParameter m .null) :
    checkNullish C false ⟨some (.intersection [.typeParameter n, .typeParameter m]), false, false, false⟩ = some .neverNullish ∧
    Has M (.intersection [.typeParameter n, .typeParameter m]) .null :=
  ⟨(checkNullish_iff _ _ _ _).2 ⟨_, rfl, by simp [alwaysNecessary, parts, Ty.open], Or.inr (Or.inr ⟨rfl, by simp, by simp [nullish, Ty.nullishLeaf], rfl, Or.inr ⟨rfl, rfl⟩⟩)⟩,
    by simp [Has, HasEvery, h, h']⟩

/-- **C107** (missed) `null | undefined` is not reported, although all its values are nullish -/
theorem union_missed (C : Checker) (noUnchecked : Bool) (M : Meaning) :
    checkNullish C noUnchecked ⟨some (.union [.null, .undefined]), false, false, false⟩ = none ∧
    ∀ v, Has M (.union [.null, .undefined]) v → v.isNullish = true := by
  constructor
  · simp [checkNullish, alwaysNecessary, parts, Ty.open, Checker.constrain, Ty.isAccess, nullishVerdict, Ty.nullishLeaf, nullish, anyNullish]
  · intro v h
    simp only [Has, HasSome, or_false] at h
    rcases h with rfl | rfl <;> rfl

/-! ### Chains -/

theorem hasOptional_build (base : Chain) (links : List Link) :
    (build base links).hasOptional = (links.any Link.optional || base.hasOptional) := by
  induction links generalizing base with
  | nil => simp [build]
  | cons l ls ih =>
    rw [build, ih]
    cases l with
    | property o => cases o <;> simp [Link.on, Chain.hasOptional, Link.optional]
    | element o a => cases o <;> simp [Link.on, Chain.hasOptional, Link.optional]
    | call o => cases o <;> simp [Link.on, Chain.hasOptional, Link.optional]

theorem isLink_on (l : Link) (c : Chain) : (l.on c).isLink = true := by cases l <;> rfl

theorem optionalIndex_on (l : Link) (c : Chain) :
    (l.on c).optionalIndex = ((l.optional && c.isArrayIndex) || (c.isLink && c.optionalIndex)) := by
  cases l with
  | property o => cases o <;> cases h1 : c.isArrayIndex <;> cases h2 : c.isLink <;> simp [Link.on, Chain.optionalIndex, Link.optional, h1, h2]
  | element o a => cases o <;> cases h1 : c.isArrayIndex <;> cases h2 : c.isLink <;> simp [Link.on, Chain.optionalIndex, Link.optional, h1, h2]
  | call o => cases o <;> cases h1 : c.isArrayIndex <;> cases h2 : c.isLink <;> simp [Link.on, Chain.optionalIndex, Link.optional, h1, h2]

theorem isLink_build (base : Chain) (links : List Link) (hb : base.isLink = false) : (build base links).isLink = !links.isEmpty := by
  induction links generalizing base with
  | nil => simpa [build] using hb
  | cons l ls ih =>
    rw [build]
    clear ih
    have : ∀ (ls : List Link) (c : Chain), c.isLink = true → (build c ls).isLink = true := by
      intro ls
      induction ls with
      | nil => intro c h; exact h
      | cons l ls ih => intro c _; exact ih _ (isLink_on l c)
    simp [this ls _ (isLink_on l base)]

theorem build_append (base : Chain) (a b : List Link) : build base (a ++ b) = build (build base a) b := by
  induction a generalizing base with
  | nil => rfl
  | cons l a ih => exact ih _

theorem optionalIndex_build (base : Chain) (links : List Link) (hb : base.isLink = false) (hne : links ≠ []) :
    (build base links).optionalIndex = true ↔
      ∃ a x b, links = a ++ x :: b ∧ x.optional = true ∧ (build base a).isArrayIndex = true := by
  -- by the last link
  have key : ∀ (n : Nat) (links : List Link), links.length = n → links ≠ [] → ((build base links).optionalIndex = true ↔
      ∃ a x b, links = a ++ x :: b ∧ x.optional = true ∧ (build base a).isArrayIndex = true) := by
    intro n
    induction n with
    | zero => intro links hl hne; exact absurd (List.length_eq_zero_iff.1 hl) hne
    | succ n ih =>
      intro links hl hne
      have hd := List.dropLast_concat_getLast hne
      generalize links.dropLast = init at hd
      generalize links.getLast hne = l at hd
      subst hd
      have hl' : init.length = n := by simpa using hl
      rw [build_append, show build (build base init) [l] = l.on (build base init) from rfl, optionalIndex_on, isLink_build _ _ hb]
      simp only [Bool.or_eq_true, Bool.and_eq_true]
      constructor
      · rintro (h | ⟨h1, h2⟩)
        · exact ⟨init, l, [], by simp, h.1, h.2⟩
        · have hi : init ≠ [] := by intro h; simp [h] at h1
          obtain ⟨a, x, b, rfl, h3, h4⟩ := (ih init hl' hi).1 h2
          exact ⟨a, x, b ++ [l], by simp, h3, h4⟩
      · rintro ⟨a, x, b, he, h1, h2⟩
        by_cases hb' : b = []
        · subst hb'
          have : init = a ∧ l = x := by
            have := List.append_inj' he rfl
            exact ⟨this.1, by simpa using this.2⟩
          obtain ⟨rfl, rfl⟩ := this
          exact Or.inl ⟨h1, h2⟩
        · right
          have hd := List.dropLast_concat_getLast hb'
          generalize b.dropLast = b0 at hd
          generalize b.getLast hb' = z at hd
          subst hd
          have : init = a ++ x :: b0 ∧ l = z := by
            have he' : init ++ [l] = (a ++ x :: b0) ++ [z] := by simpa using he
            have := List.append_inj' he' rfl
            exact ⟨this.1, by simpa using this.2⟩
          obtain ⟨rfl, rfl⟩ := this
          exact ⟨by simp, (ih _ hl' (by simp)).2 ⟨a, x, b0, rfl, h1, h2⟩⟩
  exact key _ links rfl hne

/-- **C107** A chain counts as having `?.` after an array element exactly if one of its links is optional and what it follows is an array element; inside parentheses, other chains do not count -/
theorem optionalIndex_iff (base : Chain) (links : List Link) (hb : base.isLink = false) (hne : links ≠ []) :
    (build base links).optionalIndex = true ↔
      ∃ a x b, links = a ++ x :: b ∧ x.optional = true ∧
        match a.getLast? with
        | some l => l.index = true
        | none => base.isArrayIndex = true := by
  rw [optionalIndex_build base links hb hne]
  have : ∀ a : List Link, (build base a).isArrayIndex = true ↔ (match a.getLast? with
        | some l => l.index = true
        | none => base.isArrayIndex = true) := by
    intro a
    by_cases ha : a = []
    · subst ha; rfl
    · have hd := List.dropLast_concat_getLast ha
      generalize a.dropLast = b at hd
      generalize a.getLast ha = z at hd
      subst hd
      rw [build_append, List.getLast?_concat]
      cases z <;> simp [build, Link.on, Chain.isArrayIndex, Link.index]
  simp only [this]

/-! ### Comparisons -/

theorem of_nonNull (op : Operator) (w : Wanted) {v : Value} (h : v.isNullish = false) : v ≠ w.value ∧ (op.loose = true → v.isNullish = false) :=
  ⟨(by rintro rfl; cases w <;> cases h), fun _ => h⟩

section
variable {M : Meaning} (hN : M.NonNull)
include hN

mutual
theorem comparable_sound (op : Operator) (w : Wanted) : ∀ (t : Ty) (v : Value), comparable op w t = false → Has M t v →
    v ≠ w.value ∧ (op.loose = true → v.isNullish = false)
  | .never, v, _, h => by simp [Has] at h
  | .null, v, hc, h => by
    simp only [comparable, Ty.fits, Bool.or_eq_false_iff, decide_eq_false_iff_not] at hc
    simp only [Has] at h
    subst h
    refine ⟨?_, by simp [hc.1]⟩
    cases w <;> simp_all [Wanted.value]
  | .undefined, v, hc, h => by
    simp only [comparable, Ty.fits, Bool.or_eq_false_iff, decide_eq_false_iff_not] at hc
    simp only [Has] at h
    subst h
    refine ⟨?_, by simp [hc.1]⟩
    cases w <;> simp_all [Wanted.value]
  | .void, v, hc, h => by
    simp only [comparable, Ty.fits, Bool.or_eq_false_iff, decide_eq_false_iff_not] at hc
    simp only [Has] at h
    subst h
    refine ⟨?_, by simp [hc.1]⟩
    cases w <;> simp_all [Wanted.value]
  | .object n, v, _, h => of_nonNull op w (hN.object n v (by simpa [Has] using h))
  | .nonPrimitive, v, _, h => by
    obtain ⟨k, rfl⟩ : ∃ k, v = .object k := by simpa [Has] using h
    exact of_nonNull op w rfl
  | .symbol, v, _, h => by
    obtain ⟨k, rfl⟩ : ∃ k, v = .symbol k := by simpa [Has] using h
    exact of_nonNull op w rfl
  | .boolLit none, v, _, h => by
    obtain ⟨k, rfl⟩ : ∃ k, v = .bool k := by simpa [Has] using h
    exact of_nonNull op w rfl
  | .boolLit (some b), v, _, h => by simp [Has] at h; subst h; exact of_nonNull op w rfl
  | .stringLit s, v, _, h => by simp [Has] at h; subst h; exact of_nonNull op w rfl
  | .numberLit s, v, _, h => by simp [Has] at h; subst h; exact of_nonNull op w rfl
  | .bigintLit s, v, _, h => by simp [Has] at h; subst h; exact of_nonNull op w rfl
  | .primitive n, v, _, h => of_nonNull op w (hN.primitive n v (by simpa [Has] using h))
  | .any, v, h, _ => by simp [comparable, Ty.fits] at h
  | .unknown, v, h, _ => by simp [comparable, Ty.fits] at h
  | .typeParameter _, v, h, _ => by simp [comparable, Ty.fits] at h
  | .indexedAccess _, v, h, _ => by simp [comparable, Ty.fits] at h
  | .index n, v, _, h => of_nonNull op w (hN.index n v (by simpa [Has] using h))
  | .deferred _, v, h, _ => by simp [comparable, Ty.fits] at h
  | .union ts, v, hc, h => someComparable_sound op w ts v (by simpa [comparable] using hc) (by simpa [Has] using h)
  | .intersection ts, v, hc, h => by
    simp only [Has] at h
    have : everyComparable op w ts = false := by
      simp only [comparable, Bool.and_eq_false_iff] at hc
      rcases hc with hc | hc
      · exact absurd (by simpa using hc) h.1
      · exact hc
    exact everyComparable_sound op w ts v this h.2
theorem someComparable_sound (op : Operator) (w : Wanted) : ∀ (ts : List Ty) (v : Value), someComparable op w ts = false → HasSome M ts v →
    v ≠ w.value ∧ (op.loose = true → v.isNullish = false)
  | [], v, _, h => by simp [HasSome] at h
  | t :: ts, v, hc, h => by
    simp only [someComparable, Bool.or_eq_false_iff] at hc
    simp only [HasSome] at h
    rcases h with h | h
    · exact comparable_sound op w t v hc.1 h
    · exact someComparable_sound op w ts v hc.2 h
theorem everyComparable_sound (op : Operator) (w : Wanted) : ∀ (ts : List Ty) (v : Value), everyComparable op w ts = false → HasEvery M ts v →
    v ≠ w.value ∧ (op.loose = true → v.isNullish = false)
  | [], v, hc, _ => by simp [everyComparable] at hc
  | t :: ts, v, hc, h => by
    simp only [everyComparable, Bool.and_eq_false_iff] at hc
    simp only [HasEvery] at h
    rcases hc with hc | hc
    · exact comparable_sound op w t v hc h.1
    · exact everyComparable_sound op w ts v hc h.2
end

/-- **C107** If a comparison is reported as having no overlap, the values are never equal: not with `===`, and if the comparison is by `==` or `!=`, not with `==` either -/
theorem noOverlap_sound (op : Operator) (l r : Ty) (h : noOverlap op l r = true) (v w : Value) (hv : Has M l v) (hw : Has M r w) :
    v ≠ w ∧ (op.loose = true → ¬ v.looseEqual w) := by
  have hU : ∀ t : Ty, t.isUndefined = true → t = .undefined := by intro t; cases t <;> simp [Ty.isUndefined]
  have hNl : ∀ t : Ty, t.isNull = true → t = .null := by intro t; cases t <;> simp [Ty.isNull]
  simp only [noOverlap, Bool.or_eq_true, Bool.and_eq_true, Bool.not_eq_true'] at h
  rcases h with ((⟨h1, h2⟩ | ⟨h1, h2⟩) | ⟨h1, h2⟩) | ⟨h1, h2⟩
  · rw [hU l h1] at hv
    have := comparable_sound hN op _ r w h2 hw
    simp only [Has] at hv
    subst hv
    refine ⟨fun h => this.1 h.symm, fun ho => ?_⟩
    rintro (h | h)
    · exact this.1 h.symm
    · rw [this.2 ho] at h; cases h.2
  · rw [hU r h1] at hw
    have := comparable_sound hN op _ l v h2 hv
    simp only [Has] at hw
    subst hw
    refine ⟨this.1, fun ho => ?_⟩
    rintro (h | h)
    · exact this.1 h
    · rw [this.2 ho] at h; cases h.1
  · rw [hNl l h1] at hv
    have := comparable_sound hN op _ r w h2 hw
    simp only [Has] at hv
    subst hv
    refine ⟨fun h => this.1 h.symm, fun ho => ?_⟩
    rintro (h | h)
    · exact this.1 h.symm
    · rw [this.2 ho] at h; cases h.2
  · rw [hNl r h1] at hw
    have := comparable_sound hN op _ l v h2 hv
    simp only [Has] at hw
    subst hw
    refine ⟨this.1, fun ho => ?_⟩
    rintro (h | h)
    · exact this.1 h
    · rw [this.2 ho] at h; cases h.1

end

/-- **C107** A comparison of literal types is reported only if each side has one value: whatever is done with them has one result -/
theorem literals_sound (M : Meaning) {A : Type} (f : Value → Value → A) (strict : Bool) (op : Operator) (l r : Ty)
    (h : compare strict op (some l) (some r) = some .literals) (v w v' w' : Value) (hv : Has M l v) (hw : Has M r w) (hv' : Has M l v') (hw' : Has M r w') :
    f v w = f v' w' := by
  have key : ∀ (t : Ty), t.static = true → ∀ v v', Has M t v → Has M t v' → v = v' := by
    intro t ht v v' h h'
    cases t
    case boolLit b => cases b <;> simp_all [Ty.static, Has]
    all_goals simp_all [Ty.static, Has]
  have : l.static = true ∧ r.static = true := by
    simp only [compare] at h
    split at h
    · rename_i h1; simpa using h1
    · split at h
      · cases h
      · split at h <;> cases h
  rw [key l this.1 v v' hv hv', key r this.2 w w' hw hw']

/-- **C107** The comparison of two types is reported exactly if both are literals (or `null`, `undefined`); or, with strict null checks, one is `undefined` or `null` and the other cannot be -/
theorem compare_iff (strict : Bool) (op : Operator) (l r : Option Ty) (m : CompareMessage) :
    compare strict op l r = some m ↔ ∃ t u, l = some t ∧ r = some u ∧
      ((m = .literals ∧ t.static = true ∧ u.static = true) ∨
       (m = .noOverlap ∧ ¬ (t.static = true ∧ u.static = true) ∧ strict = true ∧
         ((t = .undefined ∧ comparable op .undefinedOrVoid u = false) ∨ (u = .undefined ∧ comparable op .undefinedOrVoid t = false) ∨
          (t = .null ∧ comparable op .null u = false) ∨ (u = .null ∧ comparable op .null t = false)))) := by
  have hU : ∀ t : Ty, t.isUndefined = true ↔ t = .undefined := by intro t; cases t <;> simp [Ty.isUndefined]
  have hNl : ∀ t : Ty, t.isNull = true ↔ t = .null := by intro t; cases t <;> simp [Ty.isNull]
  cases l with
  | none => cases r <;> simp [compare]
  | some t =>
    cases r with
    | none => simp [compare]
    | some u =>
      simp only [compare, Option.some.injEq, exists_and_left, exists_eq_left']
      have : noOverlap op t u = true ↔ ((t = .undefined ∧ comparable op .undefinedOrVoid u = false) ∨ (u = .undefined ∧ comparable op .undefinedOrVoid t = false) ∨
          (t = .null ∧ comparable op .null u = false) ∨ (u = .null ∧ comparable op .null t = false)) := by
        simp only [noOverlap, Bool.or_eq_true, Bool.and_eq_true, Bool.not_eq_true', hU, hNl, or_assoc]
      rw [← this]
      cases t.static <;> cases u.static <;> cases strict <;> cases noOverlap op t u <;> simp [eq_comm]

/-- **C107** Which types can be compared: a union if a part can, an intersection if all can, other types by what they are -/
theorem comparable_iff (op : Operator) (w : Wanted) (ts : List Ty) :
    (comparable op w (.union ts) = true ↔ ∃ t ∈ ts, comparable op w t = true) ∧
    (comparable op w (.intersection ts) = true ↔ ts ≠ [] ∧ ∀ t ∈ ts, comparable op w t = true) := by
  have h1 : someComparable op w ts = true ↔ ∃ t ∈ ts, comparable op w t = true := by
    induction ts with
    | nil => simp [someComparable]
    | cons t ts ih => simp [someComparable, ih]
  have h2 : everyComparable op w ts = true ↔ ∀ t ∈ ts, comparable op w t = true := by
    induction ts with
    | nil => simp [everyComparable]
    | cons t ts ih => simp [everyComparable]; intro _; rw [← ih]; clear ih h1; induction ts <;> simp_all [someComparable, everyComparable]
  constructor
  · simpa [comparable] using h1
  · simp only [comparable, Bool.and_eq_true, h2]
    refine and_congr_left fun _ => ?_
    cases ts <;> simp

/-- **C107** (hazard) `null < n` is reported as always having the same value, although it depends on `n` -/
theorem null_less (num : String → Option Int) (h0 : num "0" = some 0) (h1 : num "1" = some 1) :
    compare true .less (some .null) (some (.primitive 0)) = some .noOverlap ∧
    Value.less num .null (.number "1") = true ∧ Value.less num .null (.number "0") = false := by
  refine ⟨?_, by simp [Value.less, Value.toInt, h1], by simp [Value.less, Value.toInt, h0]⟩
  exact (compare_iff _ _ _ _ _).2 ⟨_, _, rfl, rfl, Or.inr ⟨rfl, by simp [Ty.static], rfl, Or.inr (Or.inr (Or.inl ⟨rfl, by simp [comparable, Ty.fits]⟩))⟩⟩

/-! ### Types of expressions -/

/-- **C106** `T[K]` is taken to be the property's type if `K` is one literal and there is such a property; otherwise what the string index gives if a part of `K` is like a string; otherwise what the number index gives if a part is like a number -/
theorem access_iff (a : Access) (t : Ty) : a.type = some t ↔
    (∃ k, a.literal = some k ∧ a.property k = some t) ∨
    ((∀ k, a.literal = some k → a.property k = none) ∧
      ((a.stringLike = true ∧ a.stringIndex = some t) ∨
       (¬ (a.stringLike = true ∧ a.stringIndex ≠ none) ∧ a.numberLike = true ∧ a.numberIndex = some t))) := by
  unfold Access.type
  cases hl : a.literal with
  | none => cases a.stringLike <;> cases a.stringIndex <;> cases a.numberLike <;> simp
  | some k =>
    cases hp : a.property k with
    | some u => simp [hp]
    | none => cases a.stringLike <;> cases a.stringIndex <;> cases a.numberLike <;> simp [hp]

/-- **C106** A type parameter stands for its constraint, and without one nothing is said; other types stand for themselves, and `T[K]` for what is known of it -/
theorem resolved_iff (C : Checker) (t u : Ty) : C.resolved (some t) = some u ↔
    (∃ n c, t = .typeParameter n ∧ C.constraint n = some c ∧ u = C.resolve c) ∨ ((∀ n, t ≠ .typeParameter n) ∧ u = C.resolve t) := by
  cases t
  case typeParameter n => cases h : C.constraint n <;> simp [Checker.resolved, h, eq_comm]
  all_goals simp [Checker.resolved, eq_comm]

/-! ### Examples -/

/-- Objects are objects; `string` and the like: all strings; type variables: everything -/
def sampleMeaning : Meaning where
  object _ v := ∃ k, v = .object k
  primitive _ v := ∃ s, v = .string s
  typeParameter _ _ := True
  indexedAccess _ _ := True
  index _ v := ∃ s, v = .string s
  deferred _ _ := True

example : sampleMeaning.ObjectsOnly := fun _ _ h => h
theorem sampleMeaning_nonNull : sampleMeaning.NonNull where
  object := by rintro n v ⟨k, rfl⟩; rfl
  primitive := by rintro n v ⟨k, rfl⟩; rfl
  index := by rintro n v ⟨k, rfl⟩; rfl
example : sampleMeaning.Mixed where
  objects _ := ⟨.object 0, 0, rfl⟩
  primitive _ := ⟨⟨.string "a", ⟨_, rfl⟩, by decide⟩, .string "", ⟨_, rfl⟩, by decide⟩
  typeParameter _ := ⟨⟨.bool true, trivial, rfl⟩, .null, trivial, rfl⟩
  indexedAccess _ := ⟨⟨.bool true, trivial, rfl⟩, .null, trivial, rfl⟩
  index _ := ⟨⟨.string "a", ⟨_, rfl⟩, by decide⟩, .string "", ⟨_, rfl⟩, by decide⟩
  deferred _ := ⟨⟨.bool true, trivial, rfl⟩, .null, trivial, rfl⟩

/-- `1 | object` -/
example : condition (.union [.numberLit "1", .object 0]) = (true, false) := by decide
example : condition (.union [.numberLit "0", .null, .boolLit (some false)]) = (false, true) := by decide
example : condition (.union [.numberLit "0", .object 0]) = (false, false) := by decide
example : condition (.intersection [.primitive 0, .object 0]) = (false, false) := by decide
example : Simple (.union [.numberLit "0", .object 0]) := by simp [Simple, EverySimple]

/-- 0: an object; 1: a string; 2: `never` -/
def sampleLeaves : Leaves where
  type n := if n = 0 then some (.object 0) else if n = 1 then some (.primitive 0) else some .never
  arrayIndex n := n = 3
  element _ := none

/-- `!(x && (!y))`: about `!y` -/
example : checkCondition sampleLeaves false (.not (.paren (.and (.leaf 1) (.paren (.not (.leaf 0)))))) = some (.paren (.not (.leaf 0)), .alwaysFalsy) := by decide
example : checkCondition sampleLeaves false (.not (.not (.leaf 0))) = some (.not (.not (.leaf 0)), .alwaysTruthy) := by decide
example : checkCondition sampleLeaves false (.leaf 1) = none := by decide
example : checkCondition sampleLeaves false (.leaf 3) = none := by decide
example : checkCondition sampleLeaves true (.leaf 3) = some (.leaf 3, .never) := by decide
example : Typed sampleMeaning sampleLeaves (fun _ => .object 0) (.leaf 0) := by
  intro n hn t ht
  simp only [Expr.leaves, List.mem_singleton] at hn
  subst hn
  simp only [sampleLeaves, if_true, Option.some.injEq] at ht
  subst ht
  simp [Has, sampleMeaning]
example : checkLoop sampleLeaves false "always" .true (some (.boolLit (some true))) (.leaf 0) = none := by decide
example : checkLoop sampleLeaves false "never" .true (some (.boolLit (some true))) (.leaf 0) = some (.leaf 0, .alwaysTruthy) := by decide
example : (LoopOption.bool true).mode = "always" ∧ (LoopOption.string "sometimes").mode = "sometimes" := by decide
example : predicate true [⟨none, .object 0⟩, ⟨some ⟨true, true, true⟩, .primitive 0⟩, ⟨none, .null⟩] = [.alwaysTruthy, .guard] := by decide
example : predicate false [⟨none, .object 0⟩, ⟨some ⟨true, true, true⟩, .primitive 0⟩, ⟨none, .null⟩] = [.alwaysTruthy, .alwaysFalsy] := by decide
example : Settled (.union [.primitive 0, .intersection [.typeParameter 0, .object 0]]) := by simp [Settled, EverySettled, SomeSettled, nullish, Ty.nullishLeaf]
example : checkNullish ⟨fun _ => none, fun _ => none⟩ false ⟨some (.union [.primitive 0, .object 0]), false, false, false⟩ = some .neverNullish := by decide
example : checkNullish ⟨fun _ => none, fun _ => none⟩ false ⟨some (.primitive 0), false, true, false⟩ = none := by decide
/-- `arr[0]?.a.b` -/
example : (build .root [.element false true, .property true, .property false]).optionalIndex = true := by decide
/-- `arr[0].a?.b` -/
example : (build .root [.element false true, .property false, .property true]).optionalIndex = false := by decide
/-- `(arr[0])?.a` -/
example : (build (.paren (.element .root false true)) [.property true]).optionalIndex = true := by decide
example : compare true .strictEqual (some .undefined) (some (.union [.primitive 0, .object 0])) = some .noOverlap := by decide
example : compare true .strictEqual (some .undefined) (some (.union [.primitive 0, .void])) = none := by decide
example : compare true .looseEqual (some .undefined) (some (.union [.primitive 0, .null])) = none := by decide
example : compare true .strictEqual (some .undefined) (some (.union [.primitive 0, .null])) = some .noOverlap := by decide
example : compare false .strictEqual (some .null) (some (.numberLit "1")) = some .literals := by decide
/-- the hypotheses of `conditional_reported` and `intersection_reported` -/
example : sampleMeaning.deferred 0 .null ∧ sampleMeaning.typeParameter 0 .null := ⟨trivial, trivial⟩
/-- a meaning of `{}` for `empty_object` -/
example : ({ sampleMeaning with object := fun _ v => v.isNullish = false } : Meaning).object 0 (.string "") := rfl
example : (Access.type ⟨some "a", fun _ => none, true, false, some (.primitive 1), none⟩).isSome = true := by decide

end Tsgolint.Condition
