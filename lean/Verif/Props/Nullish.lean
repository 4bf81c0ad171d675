import Verif.Proof.NullishSimilar
/-! # C101: what prefer-nullish-coalescing reports -/
namespace Tsgolint.Nullish

/-! ### Places and types -/

theorem conditionalTest_iff (up : List Frame) : conditionalTest up = true ↔ InTest up := by
  induction up with
  | nil => exact ⟨nofun, nofun⟩
  | cons f up ih =>
    obtain ⟨l, r⟩ := f
    cases l
    · cases r <;> simp only [conditionalTest, Bool.false_eq_true, if_false, ih] <;>
        first
          | exact ⟨fun h => .passed (by simp) h, fun h => by cases h <;> first | assumption | simp_all⟩
          | exact ⟨fun _ => .here rfl rfl, fun _ => by trivial⟩
          | exact ⟨fun h => (by cases h), fun h => by cases h <;> simp_all⟩
    · simp only [conditionalTest, if_true, ih]
      exact ⟨fun h => .logical rfl h, fun h => by cases h <;> first | assumption | simp_all⟩

theorem booleanContext_iff (up : List Frame) : booleanContext up = true ↔ InBoolean up := by
  induction up with
  | nil => exact ⟨nofun, nofun⟩
  | cons f up ih =>
    obtain ⟨l, r⟩ := f
    cases l
    · cases r <;> simp only [booleanContext, Bool.false_eq_true, if_false, ih] <;>
        first
          | exact ⟨fun h => .passed (by simp) h, fun h => by cases h <;> first | assumption | simp_all⟩
          | (rename_i d
             cases d
             · exact ⟨fun _ => .here rfl rfl, fun _ => by trivial⟩
             · exact ⟨fun h => (by simp at h), fun h => by cases h <;> simp_all⟩)
          | exact ⟨fun h => (by cases h), fun h => by cases h <;> simp_all⟩
    · cases r <;> simp only [booleanContext, if_true, ih] <;>
        exact ⟨fun h => .logical rfl h, fun h => by cases h <;> first | assumption | simp_all⟩

theorem meets_iff (a b : Primitives) : a.meets b = true ↔ a.Common b := by
  simp [Primitives.meets, Primitives.Common, or_assoc]

theorem isZero_iff (p : Primitives) : p.isZero = true ↔ p = ⟨false, false, false, false⟩ := by
  obtain ⟨a, b, c, d⟩ := p
  simp [Primitives.isZero, and_assoc]

theorem ignores_iff (o : Options) (p : Primitives) : Ignores o p ↔ p = o.ignorable := by
  rw [Ignores, Options.ignorable, Options.BoolOr.isTrue]
  cases h : o.ignorePrimitives.objectVal with
  | some q => simp; exact eq_comm
  | none => cases h1 : o.ignorePrimitives.isSet <;> cases h2 : o.ignorePrimitives.boolVal <;> simp

theorem typeEligible_iff (p : Primitives) (t : Ty) : t.eligible p = true ↔ TypeEligible p t := by
  have hn : t.nullable = true ↔ (t.any = true ∨ ∃ p ∈ t.parts, p.null = true ∨ p.undefined = true) := by
    rw [Ty.nullable]
    cases t.any <;> simp
  have hc : (t.parts.any fun p' => p'.intersection.any fun q => q.meets p) = true ↔ ¬ ∀ p' ∈ t.parts, ∀ q ∈ p'.intersection, ¬ q.Common p := by
    simp [meets_iff]
  rw [Ty.eligible, TypeEligible, ← hn, ← isZero_iff]
  cases h1 : t.nullable
  · simp
  cases h2 : p.isZero
  · cases h3 : t.any
    · simp only [Bool.not_true, Bool.false_eq_true, if_false, Bool.not_eq_true', true_and, false_or]
      rw [← Bool.not_eq_true, hc, Classical.not_not]
    · simp
  · simp

theorem eligible_iff (o : Options) (c : Bool) (up : List Frame) (t : Ty) : eligible o c up t = true ↔ Eligible o c up t := by
  have h1 : (∃ p, Ignores o p ∧ TypeEligible p t) ↔ t.eligible o.ignorable = true := by
    simp [ignores_iff, typeEligible_iff]
  have h2 : up.head?.any (·.role.isCall) = true ↔ ∃ f rest, up = f :: rest ∧ (f.role = .call ∨ ∃ d, f.role = .boolean d) := by
    cases up with
    | nil => simp
    | cons f rest =>
      cases hr : f.role <;> simp [Role.isCall, hr]
  rw [Eligible, h1, ← conditionalTest_iff, ← booleanContext_iff, ← h2, eligible]
  cases t.eligible o.ignorable <;> cases o.ignoreConditionalTests <;> cases conditionalTest up <;> cases o.ignoreBooleanCoercion <;> cases booleanContext up <;> simp

/-! ### Tests -/

theorem memberAccess_iff (e : Expr) : e.memberAccess = true ↔ Member e.skip := by
  rw [Expr.memberAccess]
  cases h : e.skip <;> simp
  all_goals first | exact .ident | exact .prop | exact .elem | (intro h; cases h) | skip
  rename_i i c
  cases c
  · exact ⟨nofun, nofun⟩
  · exact ⟨fun _ => .chain, fun _ => rfl⟩

theorem nullish_iff (e : Expr) : e.isNullish = true ↔ NullishLiteral e := by
  cases e <;> simp [Expr.isNullish, Expr.isNull, Expr.isUndefined, NullishLiteral]

/-- `Check` of a comparison -/
def checkOf (negated strict : Bool) : Check :=
  match negated, strict with
  | false, false => .equal
  | false, true => .strictEqual
  | true, false => .notEqual
  | true, true => .strictNotEqual

theorem checkOf_inj {n s n' s' : Bool} (h : checkOf n s = checkOf n' s') : n = n' ∧ s = s' := by
  cases n <;> cases s <;> cases n' <;> cases s' <;> simp_all [checkOf]

theorem compound_iff (isOr : Bool) (l r : Expr) (c : Check) (nodes : List Expr) :
    compound isOr l r = some (c, nodes) ↔ ∃ s s' xs ys, Compares l (!isOr) s xs ∧ Compares r (!isOr) s' ys ∧ ¬ (∀ x ∈ xs, NullishLiteral x) ∧ ¬ (∀ y ∈ ys, NullishLiteral y) ∧
      c = checkOf (!isOr) (s && s') ∧ nodes = xs ++ ys := by
  constructor
  · intro h
    have hl : ∃ lo ll lr, l = .binary lo ll lr := by
      cases l <;> first | exact ⟨_, _, _, rfl⟩ | simp [compound] at h
    have hr : ∃ ro rl rr, r = .binary ro rl rr := by
      cases r <;> first | exact ⟨_, _, _, rfl⟩ | (cases l <;> simp [compound] at h)
    obtain ⟨lo, ll, lr, rfl⟩ := hl
    obtain ⟨ro, rl, rr, rfl⟩ := hr
    rw [compound] at h
    split at h
    · cases h
    · rename_i hn
      have hn1 : ¬ ∀ x ∈ [ll.skip, lr.skip], NullishLiteral x := by
        intro hh
        simp [← nullish_iff] at hh
        simp [hh] at hn
      have hn2 : ¬ ∀ x ∈ [rl.skip, rr.skip], NullishLiteral x := by
        intro hh
        simp [← nullish_iff] at hh
        simp [hh] at hn
      cases isOr
      · cases lo <;> cases ro <;> simp [combine] at h
        all_goals obtain ⟨rfl, rfl⟩ := h
        · exact ⟨_, _, _, _, .notEq, .notEq, hn1, hn2, rfl, rfl⟩
        · exact ⟨_, _, _, _, .notEq, .strictNotEq, hn1, hn2, rfl, rfl⟩
        · exact ⟨_, _, _, _, .strictNotEq, .notEq, hn1, hn2, rfl, rfl⟩
        · exact ⟨_, _, _, _, .strictNotEq, .strictNotEq, hn1, hn2, rfl, rfl⟩
      · cases lo <;> cases ro <;> simp [combine] at h
        all_goals obtain ⟨rfl, rfl⟩ := h
        · exact ⟨_, _, _, _, .eq, .eq, hn1, hn2, rfl, rfl⟩
        · exact ⟨_, _, _, _, .eq, .strictEq, hn1, hn2, rfl, rfl⟩
        · exact ⟨_, _, _, _, .strictEq, .eq, hn1, hn2, rfl, rfl⟩
        · exact ⟨_, _, _, _, .strictEq, .strictEq, hn1, hn2, rfl, rfl⟩
  · rintro ⟨s, s', xs, ys, h1, h2, h3, h4, rfl, rfl⟩
    have hn : ∀ (ll lr : Expr), ¬ (∀ x ∈ [ll.skip, lr.skip], NullishLiteral x) → (ll.skip.isNullish && lr.skip.isNullish) = false := by
      intro ll lr h
      simp only [List.mem_cons, List.not_mem_nil, or_false, forall_eq_or_imp, forall_eq, ← nullish_iff] at h
      rw [← Bool.not_eq_true, Bool.and_eq_true]; exact h
    cases isOr
    · cases h1 <;> cases h2 <;> simp [compound, combine, hn _ _ h3, hn _ _ h4, checkOf]
    · cases h1 <;> cases h2 <;> simp [compound, combine, hn _ _ h3, hn _ _ h4, checkOf]

theorem comparison_iff (e : Expr) (c : Check) (nodes : List Expr) :
    comparison e = some (c, nodes) ↔ ∃ n s, Compared e n s nodes ∧ c = checkOf n s := by
  constructor
  · intro h
    cases e with
    | binary op l r =>
      cases op <;> simp only [comparison, Option.some.injEq, Prod.mk.injEq, reduceCtorEq] at h
      · obtain ⟨rfl, rfl⟩ := h; exact ⟨_, _, .one .eq, rfl⟩
      · obtain ⟨rfl, rfl⟩ := h; exact ⟨_, _, .one .notEq, rfl⟩
      · obtain ⟨rfl, rfl⟩ := h; exact ⟨_, _, .one .strictEq, rfl⟩
      · obtain ⟨rfl, rfl⟩ := h; exact ⟨_, _, .one .strictNotEq, rfl⟩
      · rw [compound_iff] at h
        obtain ⟨s, s', xs, ys, h1, h2, h3, h4, rfl, rfl⟩ := h
        exact ⟨_, _, .either h1 h2 h3 h4, rfl⟩
      · rw [compound_iff] at h
        obtain ⟨s, s', xs, ys, h1, h2, h3, h4, rfl, rfl⟩ := h
        exact ⟨_, _, .both h1 h2 h3 h4, rfl⟩
    | _ => simp [comparison] at h
  · rintro ⟨n, s, h, rfl⟩
    cases h with
    | one h => cases h <;> rfl
    | either h1 h2 h3 h4 => exact (compound_iff true _ _ _ _).2 ⟨_, _, _, _, h1, h2, h3, h4, rfl, rfl⟩
    | both h1 h2 h3 h4 => exact (compound_iff false _ _ _ _).2 ⟨_, _, _, _, h1, h2, h3, h4, rfl, rfl⟩

theorem compared_nodes {e : Expr} {n s : Bool} {nodes : List Expr} (h : Compared e n s nodes) : nodes ≠ [] := by
  cases h with
  | one h => cases h <;> simp
  | either h => cases h <;> simp
  | both h => cases h <;> simp

theorem compared_not_member {e : Expr} {n s : Bool} {nodes : List Expr} (h : Compared e.skip n s nodes) : e.skip.memberAccess = false ∧ ∀ x, e.skip ≠ .not x := by
  rw [← Bool.not_eq_true, memberAccess_iff, skip_skip]
  have hb : ∃ op l r, e.skip = .binary op l r := by
    generalize e.skip = t at h
    cases h with
    | one h => cases h <;> exact ⟨_, _, _, rfl⟩
    | either h => exact ⟨_, _, _, rfl⟩
    | both h => exact ⟨_, _, _, rfl⟩
  obtain ⟨op, l, r, hb⟩ := hb
  rw [hb]
  exact ⟨nofun, nofun⟩

theorem inspect_iff (test : Expr) (c : Check) (nodes : List Expr) :
    inspect test = some (c, nodes) ↔ (Member test.skip ∧ c = .truthy ∧ nodes = []) ∨ (∃ e, test.skip = .not e ∧ Member e.skip ∧ c = .negated ∧ nodes = []) ∨
      ∃ n s, Compared test.skip n s nodes ∧ c = checkOf n s := by
  rw [inspect]
  by_cases hm : test.skip.memberAccess = true
  · rw [if_pos hm]
    rw [memberAccess_iff, skip_skip] at hm
    constructor
    · intro h; cases h; exact .inl ⟨hm, rfl, rfl⟩
    · rintro (⟨-, rfl, rfl⟩ | ⟨e, he, -⟩ | ⟨n, s, h, -⟩)
      · rfl
      · rw [he] at hm; cases hm
      · have := (compared_not_member h).1
        rw [← Bool.not_eq_true, memberAccess_iff, skip_skip] at this
        exact absurd hm this
  · rw [if_neg hm]
    rw [memberAccess_iff, skip_skip] at hm
    split
    · rename_i e he
      constructor
      · intro h
        split at h
        · rename_i hme
          cases h
          rw [memberAccess_iff, skip_skip] at hme
          exact .inr (.inl ⟨e, he, hme, rfl, rfl⟩)
        · cases h
      · rintro (⟨h, -⟩ | ⟨e', he', hme, rfl, rfl⟩ | ⟨n, s, h, -⟩)
        · exact absurd h hm
        · rw [he] at he'; cases he'
          rw [if_pos ((memberAccess_iff _).2 (by rw [skip_skip]; exact hme))]
        · exact absurd he ((compared_not_member h).2 e)
    · rename_i hne
      rw [comparison_iff]
      constructor
      · intro h; exact .inr (.inr h)
      · rintro (⟨h, -⟩ | ⟨e', he', -⟩ | h)
        · exact absurd h hm
        · exact absurd he' (hne e')
        · exact h

/-! ### What is compared -/

theorem isNull_iff (e : Expr) : e.isNull = true ↔ e = .null := by cases e <;> simp [Expr.isNull]
theorem isUndefined_iff (e : Expr) : e.isUndefined = true ↔ e = .ident "undefined" := by cases e <;> simp [Expr.isUndefined]

theorem scan_iff (value : Expr) (nodes : List Expr) (n u : Bool) (f : Option Expr) (n' u' : Bool) (f' : Option Expr) :
    scan value nodes n u f = some (n', u', f') ↔
      (∀ x ∈ nodes, NullishLiteral x ∨ Similar x value) ∧ n' = (n || nodes.contains .null) ∧ u' = (u || nodes.contains (.ident "undefined")) ∧
      f' = f.or (nodes.find? fun x => !x.isNullish) := by
  induction nodes generalizing n u f with
  | nil =>
    simp only [scan, Option.some.injEq, Prod.mk.injEq]
    cases f <;> simp <;> constructor <;> rintro ⟨rfl, rfl, rfl⟩ <;> simp
  | cons x xs ih =>
    rw [scan]
    by_cases h1 : x.isNull = true
    · rw [if_pos h1, ih]
      rw [isNull_iff] at h1; subst h1
      simp [NullishLiteral, Expr.isNullish, Expr.isNull]
    · rw [if_neg h1]
      by_cases h2 : x.isUndefined = true
      · rw [if_pos h2, ih]
        rw [isUndefined_iff] at h2; subst h2
        simp [NullishLiteral, Expr.isNullish, Expr.isUndefined]
      · rw [if_neg h2]
        have hn : x.isNullish = false := by simp [Expr.isNullish, h1, h2]
        have hn' : ¬ NullishLiteral x := by rw [← nullish_iff, hn]; simp
        rw [isNull_iff] at h1
        rw [isUndefined_iff] at h2
        by_cases h3 : x.similar value = true
        · rw [if_pos h3, ih]
          rw [similar_iff] at h3
          have e1 : (Expr.null == x) = false := by rw [← Bool.not_eq_true]; simpa using fun h => h1 h.symm
          have e2 : (Expr.ident "undefined" == x) = false := by rw [← Bool.not_eq_true]; simpa using fun h => h2 h.symm
          simp only [List.mem_cons, forall_eq_or_imp, h3, or_true, true_and, List.contains_cons, e1, e2, Bool.false_or, List.find?_cons, hn, Bool.not_false]
          cases f <;> simp
        · rw [if_neg h3]
          rw [similar_iff] at h3
          constructor
          · intro h; cases h
          · rintro ⟨h, -⟩
            rcases h x (List.mem_cons_self ..) with h | h
            · exact absurd h hn'
            · exact absurd h h3

theorem only_iff (value : Expr) (nodes : List Expr) (left : Expr) :
    Only value nodes left ↔ (∀ x ∈ nodes, NullishLiteral x ∨ Similar x value) ∧ (nodes.find? fun x => !x.isNullish) = some left := by
  constructor
  · rintro ⟨before, after, rfl, h1, h2, h3, h4⟩
    constructor
    · intro x hx
      rcases List.mem_append.1 hx with hx | hx
      · exact .inl (h1 x hx)
      · rcases List.mem_cons.1 hx with rfl | hx
        · exact .inr h3
        · exact h4 x hx
    · rw [List.find?_append]
      have : (before.find? fun x => !x.isNullish) = none := by
        rw [List.find?_eq_none]
        intro x hx
        simp [(nullish_iff x).2 (h1 x hx)]
      rw [← nullish_iff] at h2
      simp [this, h2]
  · rintro ⟨h1, h2⟩
    rw [List.find?_eq_some_iff_append] at h2
    obtain ⟨hl, before, after, rfl, hb⟩ := h2
    have hl : ¬ NullishLiteral left := by rw [← nullish_iff]; simpa using hl
    refine ⟨before, after, rfl, ?_, hl, ?_, ?_⟩
    · intro x hx; rw [← nullish_iff]; simpa using hb x hx
    · rcases h1 left (by simp) with h | h
      · exact absurd h hl
      · exact h
    · intro x hx; exact h1 x (by simp [hx])

theorem skipPartial_iff (n s : Bool) (nodes : List Expr) (t : Ty) (allow : Bool) (h : n = true → allow = true) :
    skipPartial (nodes.contains .null) (nodes.contains (.ident "undefined")) (checkOf n s) t allow = false ↔ Complete s nodes t := by
  rw [Complete, ← List.contains_iff_mem, ← List.contains_iff_mem, skipPartial]
  have h1 : (∀ p ∈ t.parts, p.undefined = false) ↔ (t.parts.any (·.undefined)) = false := by simp
  have h2 : (∀ p ∈ t.parts, p.null = false) ↔ (t.parts.any (·.null)) = false := by simp
  rw [h1, h2]
  cases nodes.contains .null <;> cases nodes.contains (.ident "undefined") <;> cases n <;> cases s <;> cases t.any <;> cases (t.parts.any (·.undefined)) <;>
    cases (t.parts.any (·.null)) <;> cases allow <;> simp_all [checkOf]

/-! ### The verdicts -/

theorem tested_of_member {e : Expr} (h : Member e.skip) : tested e = e.skip := by
  rw [tested]
  split
  · rename_i x hx; rw [hx] at h; cases h
  · rfl

/-- C101 (conditional expressions). -/
theorem C101_ternary (o : Options) (typeOf : Expr → Ty) (up : List Frame) (test yes no left alt : Expr) :
    ternary o typeOf up test yes no = some (left, alt) ↔ Ternary o typeOf up test yes no left alt := by
  rw [ternary]
  by_cases hi : o.ignoreTernaryTests = true
  · rw [if_pos hi]
    exact ⟨nofun, fun h => by cases h <;> simp_all⟩
  rw [if_neg hi]
  have hi : o.ignoreTernaryTests = false := by simpa using hi
  constructor
  · intro h
    rw [Option.bind_eq_some_iff] at h
    obtain ⟨⟨c, nodes⟩, hins, h⟩ := h
    rcases (inspect_iff _ _ _).1 hins with ⟨hm, rfl, rfl⟩ | ⟨e, he, hm, rfl, rfl⟩ | ⟨n, s, hc, rfl⟩
    · change (if ((tested test).similar yes.skip && eligible o true up (typeOf (tested test))) = true then some (tested test, no) else none) = _ at h
      rw [tested_of_member hm, similar_skip] at h
      split at h
      · rename_i hc
        cases h
        rw [Bool.and_eq_true, similar_iff, eligible_iff] at hc
        exact .truthy hi hm hc.1 hc.2
      · cases h
    · change (if ((tested test).similar no.skip && eligible o true up (typeOf (tested test))) = true then some (tested test, yes) else none) = _ at h
      rw [show tested test = e.skip by rw [tested, he], similar_skip] at h
      split at h
      · rename_i hc
        cases h
        rw [Bool.and_eq_true, similar_iff, eligible_iff] at hc
        exact .negated hi he hm hc.1 hc.2
      · cases h
    · have hne : nodes.isEmpty = false := by simpa using compared_nodes hc
      simp only [hne, Bool.false_eq_true, if_false] at h
      rw [Option.bind_eq_some_iff] at h
      obtain ⟨⟨n', u', f'⟩, hs, h⟩ := h
      rw [scan_iff] at hs
      obtain ⟨h1, rfl, rfl, rfl⟩ := hs
      simp only [Bool.false_or, Option.none_or] at h
      rw [Option.bind_eq_some_iff] at h
      obtain ⟨l, hl, h⟩ := h
      simp only [Option.ite_none_left_eq_some, Bool.not_eq_true, skipPartial_iff _ _ _ _ _ (fun _ => rfl), Option.some.injEq, Prod.mk.injEq] at h
      obtain ⟨h2, rfl, rfl⟩ := h
      have ho := (only_iff _ _ _).2 ⟨h1, hl⟩
      have hsk : ∀ v, Only v.skip nodes l → Only v nodes l := by
        intro v h
        rw [only_iff] at h ⊢
        refine ⟨fun x hx => (h.1 x hx).imp_right fun h => ?_, h.2⟩
        rw [← similar_iff, similar_skip, similar_iff] at h; exact h
      cases n
      · have hb : branches (checkOf false s) yes no = (no, yes) := by cases s <;> rfl
        rw [hb] at ho ⊢
        exact .equal hi hc (hsk _ ho) h2
      · have hb : branches (checkOf true s) yes no = (yes, no) := by cases s <;> rfl
        rw [hb] at ho ⊢
        exact .notEqual hi hc (hsk _ ho) h2
  · have hsk : ∀ v nodes l, Only v nodes l → (∀ x ∈ nodes, NullishLiteral x ∨ Similar x v.skip) ∧ (nodes.find? fun x => !x.isNullish) = some l := by
      intro v nodes l h
      rw [only_iff] at h
      refine ⟨fun x hx => (h.1 x hx).imp_right fun h => ?_, h.2⟩
      rw [← similar_iff, similar_skip, similar_iff]; exact h
    intro h
    cases h with
    | truthy _ hm h1 h2 =>
      rw [(inspect_iff _ _ _).2 (.inl ⟨hm, rfl, rfl⟩)]
      simp [branches, tested_of_member hm, similar_skip, (similar_iff _ _).2 h1, (eligible_iff _ _ _ _).2 h2]
    | @negated e _ he hm h1 h2 =>
      have ht : tested test = e.skip := by rw [tested, he]
      rw [(inspect_iff _ _ _).2 (.inr (.inl ⟨e, he, hm, rfl, rfl⟩))]
      simp [branches, ht, similar_skip, (similar_iff _ _).2 h1, (eligible_iff _ _ _ _).2 h2]
    | @equal s nodes _ _ hc ho h2 =>
      have hne : nodes.isEmpty = false := by simpa using compared_nodes hc
      have hb : branches (checkOf false s) yes no = (no, yes) := by cases s <;> rfl
      rw [(inspect_iff _ _ _).2 (.inr (.inr ⟨_, _, hc, rfl⟩))]
      obtain ⟨h1, hl⟩ := hsk _ _ _ ho
      simp only [Option.bind_some, hb, hne, Bool.false_eq_true, if_false]
      rw [(scan_iff _ _ _ _ _ _ _ _).2 ⟨h1, rfl, rfl, rfl⟩]
      simp only [Option.bind_some, Option.none_or, hl, Bool.false_or, (skipPartial_iff false s nodes (typeOf left) true (fun _ => rfl)).2 h2, Bool.false_eq_true, if_false]
    | @notEqual s nodes _ _ hc ho h2 =>
      have hne : nodes.isEmpty = false := by simpa using compared_nodes hc
      have hb : branches (checkOf true s) yes no = (yes, no) := by cases s <;> rfl
      rw [(inspect_iff _ _ _).2 (.inr (.inr ⟨_, _, hc, rfl⟩))]
      obtain ⟨h1, hl⟩ := hsk _ _ _ ho
      simp only [Option.bind_some, hb, hne, Bool.false_eq_true, if_false]
      rw [(scan_iff _ _ _ _ _ _ _ _).2 ⟨h1, rfl, rfl, rfl⟩]
      simp only [Option.bind_some, Option.none_or, hl, Bool.false_or, (skipPartial_iff true s nodes (typeOf left) true (fun _ => rfl)).2 h2, Bool.false_eq_true, if_false]

theorem single_iff (body : Stmt) (e : Expr) : body.only = some e ↔ Single body e := by
  constructor
  · intro h
    rw [Stmt.only.eq_def] at h
    split at h
    · cases h; exact .block
    · cases h; exact .expression
    · cases h
  · intro h; cases h <;> rfl

/-- C101 (if statements). -/
theorem C101_if (o : Options) (typeOf : Expr → Ty) (up : List Frame) (test : Expr) (body : Stmt) (hasElse : Bool) (left right : Expr) :
    ifStatement o typeOf up test body hasElse = some (left, right) ↔ If o typeOf up test body hasElse left right := by
  rw [ifStatement]
  by_cases hi : (o.ignoreIfStatements || hasElse) = true
  · rw [if_pos hi]
    exact ⟨nofun, fun h => by cases h <;> simp_all⟩
  rw [if_neg hi]
  simp only [Bool.or_eq_true, not_or, Bool.not_eq_true] at hi
  obtain ⟨hi, he⟩ := hi
  constructor
  · intro h
    rw [Option.bind_eq_some_iff] at h
    obtain ⟨e, hb, h⟩ := h
    rw [single_iff] at hb
    split at h
    · rename_i plain l r hs
      split at h
      · cases h
      · rename_i hm
        have hm : Member l.skip := by rw [← memberAccess_iff]; simpa using hm
        rw [Option.bind_eq_some_iff] at h
        obtain ⟨⟨c, nodes⟩, hins, h⟩ := h
        simp only at h
        split at h
        · cases h
        · rename_i hck
          rcases (inspect_iff _ _ _).1 hins with ⟨-, rfl, rfl⟩ | ⟨x, hx, hmx, rfl, rfl⟩ | ⟨n, s, hc, rfl⟩
          · simp at hck
          · rw [show tested test = x.skip by rw [tested, hx]] at h
            simp only [List.isEmpty_nil, if_true] at h
            split at h
            · rename_i hc
              cases h
              rw [Bool.and_eq_true, similar_iff, eligible_iff] at hc
              exact .negated hi he hb hs hm hx hmx hc.1 hc.2
            · cases h
          · have hne : nodes.isEmpty = false := by simpa using compared_nodes hc
            simp only [hne, Bool.false_eq_true, if_false] at h
            rw [Option.bind_eq_some_iff] at h
            obtain ⟨⟨n', u', f'⟩, hsc, h⟩ := h
            rw [scan_iff] at hsc
            obtain ⟨h1, rfl, rfl, rfl⟩ := hsc
            simp only [Bool.false_or, Option.none_or] at h
            split at h
            · cases h
            · rename_i hk
              cases h
              have hn : n = false := by cases n <;> cases s <;> simp_all [checkOf]
              subst hn
              simp only [Bool.or_eq_true, not_or, Bool.not_eq_true, skipPartial_iff false s nodes _ false (fun h => by cases h)] at hk
              cases hf : nodes.find? (fun x => !x.isNullish) with
              | none => rw [hf] at hk; simp at hk
              | some first => exact .equal hi he hb hs hm hc ((only_iff _ _ _).2 ⟨h1, hf⟩) hk.2
    · cases h
  · intro h
    cases h with
    | @negated e x _ _ plain _ _ hb hs hm hx hmx h1 h2 =>
      rw [(single_iff _ _).2 hb, Option.bind_some, hs]
      simp only [(memberAccess_iff _).2 hm, Bool.not_true, Bool.false_eq_true, if_false]
      rw [(inspect_iff _ _ _).2 (.inr (.inl ⟨x, hx, hmx, rfl, rfl⟩))]
      simp [show tested test = x.skip by rw [tested, hx], (similar_iff _ _).2 h1, (eligible_iff _ _ _ _).2 h2]
    | @equal e _ _ plain s nodes first _ _ hb hs hm hc ho h2 =>
      rw [(single_iff _ _).2 hb, Option.bind_some, hs]
      simp only [(memberAccess_iff _).2 hm, Bool.not_true, Bool.false_eq_true, if_false]
      rw [(inspect_iff _ _ _).2 (.inr (.inr ⟨_, _, hc, rfl⟩))]
      have hne : nodes.isEmpty = false := by simpa using compared_nodes hc
      have hck : ¬(checkOf false s ≠ .negated ∧ checkOf false s ≠ .equal ∧ checkOf false s ≠ .strictEqual) := by cases s <;> simp [checkOf]
      simp only [Option.bind_some, if_neg hck, hne, Bool.false_eq_true, if_false]
      rw [only_iff] at ho
      rw [(scan_iff _ _ _ _ _ _ _ _).2 ⟨ho.1, rfl, rfl, rfl⟩]
      simp only [Option.bind_some, Option.none_or, ho.2, Option.isNone_some, Bool.false_or, (skipPartial_iff false s nodes (typeOf left) false (fun h => by cases h)).2 h2,
        Bool.false_eq_true, if_false]

/-! ### Mixed logical expressions -/

section
variable {N : Type} [DecidableEq N]

/-- What follows a node in the queue -/
def next (E : Nodes N) (c x : N) : Prop :=
  ∃ l r, E.logical c = true ∧ E.binary c = some (.or, l, r) ∧ (E.parent c = some x ∨ x = l ∨ x = r)

def isAnd (E : Nodes N) (c : N) : Prop := ∃ l r, E.logical c = true ∧ E.binary c = some (.and, l, r)

theorem Connected.next {E : Nodes N} {node left right c x : N} (h : Connected E node left right c) (hn : next E c x) : Connected E node left right x := by
  obtain ⟨l, r, h1, h2, h3 | rfl | rfl⟩ := hn
  · exact .up h h1 h2 h3
  · exact .leftOf h h1 h2
  · exact .rightOf h h1 h2

theorem mixedLoop_true (E : Nodes N) (hE : Sane E) (node left right : N) (fuel : Nat) (queue : List (Option N)) (seen : List N)
    (hq : ∀ c, some c ∈ queue → Connected E node left right c) (h : mixedLoop E fuel queue seen = some true) : Mixed E node left right := by
  induction fuel generalizing queue seen with
  | zero => cases h
  | succ n ih =>
    cases queue with
    | nil => cases h
    | cons c queue =>
      have hq' : ∀ c, some c ∈ queue → Connected E node left right c := fun c hc => hq c (List.mem_cons_of_mem _ hc)
      cases c with
      | none => exact ih _ _ hq' h
      | some c =>
        rw [mixedLoop] at h
        split at h
        · exact ih _ _ hq' h
        · split at h
          · exact ih _ _ hq' h
          · rename_i hl
            have hl : E.logical c = true := by simpa using hl
            have hc := hq c (List.mem_cons_self ..)
            split at h
            · exact ih _ _ hq' h
            · rename_i op l r hb
              split at h
              · rename_i ho; subst ho; exact ⟨c, l, r, hc, hl, hb⟩
              · split at h
                · rename_i ho
                  have ho : op = .or := by
                    rcases ho with ho | ho
                    · exact ho
                    · rw [hE c hl] at ho; simp at ho
                  subst ho
                  refine ih _ _ ?_ h
                  intro x hx
                  rcases List.mem_append.1 hx with hx | hx
                  · exact hq' x hx
                  · simp only [List.mem_cons, Option.some.injEq, List.not_mem_nil, or_false] at hx
                    rcases hx with hx | rfl | rfl
                    · exact .up hc hl hb hx.symm
                    · exact .leftOf hc hl hb
                    · exact .rightOf hc hl hb
                · exact ih _ _ hq' h

theorem mixedLoop_false (E : Nodes N) (hE : Sane E) (fuel : Nat) (queue : List (Option N)) (seen : List N)
    (hs : ∀ c ∈ seen, ¬ isAnd E c ∧ ∀ x, next E c x → x ∈ seen ∨ some x ∈ queue) (h : mixedLoop E fuel queue seen = some false) :
    ∃ closed : List N, (∀ c ∈ seen, c ∈ closed) ∧ (∀ c, some c ∈ queue → c ∈ closed) ∧ ∀ c ∈ closed, ¬ isAnd E c ∧ ∀ x, next E c x → x ∈ closed := by
  induction fuel generalizing queue seen with
  | zero => cases h
  | succ n ih =>
    cases queue with
    | nil => exact ⟨seen, fun _ h => h, nofun, fun c hc => ⟨(hs c hc).1, fun x hx => ((hs c hc).2 x hx).resolve_right (by simp)⟩⟩
    | cons c queue =>
      cases c with
      | none =>
        obtain ⟨cl, h1, h2, h3⟩ := ih queue seen (fun c hc => ⟨(hs c hc).1, fun x hx => ((hs c hc).2 x hx).imp_right fun h => by simpa using h⟩) h
        exact ⟨cl, h1, fun c hc => h2 c (by simpa using hc), h3⟩
      | some c =>
        have step : ∀ q', (∀ x, some x ∈ queue → some x ∈ q') → ¬ isAnd E c → (∀ x, next E c x → some x ∈ q') → mixedLoop E n q' (c :: seen) = some false →
            ∃ closed : List N, (∀ c ∈ seen, c ∈ closed) ∧ (∀ x, some x ∈ some c :: queue → x ∈ closed) ∧ ∀ c ∈ closed, ¬ isAnd E c ∧ ∀ x, next E c x → x ∈ closed := by
          intro q' hsub ha hn hh
          obtain ⟨cl, h1, h2, h3⟩ := ih q' (c :: seen) (by
            intro y hy
            rcases List.mem_cons.1 hy with rfl | hy
            · exact ⟨ha, fun x hx => .inr (hn x hx)⟩
            · refine ⟨(hs y hy).1, fun x hx => ?_⟩
              rcases (hs y hy).2 x hx with h | h
              · exact .inl (List.mem_cons_of_mem _ h)
              · rcases List.mem_cons.1 h with h | h
                · cases h; exact .inl (List.mem_cons_self ..)
                · exact .inr (hsub x h)) hh
          refine ⟨cl, fun y hy => h1 y (List.mem_cons_of_mem _ hy), fun x hx => ?_, h3⟩
          rcases List.mem_cons.1 hx with hx | hx
          · cases hx; exact h1 _ (List.mem_cons_self ..)
          · exact h2 x (hsub x hx)
        rw [mixedLoop] at h
        split at h
        · rename_i hc
          have hc : c ∈ seen := by simpa using hc
          obtain ⟨cl, h1, h2, h3⟩ := ih queue seen (by
            intro y hy
            refine ⟨(hs y hy).1, fun x hx => ?_⟩
            rcases (hs y hy).2 x hx with h | h
            · exact .inl h
            · rcases List.mem_cons.1 h with h | h
              · cases h; exact .inl hc
              · exact .inr h) h
          refine ⟨cl, h1, fun x hx => ?_, h3⟩
          rcases List.mem_cons.1 hx with hx | hx
          · cases hx; exact h1 _ hc
          · exact h2 x hx
        · split at h
          · rename_i hl
            have hl : E.logical c = false := by simpa using hl
            exact step queue (fun _ h => h) (fun ⟨_, _, h, _⟩ => by rw [hl] at h; cases h) (fun x ⟨_, _, h, _⟩ => by rw [hl] at h; cases h) h
          · rename_i hl
            have hl : E.logical c = true := by simpa using hl
            split at h
            · rename_i hb
              exact step queue (fun _ h => h) (fun ⟨_, _, _, h⟩ => by rw [hb] at h; cases h) (fun x ⟨_, _, _, h, _⟩ => by rw [hb] at h; cases h) h
            · rename_i op l r hb
              split at h
              · cases h
              · rename_i hna
                have hna : ¬ isAnd E c := by rintro ⟨l', r', _, h'⟩; rw [hb] at h'; cases h'; exact hna rfl
                split at h
                · refine step (queue ++ [E.parent c, some l, some r]) (fun x hx => List.mem_append_left _ hx) hna ?_ h
                  rintro x ⟨l', r', _, h', h''⟩
                  rw [hb] at h'; cases h'
                  refine List.mem_append_right _ ?_
                  rcases h'' with h'' | rfl | rfl <;> simp [*]
                · rename_i ho
                  exact step queue (fun _ h => h) hna (fun x ⟨l', r', _, h', _⟩ => by rw [hb] at h'; cases h'; exact absurd (.inl rfl) ho) h

/-- C101 (mixed expressions): whenever the search ends, it tells whether `&&` is connected with the expression. -/
theorem C101_mixed (E : Nodes N) (hE : Sane E) (fuel : Nat) (node left right : N) (b : Bool) (h : mixed E fuel node left right = some b) :
    b = true ↔ Mixed E node left right := by
  rw [mixed] at h
  constructor
  · rintro rfl
    refine mixedLoop_true E hE node left right fuel _ _ ?_ h
    intro c hc
    simp only [List.mem_cons, Option.some.injEq, List.not_mem_nil, or_false] at hc
    rcases hc with hc | rfl | rfl
    · exact .parent hc.symm
    · exact .left
    · exact .right
  · rintro ⟨c, l, r, hc, hl, hb⟩
    cases b with
    | true => rfl
    | false =>
      obtain ⟨cl, -, h2, h3⟩ := mixedLoop_false E hE fuel _ _ (by simp) h
      have : ∀ c, Connected E node left right c → c ∈ cl := by
        intro c hc
        induction hc with
        | parent h => exact h2 _ (by simp [h])
        | left => exact h2 _ (by simp)
        | right => exact h2 _ (by simp)
        | up _ h1 h2 h4 ih => exact (h3 _ ih).2 _ ⟨_, _, h1, h2, .inl h4⟩
        | leftOf _ h1 h2 ih => exact (h3 _ ih).2 _ ⟨_, _, h1, h2, .inr (.inl rfl)⟩
        | rightOf _ h1 h2 ih => exact (h3 _ ih).2 _ ⟨_, _, h1, h2, .inr (.inr rfl)⟩
      exact absurd ⟨l, r, hl, hb⟩ (h3 c (this c hc)).1

/-- How many of the nodes have not been seen -/
def unseen (all seen : List N) : Nat := all.countP fun x => !seen.contains x

theorem unseen_less {all seen : List N} {c : N} (hc : c ∈ all) (hs : c ∉ seen) : unseen all (c :: seen) < unseen all seen := by
  induction all with
  | nil => simp at hc
  | cons a all ih =>
    have le : unseen all (c :: seen) ≤ unseen all seen := by
      refine List.countP_mono_left ?_
      intro x _ hx
      simp only [List.contains_cons, Bool.not_or, Bool.and_eq_true] at hx
      exact hx.2
    simp only [unseen, List.countP_cons] at le ⊢
    by_cases h : a = c
    · subst h
      simp [hs]
      simpa using Nat.lt_succ_of_le le
    · have hc : c ∈ all := by rcases List.mem_cons.1 hc with rfl | hc; exact absurd rfl h; exact hc
      have := ih hc
      simp only [unseen] at this
      have e : ((c :: seen).contains a) = seen.contains a := by simp [h]
      rw [e]
      omega

theorem mixedLoop_answers (E : Nodes N) (all : List N) (hall : ∀ c ∈ all, ∀ x, (E.parent c = some x ∨ ∃ op l r, E.binary c = some (op, l, r) ∧ (x = l ∨ x = r)) → x ∈ all)
    (fuel : Nat) (queue : List (Option N)) (seen : List N) (hq : ∀ c, some c ∈ queue → c ∈ all) (hf : queue.length + 3 * unseen all seen < fuel) :
    ∃ b, mixedLoop E fuel queue seen = some b := by
  induction fuel generalizing queue seen with
  | zero => omega
  | succ n ih =>
    cases queue with
    | nil => exact ⟨_, rfl⟩
    | cons c queue =>
      have hq' : ∀ c, some c ∈ queue → c ∈ all := fun c hc => hq c (List.mem_cons_of_mem _ hc)
      simp only [List.length_cons] at hf
      cases c with
      | none => exact ih _ _ hq' (by omega)
      | some c =>
        have hc := hq c (List.mem_cons_self ..)
        rw [mixedLoop]
        split
        · exact ih _ _ hq' (by omega)
        · rename_i hs
          have hs : c ∉ seen := by simpa using hs
          have hless := unseen_less hc hs
          split
          · exact ih _ _ hq' (by omega)
          · split
            · exact ih _ _ hq' (by omega)
            · rename_i op l r hb
              split
              · exact ⟨_, rfl⟩
              · split
                · refine ih _ _ ?_ (by simp only [List.length_append, List.length_cons, List.length_nil]; omega)
                  intro x hx
                  rcases List.mem_append.1 hx with hx | hx
                  · exact hq' x hx
                  · refine hall c hc x ?_
                    simp only [List.mem_cons, Option.some.injEq, List.not_mem_nil, or_false] at hx
                    rcases hx with hx | rfl | rfl
                    · exact .inl hx.symm
                    · exact .inr ⟨op, _, r, hb, .inl rfl⟩
                    · exact .inr ⟨op, l, _, hb, .inr rfl⟩
                · exact ih _ _ hq' (by omega)

/-- C101 (termination): in a file, the search ends. -/
theorem C101_answers (E : Nodes N) (all : List N) (node left right : N)
    (hall : ∀ c ∈ all, ∀ x, (E.parent c = some x ∨ ∃ op l r, E.binary c = some (op, l, r) ∧ (x = l ∨ x = r)) → x ∈ all)
    (hn : node ∈ all) (hl : left ∈ all) (hr : right ∈ all) (fuel : Nat) (hf : 3 + 3 * all.length < fuel) :
    ∃ b, mixed E fuel node left right = some b := by
  refine mixedLoop_answers E all hall fuel _ _ ?_ ?_
  · intro c hc
    simp only [List.mem_cons, Option.some.injEq, List.not_mem_nil, or_false] at hc
    rcases hc with hc | rfl | rfl
    · exact hall node hn c (.inl hc.symm)
    · exact hl
    · exact hr
  · have : unseen all [] ≤ all.length := List.countP_le_length
    simp only [List.length_cons, List.length_nil]
    omega

/-- C101 (`||` and `||=`). -/
theorem C101_or (o : Options) (E : Nodes N) (hE : Sane E) (fuel : Nat) (node left right : N) (up : List Frame) (t : Ty) (b : Bool)
    (h : checkOr o E fuel node left right up t = some b) :
    b = true ↔ Eligible o false up t ∧ (o.ignoreMixedLogicalExpressions = true → ¬ Mixed E node left right) := by
  rw [checkOr] at h
  by_cases he : eligible o false up t = true
  · rw [he] at h
    rw [eligible_iff] at he
    simp only [Bool.not_true, Bool.false_eq_true, if_false] at h
    split at h
    · rename_i hm
      rw [Option.map_eq_some_iff] at h
      obtain ⟨m, hm', rfl⟩ := h
      have := C101_mixed E hE fuel node left right m hm'
      simp only [he, hm, true_and, forall_const, ← this]
      cases m <;> simp
    · rename_i hm
      cases h
      simp [he, hm]
  · have he' := he
    rw [eligible_iff] at he'
    simp only [Bool.not_eq_true] at he
    rw [he] at h
    cases h
    simp [he']

end

/-! ### Cases -/

def options : Options := ⟨false, true, false, true, {}, false⟩
/-- `string | null` -/
def nullableString : Ty := ⟨false, [⟨true, false, []⟩, ⟨false, false, [⟨false, false, false, true⟩]⟩]⟩
private def x : Expr := .ident "x"

/-- `a["b"] !== null ? (a?.b!) : c` -/
example : Ternary options (fun _ => nullableString) [] (.binary .strictNotEq (.elem false (.ident "a") (.str false "b")) .null)
    (.paren (.nonNull (.prop true (.ident "a") "b" false))) (.ident "c") (.elem false (.ident "a") (.str false "b")) (.ident "c") :=
  (C101_ternary ..).1 (by decide)
/-- `x === undefined ? y : x` of a value that can be null, not undefined: left alone -/
example : ternary options (fun _ => nullableString) [] (.binary .strictEq x (.ident "undefined")) (.ident "y") x = none := by decide
/-- `x === null || x === undefined ? y : x` -/
example : Ternary options (fun _ => nullableString) [] (.binary .or (.binary .strictEq x .null) (.binary .strictEq x (.ident "undefined"))) (.ident "y") x x (.ident "y") :=
  (C101_ternary ..).1 (by decide)
/-- `if (!x) { x = y }`, and in a conditional test -/
example : If options (fun _ => nullableString) [] (.not x) (.block [.expression (.assign true x (.ident "y"))]) false x (.ident "y") := (C101_if ..).1 (by decide)
example : eligible options true [⟨true, .other⟩, ⟨false, .paren⟩, ⟨false, .not⟩, ⟨false, .test⟩] nullableString = false := by decide
/-- strings are ignored -/
example : eligible { options with ignorePrimitives := { isSet := true, objectVal := some ⟨false, false, false, true⟩ } } true [] nullableString = false := by decide

/-- `a || b || c && d`: nodes are 0: all, 1: `a || b`, 2: `a`, 3: `b`, 4: `c && d`, 5: `c`, 6: `d`; the inner `||` is connected with `&&`. -/
def sampleNodes : Nodes Nat where
  parent n := match n with
    | 1 => some 0
    | 2 => some 1
    | 3 => some 1
    | 4 => some 0
    | 5 => some 4
    | 6 => some 4
    | _ => none
  logical n := n == 0 || n == 1 || n == 4
  binary n := match n with
    | 0 => some (.or, 1, 4)
    | 1 => some (.or, 2, 3)
    | 4 => some (.and, 5, 6)
    | _ => none
  isAssign _ := false

example : mixed sampleNodes 30 1 2 3 = some true := by decide
example : Mixed sampleNodes 1 2 3 := (C101_mixed sampleNodes (fun _ _ => rfl) 30 1 2 3 true (by decide)).1 rfl
example : ∃ b, checkOr options sampleNodes 30 1 2 3 [⟨true, .other⟩] nullableString = some b := ⟨false, by decide⟩
/-- The conditions for termination hold in it. -/
example : ∀ c ∈ [0, 1, 2, 3, 4, 5, 6], ∀ x, (sampleNodes.parent c = some x ∨ ∃ op l r, sampleNodes.binary c = some (op, l, r) ∧ (x = l ∨ x = r)) → x ∈ [0, 1, 2, 3, 4, 5, 6] := by
  intro c hc x hx
  simp only [List.mem_cons, List.not_mem_nil, or_false] at hc
  rcases hc with rfl | rfl | rfl | rfl | rfl | rfl | rfl <;> simp [sampleNodes] at hx <;> simp <;> omega

end Tsgolint.Nullish
