import Verif.Model.OptionalOrReport
import Verif.Props.OptionalOr
import Verif.Props.OptionalReport

/-!
# C118: which OR chains prefer-optional-chain reports, and which it rewrites by itself
-/

namespace Tsgolint.OptionalChain

variable {V : Type}

open Expr

/-! ### What a reported chain is like -/

theorem truncate_prefix (T : Types) : ∀ c : List Operand, truncate T c <+: c
  | [] => ⟨[], rfl⟩
  | [x] => ⟨[], rfl⟩
  | x :: y :: rest => by
    rw [truncate]
    split
    · exact ⟨y :: rest, rfl⟩
    · obtain ⟨s, hs⟩ := truncate_prefix T (y :: rest)
      exact ⟨s, by rw [List.cons_append, hs]⟩

theorem checkedOr_some (a : Analysis) (b : Bool) (chain c : List Operand) (h : checkedOr a b chain = some c) :
    c = chain ∧ ∃ first second rest, c = first :: second :: rest ∧ (first.kind.guardStart = true → afterTypeof (second :: rest) = true) ∧ lastTests a b first (second :: rest) = true := by
  unfold checkedOr at h
  split at h
  · rename_i first second rest
    by_cases hc : ((first.kind.guardStart && !afterTypeof (second :: rest)) || !lastTests a b first (second :: rest)) = true
    · rw [if_pos hc] at h; cases h
    · rw [if_neg hc] at h
      cases h
      simp only [Bool.or_eq_true, Bool.and_eq_true, Bool.not_eq_true', not_or, not_and, Bool.not_eq_false] at hc
      exact ⟨rfl, first, second, rest, rfl, hc.1, hc.2⟩
  · cases h

/-- what is left without unsafe fixes -/
theorem orChecks_some (O : Options) (T : Types) (hO : O.allowUnsafe = false) (chain c : List Operand) (h : orChecks O T chain = some c) :
    notEnough T chain = false ∧ c = truncate T chain ∧ ∃ first second rest, c = first :: second :: rest ∧ (first.kind.guardStart = true → afterTypeof (second :: rest) = true) ∧
      lastTests (analyze true chain) (strictFits (analyze true chain) T chain) first (second :: rest) = true := by
  unfold orChecks at h
  rw [if_neg (by rw [hO]; decide)] at h
  by_cases hn : notEnough T chain = true
  · rw [if_pos hn] at h; cases h
  · rw [if_neg hn] at h
    obtain ⟨h1, h2⟩ := checkedOr_some _ _ _ _ h
    exact ⟨by simpa using hn, h1, h2⟩

theorem orChecks_prefix (O : Options) (T : Types) (chain c : List Operand) (h : orChecks O T chain = some c) : c <+: chain := by
  by_cases hO : O.allowUnsafe = true
  · unfold orChecks at h
    rw [if_pos hO] at h
    cases h; exact ⟨[], by simp⟩
  · rw [(orChecks_some O T (by simpa using hO) chain c h).2.1]
    exact truncate_prefix T chain

/-- the tests that a reported chain has passed -/
theorem reportsOr_parts (O : Options) (T : Types) (chain c : List Operand) (h : reportsOr O T chain = some c) :
    validChain O T false chain = true ∧ (∃ x ∈ chain, x.kind ≠ .plain) ∧ allSame chain = false ∧ negationOk O chain = true ∧ equalityOk O T chain = true ∧ plainOk O chain = true ∧
    orChecks O T chain = some c ∧ 2 ≤ c.length ∧ (O.allowUnsafe = false → strictThenNegated T c = false) ∧
    (O.allowUnsafe = false → ∀ x ∈ c, (x.kind = .plain ∨ x.kind = .not) → Info.changesReturn (T x.expr) = false) ∧ negatedThenCalled c = false := by
  unfold reportsOr at h
  by_cases hv : validChain O T false chain = true
  · rw [if_pos hv] at h
    unfold orReported at h
    by_cases hno : (chain.all (fun x => x.kind == .plain) || optimalOr T chain || allSame chain || needlessNull T chain || strictThenOptional T chain ||
      !negationOk O chain || !equalityOk O T chain || !plainOk O chain) = true
    · rw [if_pos hno] at h; cases h
    · rw [if_neg hno] at h
      simp only [Bool.or_eq_true, Bool.not_eq_true', not_or, Bool.not_eq_true, Bool.not_eq_false] at hno
      obtain ⟨⟨⟨⟨⟨⟨⟨h1, h2⟩, h3⟩, h4⟩, h5⟩, h6⟩, h7⟩, h8⟩ := hno
      cases hc' : orChecks O T chain with
      | none => rw [hc'] at h; cases h
      | some c' =>
        rw [hc'] at h
        simp only at h
        by_cases hno2 : (decide (c'.length < 2) || (!O.allowUnsafe && strictThenNegated T c') ||
          (!O.allowUnsafe && c'.any fun x => (x.kind == .plain || x.kind == .not) && Info.changesReturn (T x.expr)) || negatedThenCalled c') = true
        · rw [if_pos hno2] at h; cases h
        · rw [if_neg hno2] at h
          cases h
          simp only [Bool.or_eq_true, decide_eq_true_eq, not_or, Bool.not_eq_true] at hno2
          obtain ⟨⟨⟨g1, g2⟩, g3⟩, g4⟩ := hno2
          refine ⟨hv, ?_, h3, h6, h7, h8, rfl, by omega, ?_, ?_, g4⟩
          · rw [List.all_eq_false] at h1
            obtain ⟨x, hx, hk⟩ := h1
            exact ⟨x, hx, by simpa using hk⟩
          · intro hO; simpa [hO] using g2
          · intro hO x hx hk
            have g3' : (c.any fun x => (x.kind == .plain || x.kind == .not) && Info.changesReturn (T x.expr)) = false := by rw [hO] at g3; simpa using g3
            rw [List.any_eq_false] at g3'
            have := g3' x hx
            rcases hk with hk | hk <;> simpa [hk] using this
  · rw [if_neg hv] at h; cases h

/-- **C118** What is reported of an OR chain is a beginning of it with at least two operands; all operands have the same root, one is an access and one is no truth test; a negation
at the beginning is not reported if null or undefined is required. Without unsafe fixes no tested operand has a type of literals that cannot be null or undefined. -/
theorem or_reported (O : Options) (T : Types) (chain c : List Operand) (h : reportsOr O T chain = some c) :
    c <+: chain ∧ 2 ≤ c.length ∧ (∃ x ∈ chain, x.kind ≠ .plain) ∧ (∃ x ∈ chain, isAccess x.expr.skip = true) ∧
    (∀ x y, x ∈ chain → y ∈ chain → (base x.expr).bare = (base y.expr).bare) ∧
    (O.requireNullish = true → ∀ x, chain.head? = some x → x.kind ≠ .not) ∧
    (O.allowUnsafe = true → c = chain) ∧
    (O.allowUnsafe = false → ∀ x ∈ c, (x.kind = .plain ∨ x.kind = .not) → .null ∈ T x.expr ∨ .undef ∈ T x.expr ∨
      ∀ p ∈ T x.expr, p ∉ [Part.boolLit, .numLit, .strLit, .bigLit]) := by
  obtain ⟨h1, h2, h3, h4, h5, h6, h7, h8, h9, h10, h11⟩ := reportsOr_parts O T chain c h
  unfold validChain at h1
  simp only [Bool.and_eq_true, decide_eq_true_eq, Bool.not_eq_true'] at h1
  obtain ⟨⟨⟨hlen, hbase⟩, hacc⟩, hreq⟩ := h1
  refine ⟨orChecks_prefix O T chain c h7, h8, h2, by simpa [anyAccess] using hacc, ?_, ?_, ?_, ?_⟩
  · cases chain with
    | nil => intro x y hx; cases hx
    | cons first rest =>
      simp only [sameBase, List.all_eq_true] at hbase
      have hb : ∀ x ∈ first :: rest, (base x.expr).bare = (base first.expr).bare := by
        intro x hx
        rcases List.mem_cons.1 hx with rfl | hx
        · rfl
        · exact ((eq_iff _ _).1 (hbase x hx)).1.symm
      intro x y hx hy; rw [hb x hx, hb y hy]
  · intro hr x hx hk
    cases chain with
    | nil => cases hx
    | cons first rest =>
      cases hx
      unfold skipForRequire at hreq
      simp [hr, hk] at hreq
  · intro hO
    unfold orChecks at h7
    rw [if_pos hO] at h7; cases h7; rfl
  · intro hO x hx hk
    have := h10 hO x hx hk
    unfold Info.changesReturn at this
    simp only [Bool.and_eq_false_iff, Bool.or_eq_false_iff, Bool.not_eq_false', Info.explicitNullish, Info.hasNull, Info.hasUndef, Bool.or_eq_true, List.contains_iff_mem] at this
    rcases this with ⟨⟨⟨h1, h2⟩, h3⟩, h4⟩ | h | h
    · refine .inr (.inr ?_)
      intro p hp hm
      simp only [List.mem_cons, List.not_mem_nil, or_false] at hm
      have key : ∀ q, (T x.expr).contains q = false → q ∉ T x.expr := by intro q hq hmem; rw [List.contains_iff_mem.2 hmem] at hq; cases hq
      rcases hm with rfl | rfl | rfl | rfl
      · exact key _ h1 hp
      · exact key _ h2 hp
      · exact key _ h3 hp
      · exact key _ h4 hp
    · exact .inl h
    · exact .inr (.inl h)

/-! ### Comparisons -/

theorem afterNegation_last (x : Operand) (hk : x.kind = .comparison) : ∀ (init : List Operand) (seen : Bool), afterNegation seen (init ++ [x]) = true → orSafe x = true
  | [], seen, h => by
    simp only [List.nil_append, afterNegation, hk] at h
    simpa [Kind.nullishCheck] using h
  | y :: init, seen, h => by
    rw [List.cons_append, afterNegation] at h
    simp only [Bool.and_eq_true] at h
    exact afterNegation_last x hk init _ h.2

/-- **C118** Without unsafe fixes, a comparison at the end of a chain that begins with a negation is one that is true for undefined. -/
theorem or_trailing (O : Options) (T : Types) (hO : O.allowUnsafe = false) (first : Operand) (rest c : List Operand) (x : Operand)
    (h : reportsOr O T (first :: rest ++ [x]) = some c) (hf : first.kind = .not) (hk : x.kind = .comparison) : orSafe x = true := by
  have h4 := (reportsOr_parts O T _ c h).2.2.2.1
  unfold negationOk at h4
  simp only [List.cons_append, hf, hO, beq_self_eq_true, Bool.not_false, Bool.and_self, if_true] at h4
  split at h4
  · exact afterNegation_last x hk rest false h4
  · simp only [Bool.not_eq_true', List.any_eq_false, List.mem_append, List.mem_singleton] at h4
    have := h4 x (.inr rfl)
    simpa [hk] using this

theorem afterEquality_all (t : List Part) : ∀ (xs : List Operand), afterEquality t xs = true → ∀ a x b, xs = a ++ x :: b → afterEqualityOk t x b.isEmpty = true
  | [], _, a, x, b, h => by simp at h
  | y :: ys, h, a, x, b, e => by
    rw [afterEquality, Bool.and_eq_true] at h
    cases a with
    | nil => cases e; exact h.1
    | cons z a => cases e; exact afterEquality_all t _ h.2 a x b rfl

/-- **C118** Without unsafe fixes, after an equality with null or undefined every comparison is true for undefined or is itself an equality with null or undefined; one at the end
that is not true for undefined is reported only if the first operand's type has not both null and undefined, and neither any nor unknown. -/
theorem or_after_equality (O : Options) (T : Types) (hO : O.allowUnsafe = false) (first : Operand) (a : List Operand) (x : Operand) (b c : List Operand)
    (h : reportsOr O T (first :: a ++ x :: b) = some c) (hf : first.kind ∈ [.notBoth, .notNull, .notUndef]) (hk : x.kind = .comparison) :
    orSafe x = true ∨ (nullishComparison x = true ∧ (b = [] → ¬ (.null ∈ T first.expr ∧ .undef ∈ T first.expr) ∧ Part.any ∉ T first.expr ∧ Part.unknown ∉ T first.expr)) := by
  have h5 := (reportsOr_parts O T _ c h).2.2.2.2.1
  unfold equalityOk at h5
  have hf' : (first.kind == .notBoth || first.kind == .notNull || first.kind == .notUndef) = true := by
    simp only [List.mem_cons, List.not_mem_nil, or_false] at hf
    rcases hf with h | h | h <;> rw [h] <;> rfl
  simp only [List.cons_append, hO, Bool.not_false, Bool.true_and, hf', if_true] at h5
  have := afterEquality_all _ _ h5 a x b rfl
  unfold afterEqualityOk at this
  cases hs : orSafe x with
  | true => exact .inl rfl
  | false =>
    right
    simp only [hk, hs, beq_self_eq_true, Bool.not_false, Bool.and_self, if_true] at this
    split at this
    · rename_i hc
      simp only [Bool.and_eq_true, Bool.not_eq_true', Bool.and_eq_false_iff, Bool.or_eq_false_iff, Info.hasNull, Info.hasUndef, Info.hasAny, Info.hasUnknown] at hc this
      have key : ∀ q, (T first.expr).contains q = false → q ∉ T first.expr := by intro q hq hmem; rw [List.contains_iff_mem.2 hmem] at hq; cases hq
      refine ⟨hc.2, fun _ => ⟨?_, key _ this.2.1, key _ this.2.2⟩⟩
      rintro ⟨hn, hu⟩
      rcases this.1 with h | h
      · exact key _ h hn
      · exact key _ h hu
    · rename_i hc
      refine ⟨this, ?_⟩
      rintro rfl
      exact absurd (by simp [this]) hc

/-- **C118** Without unsafe fixes, after `typeof x === 'undefined'` there are no truth tests and negations, and every comparison is true for undefined. -/
theorem or_after_typeof (O : Options) (T : Types) (hO : O.allowUnsafe = false) (chain c : List Operand) (first : Operand) (rest : List Operand) (hc : c = first :: rest)
    (h : reportsOr O T chain = some c) (hf : first.kind = .typeof) : ∀ x ∈ rest, x.kind ≠ .plain ∧ x.kind ≠ .not ∧ (x.kind = .comparison → orSafe x = true) := by
  have h7 := (reportsOr_parts O T _ c h).2.2.2.2.2.2.1
  obtain ⟨_, _, f, s, r, e, hg, _⟩ := orChecks_some O T hO chain c h7
  rw [hc] at e
  cases e
  have hg := hg (by rw [hf]; rfl)
  simp only [afterTypeof, Bool.not_eq_true', List.any_eq_false] at hg
  intro x hx
  have := hg x hx
  simp only [Bool.or_eq_true, Bool.and_eq_true, beq_iff_eq, Bool.not_eq_true', not_or, not_and, Bool.not_eq_false] at this
  exact ⟨this.1.2, this.2, this.1.1⟩

/-- **C118** Without unsafe fixes, what is reported has no strict comparison, of a type with both null and undefined, any or unknown, that is followed by a negation of an access to it. -/
theorem or_no_strict_negated (O : Options) (T : Types) (hO : O.allowUnsafe = false) (chain c : List Operand) (h : reportsOr O T chain = some c) (a : List Operand) (g : Operand)
    (m : List Operand) (x : Operand) (b : List Operand) (hc : c = a ++ g :: m ++ x :: b) (hg : g.kind = .notNull ∨ g.kind = .notUndef)
    (ht : (.null ∈ T g.expr ∧ .undef ∈ T g.expr) ∨ .any ∈ T g.expr ∨ .unknown ∈ T g.expr) (hx : x.kind = .not) (hacc : isAccess x.expr.skip = true) :
    compare g.expr x.expr ≠ .equal ∧ compare g.expr x.expr ≠ .subset := by
  have h9 := (reportsOr_parts O T _ c h).2.2.2.2.2.2.2.2.1 hO
  have drop : ∀ (a rest : List Operand), strictThenNegated T (a ++ rest) = false → strictThenNegated T rest = false := by
    intro a
    induction a with
    | nil => intro rest h; exact h
    | cons y a ih => intro rest h; rw [List.cons_append, strictThenNegated, Bool.or_eq_false_iff] at h; exact ih rest h.2
  rw [hc, List.append_assoc] at h9
  have h9 := drop a _ h9
  rw [List.cons_append, strictThenNegated, Bool.or_eq_false_iff] at h9
  have h9 := h9.1
  have hs : g.kind.strictCheck = true := by rcases hg with h | h <;> rw [h] <;> rfl
  have ht' : (Info.anyOrUnknown (T g.expr) || Info.both (T g.expr)) = true := by
    simp only [Info.anyOrUnknown, Info.both, Info.hasAny, Info.hasUnknown, Info.hasNull, Info.hasUndef, Bool.or_eq_true, Bool.and_eq_true, List.contains_iff_mem]
    rcases ht with h | h | h
    · exact .inr h
    · exact .inl (.inl h)
    · exact .inl (.inr h)
  simp only [hs, ht', Bool.true_and, List.any_eq_false] at h9
  have := h9 x (by simp)
  simpa [hx, hacc] using this

/-- **C118** So for a chain that begins with a negation, is reported as a whole and ends in an equality with a literal, null or undefined, what the rule writes is truthy just when
the chain was, and has the same value where the guards let through. -/
theorem or_reported_meaning (W : World V) (hW : W.Lawful) (hL : W.LiteralsDefined) (O : Options) (T : Types) (hO : O.allowUnsafe = false) (g0 : Expr) (gs : List Expr) (lhs rhs : Expr) (o : Op) (t : Text)
    (ho : Equality o) (c : List Operand) (h : reportsOr O T (orParsed (g0 :: gs) (.binary lhs o t rhs)) = some c) (hfirst : (parse false g0).kind = .not)
    (hlink : Linked (orParsed (g0 :: gs) (.binary lhs o t rhs))) (hk : ∀ g ∈ g0 :: gs, OrGuard (parse false g)) (hl : (parse false (.binary lhs o t rhs)).kind = .comparison)
    (x y : Expr) (hxy : (x, y) = if onRight false lhs o rhs then (rhs, lhs) else (lhs, rhs)) (hx : isAccess x = true) (hy : isAccess y.unwrap = false)
    (hb : BangedName x) (hmarks : ∀ g ∈ g0 :: gs, KeepsMarks (parse false g).expr x) (hlt : ∀ g ∈ g0 :: gs, (parse false g).expr.size < x.size)
    (hcalm : Calm W x) (hyv : W.value y ≠ none) (hsym : onRight false lhs o rhs = true → ∀ a b, W.op o a b = W.op o b a)
    (hplain : ∀ g ∈ g0 :: gs, (parse false g).kind = .not → ∀ v, W.value (parse false g).expr = some v → W.truthy v = true ∨ W.Nullish v)
    (between code : Text) (hcode : orCode O between (orParsed (g0 :: gs) (.binary lhs o t rhs)) = some code) :
    ∃ e', code = e'.text ∧ e'.bare = (Expr.binary x o t y).bare ∧ ∀ r, W.disjunction (g0 :: gs ++ [.binary lhs o t rhs]) = some r → (W.value e' = some r ∨ (W.truthy r = true ∧ ∃ z, W.truthy z = true ∧ W.value e' = some z)) := by
  have hparsed : orParsed (g0 :: gs) (.binary lhs o t rhs) = parse false g0 :: gs.map (parse false) ++ [parse false (.binary lhs o t rhs)] := by rw [orParsed_eq]; rfl
  have hsafe : orSafe (parse false (.binary lhs o t rhs)) = true := or_trailing O T hO _ _ c _ (by rw [← hparsed]; exact h) hfirst hl
  have hx' : isParen x = false := by cases x <;> first | rfl | exact (nomatch hx)
  have hys : isAccess y.skip = false := by
    by_cases h : isAccess y.skip = true
    · have := (access_skip _ h).2; rw [unwrap_skip] at this; rw [this, h] at hy; exact absurd hy (by decide)
    · simpa using h
  have hother : otherSide lhs.skip rhs.skip = some y.skip := by
    unfold otherSide
    split at hxy
    · cases hxy
      rw [if_neg (by rw [hys]; decide), (access_skip _ hx).1, if_pos hx]
    · cases hxy
      rw [(access_skip _ hx).1, if_pos hx]
  refine or_comparison_meaning W hW O (g0 :: gs) lhs rhs o t (by rcases ho with rfl | rfl | rfl | rfl <;> simp [Op.eager]) (by simp) hlink hk (by rw [hl]; simp) x y hxy hx' hb hmarks hlt hcalm hyv
    hsym ?_ hplain between code hcode
  intro b hbv
  exact or_safe W hW hL _ hsafe hl lhs o t rhs (by rw [parse_node]; rfl) ho y.skip hother b (by rw [value_skip]; exact hbv)

/-! ### Fix or suggestion -/

/-- **C118** What is only suggested: without unsafe fixes, chains that do not end in a negation, `typeof` or a comparison of a simple expression with undefined; if they end in
another comparison, those that compare only with what the types have, or with undefined before null; none with a type that has both null and undefined, any or unknown. -/
theorem or_suggested (O : Options) (T : Types) (c : List Operand) (last : Operand) (hl : c.getLast? = some last) :
    orSuggests O T c = true ↔ O.allowUnsafe = false ∧ last.kind ∉ [.not, .isBoth, .notBoth, .isUndef, .notUndef, .typeof] ∧
      (last.kind.comparisonOrCheck = true → strictSuggests T c = true) ∧
      ∀ x ∈ c, Part.any ∉ T x.expr ∧ Part.unknown ∉ T x.expr ∧ ¬ (.null ∈ T x.expr ∧ .undef ∈ T x.expr) := by
  unfold orSuggests
  rw [hl]
  simp only [Bool.and_eq_true, Bool.not_eq_true', Bool.and_eq_false_imp, Bool.not_eq_false', List.any_eq_false, Bool.or_eq_true, not_or, Info.anyOrUnknown, Info.both, Info.hasAny, Info.hasUnknown,
    Info.hasNull, Info.hasUndef, List.contains_iff_mem]
  have hk : last.kind.fixedAtEnd = false ↔ last.kind ∉ [Kind.not, .isBoth, .notBoth, .isUndef, .notUndef, .typeof] := by
    cases last.kind <;> decide
  rw [hk]
  constructor
  · rintro ⟨⟨⟨h1, h2⟩, h3⟩, h4⟩
    exact ⟨h1, h2, h3, fun x hx => ⟨(h4 x hx).1.1, (h4 x hx).1.2, (h4 x hx).2⟩⟩
  · rintro ⟨h1, h2, h3, h4⟩
    exact ⟨⟨⟨h1, h2⟩, h3⟩, fun x hx => ⟨⟨(h4 x hx).1, (h4 x hx).2.1⟩, (h4 x hx).2.2⟩⟩

/-! ### Cases -/

/-- `x` is an object or undefined -/
def sampleOr : Types
  | .ident _ _ => [.undef, .object]
  | _ => [.null, .num]

/-- **C118** (a finding) `x == null || x.y === null` is rewritten to `x?.y === null` by itself although undefined is not `=== null`: for undefined it was true and becomes false. -/
theorem loose_then_null :
    reportsOr {} sampleOr (orParsed [.binary (sampleVar "u") .eq " == ".toList sampleNull] (.binary (sampleAccess "u" "y") .seq " === ".toList sampleNull)) =
      some (orParsed [.binary (sampleVar "u") .eq " == ".toList sampleNull] (.binary (sampleAccess "u" "y") .seq " === ".toList sampleNull)) ∧
    orSuggests {} sampleOr (orParsed [.binary (sampleVar "u") .eq " == ".toList sampleNull] (.binary (sampleAccess "u" "y") .seq " === ".toList sampleNull)) = false ∧
    orCode {} [] (orParsed [.binary (sampleVar "u") .eq " == ".toList sampleNull] (.binary (sampleAccess "u" "y") .seq " === ".toList sampleNull)) = some "u?.y === null".toList ∧
    lawfulWorld.disjunction [.binary (sampleVar "u") .eq " == ".toList sampleNull, .binary (sampleAccess "u" "y") .seq " === ".toList sampleNull] = some .tru ∧
    lawfulWorld.value (.binary (.prop (sampleVar "u") true ['y']) .seq " === ".toList sampleNull) = some .fls := by
  refine ⟨by rfl, by decide +kernel, by decide +kernel, ?_, ?_⟩
  · have h : lawfulWorld.value (.binary (sampleVar "u") .eq " == ".toList sampleNull) = some .tru := by
      rw [value_binary _ _ _ _ _ (by simp [Op.eager])]
      exact ⟨.undef, .null, by rw [World.value, sampleVar, World.eval]; rfl, by rw [World.value, sampleNull, World.eval]; rfl, rfl⟩
    rw [World.disjunction]
    · simp only [h]; exact if_pos rfl
    · simp
  · rw [value_binary _ _ _ _ _ (by simp [Op.eager])]
    refine ⟨.undef, .null, ?_, by rw [World.value, sampleNull, World.eval]; rfl, rfl⟩
    rw [World.value, World.eval, sampleVar, World.eval]
    have hv : lawfulWorld.var "u".toList = some .undef := rfl
    have hc : true = true ∧ lawfulWorld.Nullish Val.undef := ⟨rfl, .inl rfl⟩
    rw [hv]; simp only [Res.after, Res.link, if_pos hc]; rfl

/-- `x` is an object or undefined, `x.y` may also be null -/
def sampleCut : Types
  | .ident _ _ => [.undef, .object]
  | .prop (.ident _ _) _ _ => [.null, .undef, .object]
  | _ => [.object]

/-- `!u`, `u.y === null` -/
def sampleCutGuards : List Expr := [sampleNot (sampleVar "u"), .binary (sampleAccess "u" "y") .seq " === ".toList sampleNull]
/-- `!u.y.z` -/
def sampleCutLast : Expr := sampleNot (sampleProp (sampleAccess "u" "y") "z")

/-- **C118** (a finding) A chain is cut after a strict comparison of what may be null and undefined, and the comparison no longer guards what follows: `!u || u.y === null || !u.y.z`
is rewritten to `u?.y === null || !u.y.z` by itself, which throws where `u` is undefined. -/
theorem cut_unguarded :
    reportsOr {} sampleCut (orParsed sampleCutGuards sampleCutLast) = some (sampleCutGuards.map (parse false)) ∧
    orSuggests {} sampleCut (sampleCutGuards.map (parse false)) = false ∧
    orCode {} [] (sampleCutGuards.map (parse false)) = some "u?.y === null".toList ∧
    lawfulWorld.disjunction (sampleCutGuards ++ [sampleCutLast]) = some .tru ∧
    lawfulWorld.disjunction [.binary (.prop (sampleVar "u") true ['y']) .seq " === ".toList sampleNull, sampleCutLast] = none := by
  have hu : lawfulWorld.eval (sampleVar "u") = .val .undef .undef := by rw [sampleVar, World.eval]; rfl
  refine ⟨by rfl, by decide +kernel, by decide +kernel, ?_, ?_⟩
  · have h : lawfulWorld.value (sampleNot (sampleVar "u")) = some .tru := by rw [sampleNot, World.value, World.eval, hu]; rfl
    rw [sampleCutGuards, List.cons_append, World.disjunction]
    · simp only [h]; exact if_pos rfl
    · simp
  · have h : lawfulWorld.value (.binary (.prop (sampleVar "u") true ['y']) .seq " === ".toList sampleNull) = some .fls := by
      rw [value_binary _ _ _ _ _ (by simp [Op.eager])]
      refine ⟨.undef, .null, ?_, by rw [World.value, sampleNull, World.eval]; rfl, rfl⟩
      rw [World.value, World.eval, hu]
      have hc : true = true ∧ lawfulWorld.Nullish Val.undef := ⟨rfl, .inl rfl⟩
      simp only [Res.link, if_pos hc]; rfl
    have h2 : lawfulWorld.eval (sampleAccess "u" "y") = .fail := by
      rw [sampleAccess, sampleProp, World.eval, hu]
      have hc : ¬ (false = true ∧ lawfulWorld.Nullish Val.undef) := fun h => nomatch h.1
      simp only [Res.link, if_neg hc]; rfl
    have h3 : lawfulWorld.value sampleCutLast = none := by
      rw [sampleCutLast, sampleNot, World.value, World.eval, sampleProp, World.eval, h2]; rfl
    rw [World.disjunction]
    · simp only [h]
      rw [if_neg (by decide), World.disjunction, h3]
    · simp

/-- **C118** (a finding) So is `u === undefined || u.y === null` to `u?.y === null` if `u.y` may be both null and undefined, although undefined is not `=== null`; if it cannot be
undefined, this is only suggested. -/
theorem undefined_then_null :
    let chain := orParsed [.binary (sampleVar "u") .seq " === ".toList (sampleVar "undefined")] (.binary (sampleAccess "u" "y") .seq " === ".toList sampleNull)
    reportsOr {} sampleCut chain = some chain ∧ orSuggests {} sampleCut chain = false ∧ orCode {} [] chain = some "u?.y === null".toList ∧
    reportsOr {} sampleOr chain = some chain ∧ orSuggests {} sampleOr chain = true := by
  refine ⟨by rfl, by decide +kernel, by decide +kernel, by rfl, by decide +kernel⟩

/-! ### The hypotheses can be met -/

example : reportsOr {} sampleOr (orParsed [sampleNot (sampleVar "x")] (.binary (sampleAccess "x" "a") .sne " !== ".toList sampleFive)) =
    some (orParsed [sampleNot (sampleVar "x")] (.binary (sampleAccess "x" "a") .sne " !== ".toList sampleFive)) := by rfl

/-- `x.a !== 5` -/
def sampleOrEnd : Expr := .binary (sampleAccess "x" "a") .sne " !== ".toList sampleFive
example : reportsOr {} sampleOr (orParsed [sampleNot (sampleVar "x")] sampleOrEnd) ≠ none ∧ (parse false (sampleNot (sampleVar "x"))).kind = .not ∧ (parse false sampleOrEnd).kind = .comparison ∧
    isAccess (sampleAccess "x" "a") = true ∧ isAccess sampleFive.unwrap = false := ⟨nofun, rfl, rfl, rfl, rfl⟩
example : ∀ g ∈ [sampleNot (sampleVar "x")], (parse false g).kind = .not → ∀ v, lawfulWorld.value (parse false g).expr = some v → lawfulWorld.truthy v = true ∨ lawfulWorld.Nullish v := by
  intro g hg _ v hv
  rw [List.mem_singleton.1 hg] at hv
  have : lawfulWorld.value (parse false (sampleNot (sampleVar "x"))).expr = some (.num 3) := by
    have : (parse false (sampleNot (sampleVar "x"))).expr = sampleVar "x" := rfl
    rw [this, World.value, sampleVar, World.eval]; rfl
  rw [this] at hv; cases hv; exact .inl rfl
example : ∃ r, lawfulWorld.disjunction [sampleNot (sampleVar "x"), sampleOrEnd] = some r := by
  have hx : lawfulWorld.eval (sampleVar "x") = .val .undef (.num 3) := by rw [sampleVar, World.eval]; rfl
  have h : lawfulWorld.value (sampleNot (sampleVar "x")) = some .fls := by rw [sampleNot, World.value, World.eval, hx]; rfl
  have h2 : lawfulWorld.value sampleOrEnd = some .tru := by
    rw [sampleOrEnd, value_binary _ _ _ _ _ (by simp [Op.eager])]
    refine ⟨.num 2, .num 1, ?_, by rw [World.value, sampleFive, World.eval]; rfl, rfl⟩
    rw [World.value, sampleAccess, sampleProp, World.eval, hx]
    have hc : ¬ (false = true ∧ lawfulWorld.Nullish (Val.num 3)) := fun h => nomatch h.1
    simp only [Res.link, if_neg hc]; rfl
  refine ⟨.tru, ?_⟩
  rw [World.disjunction]
  · simp only [h]; rw [if_neg (by decide), World.disjunction, h2]
  · simp
/-- a comparison by which null passes at the end, after `==` -/
example : reportsOr {} sampleOr (orParsed [.binary (sampleVar "x") .eq " == ".toList sampleNull] (.binary (sampleAccess "x" "a") .seq " === ".toList sampleFive)) = none ∧
    reportsOr {} (fun _ => [.null, .undef, .object]) (orParsed [.binary (sampleVar "x") .eq " == ".toList sampleNull] (.binary (sampleAccess "x" "a") .seq " === ".toList sampleNull)) = none := ⟨rfl, rfl⟩
/-- after `typeof` -/
example : reportsOr {} sampleMaybe (orParsed [.binary (.typeof (sampleVar "x")) .seq " === ".toList (.literal 0 .string "undefined".toList)] sampleOrEnd) ≠ none ∧
    reportsOr {} sampleMaybe (orParsed [.binary (.typeof (sampleVar "x")) .seq " === ".toList (.literal 0 .string "undefined".toList)] (sampleNot (sampleAccess "x" "a"))) = none := ⟨nofun, rfl⟩
/-- a strict comparison, then a negation -/
example : reportsOr {} (fun _ => [.null, .object]) (orParsed [.binary (sampleVar "x") .seq " === ".toList sampleNull] (sampleNot (sampleAccess "x" "a"))) ≠ none ∧
    reportsOr {} (fun _ => [.null, .undef, .object]) (orParsed [.binary (sampleVar "x") .seq " === ".toList sampleNull] (sampleNot (sampleAccess "x" "a"))) = none := ⟨nofun, rfl⟩
/-- a suggestion and a fix -/
example : orSuggests {} sampleOr (orParsed [sampleNot (sampleVar "x")] sampleOrEnd) = false ∧
    orSuggests {} (fun _ => [.null, .object]) (orParsed [.binary (sampleVar "x") .seq " === ".toList sampleNull] sampleOrEnd) = true := by decide +kernel

end Tsgolint.OptionalChain
