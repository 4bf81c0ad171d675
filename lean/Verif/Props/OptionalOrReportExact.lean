import Verif.Spec.OptionalOrReport
import Verif.Props.OptionalReportExact
import Verif.Props.OptionalOrReport

/-!
# C118: just which OR chains prefer-optional-chain reports, and what of them
-/

namespace Tsgolint.OptionalChain

open Expr

/-! ### Words -/

theorem nullishEquality_iff (x : Operand) : nullishComparison x = true ↔ NullishEquality x := by
  unfold nullishComparison NullishEquality
  rw [Bool.and_eq_true, beq_iff_eq]
  refine and_congr_right fun _ => ?_
  constructor
  · intro h
    split at h
    · rename_i l o r hb
      simp only [Bool.and_eq_true, Bool.or_eq_true, beq_iff_eq, isNullishLit] at h
      refine ⟨o, h.1, (compares_nullish x o).2 ⟨l, r, hb, ?_⟩⟩
      rcases h.2 with (h | h) | (h | h) <;> simp [h]
    · exact (nomatch h)
  · rintro ⟨o, ho, h⟩
    obtain ⟨l, r, hb, h⟩ := (compares_nullish x o).1 h
    rw [hb]
    simp only [Bool.and_eq_true, Bool.or_eq_true, beq_iff_eq, isNullishLit] at h ⊢
    refine ⟨ho, ?_⟩
    rcases h with (h | h) | (h | h) <;> simp [h]

theorem nullEquality_iff (x : Operand) : nullComparison x = true ↔ NullEquality x := by
  unfold nullComparison NullEquality
  rw [Bool.and_eq_true, beq_iff_eq]
  refine and_congr_right fun _ => ?_
  constructor
  · intro h
    split at h
    · rename_i l o r hb
      simp only [Bool.and_eq_true, Bool.or_eq_true, beq_iff_eq] at h
      exact ⟨o, h.1, (compares_iff x o isNullLit).2 ⟨l, r, hb, by simpa using h.2⟩⟩
    · exact (nomatch h)
  · rintro ⟨o, ho, h⟩
    obtain ⟨l, r, hb, h⟩ := (compares_iff x o isNullLit).1 h
    rw [hb]
    simp only [Bool.and_eq_true, Bool.or_eq_true, beq_iff_eq] at h ⊢
    exact ⟨ho, h⟩

theorem strictlyWith_iff (p : Expr → Bool) (x : Operand) : strictlyWith p x = true ↔ Compares x .seq fun e => p e = true := by
  rw [compares_iff]
  unfold strictlyWith
  constructor
  · intro h
    split at h
    · rename_i l o r hb
      simp only [Bool.and_eq_true, beq_iff_eq] at h
      obtain ⟨rfl, h⟩ := h
      exact ⟨l, r, hb, h⟩
    · exact (nomatch h)
  · rintro ⟨l, r, hb, h⟩
    rw [hb]
    simpa using h

theorem testsNull_iff (x : Operand) : strictNullCheck x = true ↔ TestsNull x := by
  unfold TestsNull
  rw [show (NullExpr : Expr → Prop) = fun e => e.isNullLit = true from rfl, ← strictlyWith_iff]
  unfold strictNullCheck
  cases x.kind <;> simp

theorem testsUndef_iff (x : Operand) : strictUndefCheck x = true ↔ TestsUndef x := by
  unfold TestsUndef
  rw [show (UndefExpr : Expr → Prop) = fun e => e.isUndefLit = true from rfl, ← strictlyWith_iff]
  unfold strictUndefCheck
  cases x.kind <;> simp

theorem shorterUndef_iff (chain : List Operand) : shorterUndefCheck chain = true ↔ ShorterUndef chain := by
  rcases List.eq_nil_or_concat chain with rfl | ⟨init, last, rfl⟩
  · simp [shorterUndefCheck, ShorterUndef]
  · rw [List.concat_eq_append]
    unfold shorterUndefCheck ShorterUndef
    rw [List.getLast?_concat, List.dropLast_concat]
    simp only [Bool.and_eq_true, decide_eq_true_eq, List.any_eq_true, testsNull_iff, testsUndef_iff, flat_length]
    constructor
    · rintro ⟨⟨_, h1⟩, h2⟩; exact ⟨init, last, rfl, h1, h2⟩
    · rintro ⟨i, l, he, h1, h2⟩
      obtain ⟨rfl, h⟩ := List.append_inj' he rfl
      cases h
      refine ⟨⟨?_, h1⟩, h2⟩
      obtain ⟨x, hx, _⟩ := h2
      have := List.length_pos_of_mem hx
      simp; omega

theorem looseEquality_iff (x : Operand) : looseComparison x = true ↔ LooseEquality x := by
  unfold looseComparison LooseEquality
  rw [Bool.and_eq_true, beq_iff_eq]
  refine and_congr_right fun _ => ?_
  constructor
  · intro h
    split at h
    · rename_i l o t r hn
      simp only [Bool.and_eq_true, Bool.or_eq_true, beq_iff_eq] at h
      obtain ⟨rfl, h⟩ := h
      exact ⟨l, t, r, hn, by rwa [or_assoc] at h⟩
    · exact (nomatch h)
  · rintro ⟨l, t, r, hn, h⟩
    rw [hn]
    simp only [beq_self_eq_true, Bool.true_and, Bool.or_eq_true]
    rw [or_assoc]
    exact h

theorem strictOperand_iff (chain : List Operand) : allStrict chain = true ↔ ∀ x ∈ chain, StrictOperand x := by
  unfold allStrict
  rw [Bool.not_eq_true', List.any_eq_false]
  refine forall_congr' fun x => imp_congr_right fun _ => ?_
  unfold StrictOperand
  rw [← looseEquality_iff]
  cases x.kind <;> simp [Kind.looseCheck]

theorem literal_not_nullish (e : Expr) (h : e.isLiteralNode = true) : e.isNullLit = false ∧ e.isUndefLit = false ∧ e.isIdent = false := by
  unfold isLiteralNode at h
  split at h <;> first | exact ⟨rfl, rfl, rfl⟩ | exact (nomatch h)

theorem unsafeComparison_iff (x : Operand) : orSafe x = false ↔ UnsafeComparison x := by
  unfold orSafe UnsafeComparison
  by_cases hk : x.kind = .comparison
  · rw [if_neg (by simp [hk]), and_iff_right hk]
    have hw : ∀ o v, ComparedWith x o v ↔ ∃ l r, binaryParts x.node = some (l, o, r) ∧ otherSide l r = some v := by
      intro o v
      unfold ComparedWith
      simp only [binaryParts_iff]
      have hs : ∀ l r : Expr, otherSide l r = some v ↔ ((l.isAccess = true ∧ v = r) ∨ (l.isAccess = false ∧ r.isAccess = true ∧ v = l)) := by
        intro l r
        unfold otherSide
        cases l.isAccess <;> cases r.isAccess <;> simp [eq_comm]
      simp only [hs]
      constructor
      · rintro ⟨l, t, r, hn, h⟩; exact ⟨_, _, ⟨l, t, r, hn, rfl, rfl⟩, h⟩
      · rintro ⟨_, _, ⟨l, t, r, hn, rfl, rfl⟩, h⟩; exact ⟨l, t, r, hn, h⟩
    have ho : ∀ o v, orSafeOp o v = false ↔ (match o with
        | .sne => ¬ LiteralExpr v ∧ ¬ NullExpr v
        | .seq => ¬ UndefExpr v
        | .ne => ¬ LiteralExpr v
        | .eq => ¬ NullExpr v ∧ ¬ UndefExpr v
        | .lt | .gt | .le | .ge => True
        | _ => False) := by
      intro o v
      unfold LiteralExpr NullExpr UndefExpr
      have hl := literal_not_nullish v
      cases o <;> simp only [orSafeOp] <;> try simp
      cases hlit : v.isLiteralNode
      · cases v.isNullLit <;> cases v.isUndefLit <;> cases v.isIdent <;> simp
      · obtain ⟨h1, h2, h3⟩ := hl hlit; simp [h1, h2, h3]
    constructor
    · intro h
      split at h
      · exact (nomatch h)
      · rename_i l o r hb
        split at h
        · exact (nomatch h)
        · rename_i v hv
          exact ⟨o, v, (hw o v).2 ⟨l, r, hb, hv⟩, (ho o v).1 h⟩
    · rintro ⟨o, v, hc, h⟩
      obtain ⟨l, r, hb, hv⟩ := (hw o v).1 hc
      rw [hb]
      simp only [hv]
      exact (ho o v).2 h
  · rw [if_pos (by simpa using hk)]; simp [hk]

theorem unsafe_kind (x : Operand) (h : UnsafeComparison x) : x.kind = .comparison := h.1

theorem unsafe_and (x : Operand) : (x.kind == .comparison && !orSafe x) = true ↔ UnsafeComparison x := by
  rw [Bool.and_eq_true, beq_iff_eq, Bool.not_eq_true', unsafeComparison_iff]
  exact ⟨fun h => h.2, fun h => ⟨h.1, h⟩⟩

theorem safe_and (x : Operand) : (x.kind == .comparison && orSafe x) = true ↔ x.kind = .comparison ∧ ¬ UnsafeComparison x := by
  rw [Bool.and_eq_true, beq_iff_eq, ← unsafeComparison_iff, Bool.not_eq_false]

/-! ### The chain as a whole -/

theorem afterNegation_iff : ∀ (rest before : List Operand) (seen : Bool), (seen = true ↔ ∃ y ∈ before, NullishEquality y) →
    (afterNegation seen rest = true ↔ ∀ a x b, rest = a ++ x :: b → FitsNegation (before ++ a) x b)
  | [], before, seen, _ => by simp [afterNegation]
  | x :: rest, before, seen, hs => by
    have hm : (x.kind == .comparison && nullishComparison x && !rest.isEmpty) = true ↔ NullishEquality x ∧ rest ≠ [] := by
      rw [Bool.and_eq_true, Bool.and_eq_true, nullishEquality_iff, beq_iff_eq]
      have : (!rest.isEmpty) = true ↔ rest ≠ [] := by cases rest <;> simp
      rw [this]
      exact ⟨fun h => ⟨h.1.2, h.2⟩, fun h => ⟨⟨h.1.1, h.1⟩, h.2⟩⟩
    have hk : x.kind.nullishCheck = true ↔ x.kind ∈ [.notNull, .notUndef, .notBoth, .isNull, .isBoth, .isUndef, .typeof] := by cases x.kind <;> simp [Kind.nullishCheck]
    have hhead : (x.kind == .not || (x.kind == .comparison && orSafe x) || (x.kind == .comparison && nullishComparison x && !rest.isEmpty) || x.kind.nullishCheck ||
        (x.kind == .plain && rest.isEmpty && (seen || (x.kind == .comparison && nullishComparison x && !rest.isEmpty)))) = true ↔ FitsNegation before x rest := by
      rw [Bool.or_eq_true, Bool.or_eq_true, Bool.or_eq_true, Bool.or_eq_true, hm, hk, safe_and, beq_iff_eq, Bool.and_eq_true, Bool.and_eq_true, beq_iff_eq, Bool.or_eq_true, hs, hm]
      unfold FitsNegation
      rw [or_assoc, or_assoc, or_assoc]
      refine or_congr Iff.rfl (or_congr Iff.rfl (or_congr Iff.rfl (or_congr Iff.rfl ?_)))
      rw [List.isEmpty_iff]
      constructor
      · rintro ⟨⟨h1, h2⟩, h3 | h3⟩
        · exact ⟨h1, h2, h3⟩
        · exact absurd h2 h3.2
      · rintro ⟨h1, h2, h3⟩; exact ⟨⟨h1, h2⟩, .inl h3⟩
    rw [show afterNegation seen (x :: rest) = ((x.kind == .not || (x.kind == .comparison && orSafe x) || (x.kind == .comparison && nullishComparison x && !rest.isEmpty) || x.kind.nullishCheck ||
        (x.kind == .plain && rest.isEmpty && (seen || (x.kind == .comparison && nullishComparison x && !rest.isEmpty)))) &&
        afterNegation (seen || (x.kind == .comparison && nullishComparison x && !rest.isEmpty)) rest) from rfl, Bool.and_eq_true, hhead]
    have hcons : (∀ a y b, x :: rest = a ++ y :: b → FitsNegation (before ++ a) y b) ↔ FitsNegation before x rest ∧ ∀ a y b, rest = a ++ y :: b → FitsNegation (before ++ [x] ++ a) y b := by
      constructor
      · intro h
        refine ⟨by simpa using h [] x rest rfl, fun a y b he => ?_⟩
        have := h (x :: a) y b (by rw [he]; rfl)
        simpa using this
      · rintro ⟨h1, h2⟩ a y b he
        cases a with
        | nil => cases he; simpa using h1
        | cons z a =>
          rw [List.cons_append, List.cons.injEq] at he
          obtain ⟨rfl, he⟩ := he
          have := h2 a y b he
          simpa using this
    rw [hcons]
    refine and_congr_right fun _ => ?_
    cases rest with
    | nil => simp [afterNegation]
    | cons z zs =>
      refine afterNegation_iff (z :: zs) (before ++ [x]) _ ?_
      rw [Bool.or_eq_true, hs, hm]
      simp only [List.mem_append, List.mem_singleton]
      constructor
      · rintro (⟨y, hy, h⟩ | ⟨h, _⟩)
        · exact ⟨y, .inl hy, h⟩
        · exact ⟨x, .inr rfl, h⟩
      · rintro ⟨y, hy | rfl, h⟩
        · exact .inl ⟨y, hy, h⟩
        · exact .inr ⟨h, nofun⟩

theorem afterEquality_iff (t : List Part) : ∀ rest : List Operand, afterEquality t rest = true ↔ ∀ a x b, rest = a ++ x :: b → FitsEquality t x b
  | [] => by simp [afterEquality]
  | x :: rest => by
    have hhead : afterEqualityOk t x rest.isEmpty = true ↔ FitsEquality t x rest := by
      unfold afterEqualityOk FitsEquality
      by_cases hu : (x.kind == .comparison && !orSafe x) = true
      · rw [if_pos hu]
        have hU := (unsafe_and x).1 hu
        rw [imp_iff_right hU]
        by_cases hn : nullishComparison x = true
        · have hN := (nullishEquality_iff x).1 hn
          rw [hn, Bool.and_true]
          cases rest with
          | nil =>
            simp only [List.isEmpty_nil, if_true, hN, true_and, forall_const]
            rw [Bool.and_eq_true, Bool.not_eq_true', Bool.not_eq_true', ← Bool.not_eq_true, ← Bool.not_eq_true]
            exact and_congr (not_congr (nullAndUndef_iff t)) (not_congr (untyped_iff t))
          | cons y ys => simp [hN]
        · have hN : ¬ NullishEquality x := fun h => hn ((nullishEquality_iff x).2 h)
          simp [hn, hN]
      · rw [if_neg hu]
        have hU : ¬ UnsafeComparison x := fun h => hu ((unsafe_and x).2 h)
        simp [hU]
    rw [afterEquality, Bool.and_eq_true, hhead, afterEquality_iff t rest]
    constructor
    · rintro ⟨h1, h2⟩ a y b he
      cases a with
      | nil => cases he; exact h1
      | cons z a =>
        rw [List.cons_append, List.cons.injEq] at he
        exact h2 a y b he.2
    · intro h
      exact ⟨h [] x rest rfl, fun a y b he => h (x :: a) y b (by rw [he]; rfl)⟩

theorem access_iff (e : Expr) : isAccess (skip e) = true ↔ ReachesIn e := Iff.rfl

theorem negationOk_iff (O : Options) (first : Operand) (rest : List Operand) : negationOk O (first :: rest) = true ↔
    (O.allowUnsafe = false → first.kind = .not → (¬ ReachesIn first.expr → ∀ a x b, rest = a ++ x :: b → FitsNegation a x b) ∧ (ReachesIn first.expr → ∀ x ∈ rest, ¬ UnsafeComparison x)) := by
  rw [show negationOk O (first :: rest) = if (first.kind == .not && !O.allowUnsafe) = true then
      (if (!isAccess (skip first.expr)) = true then afterNegation false rest else !rest.any fun x => x.kind == .comparison && !orSafe x) else true from rfl]
  by_cases h : (first.kind == .not && !O.allowUnsafe) = true
  · rw [if_pos h]
    simp only [Bool.and_eq_true, beq_iff_eq, Bool.not_eq_true'] at h
    rw [imp_iff_right h.2, imp_iff_right h.1]
    by_cases ha : (!isAccess (skip first.expr)) = true
    · rw [if_pos ha]
      have ha' : ¬ ReachesIn first.expr := by unfold ReachesIn; simpa using ha
      simp only [ha', not_false_eq_true, forall_const, false_implies, and_true]
      have := afterNegation_iff rest [] false (by simp)
      simpa using this
    · rw [if_neg ha]
      have ha' : ReachesIn first.expr := by unfold ReachesIn; simpa using ha
      simp only [ha', not_true_eq_false, false_implies, true_and, forall_const]
      rw [Bool.not_eq_true', List.any_eq_false]
      exact forall_congr' fun x => imp_congr_right fun _ => not_congr (unsafe_and x)
  · rw [if_neg h]
    simp only [true_iff]
    intro hO hk
    exact absurd (by simp [hO, hk]) h

theorem equalityOk_iff (O : Options) (T : Types) (first : Operand) (rest : List Operand) : equalityOk O T (first :: rest) = true ↔
    (O.allowUnsafe = false → first.kind ∈ [.notBoth, .notNull, .notUndef] → ∀ a x b, rest = a ++ x :: b → FitsEquality (T first.expr) x b) := by
  rw [show equalityOk O T (first :: rest) = if (!O.allowUnsafe && (first.kind == .notBoth || first.kind == .notNull || first.kind == .notUndef)) = true then
      afterEquality (T first.expr) rest else true from rfl]
  have hk : (first.kind == .notBoth || first.kind == .notNull || first.kind == .notUndef) = true ↔ first.kind ∈ [.notBoth, .notNull, .notUndef] := by simp [or_assoc]
  by_cases h : (!O.allowUnsafe && (first.kind == .notBoth || first.kind == .notNull || first.kind == .notUndef)) = true
  · rw [if_pos h, afterEquality_iff]
    rw [Bool.and_eq_true, hk, Bool.not_eq_true'] at h
    rw [imp_iff_right h.1, imp_iff_right h.2]
  · rw [if_neg h]
    simp only [true_iff]
    intro hO hk'
    exact absurd (by rw [hk.2 hk', hO]; rfl) h

theorem plainOk_iff (O : Options) (first : Operand) (rest : List Operand) : plainOk O (first :: rest) = true ↔
    (first.kind = .plain → (∀ p n t, first.expr.skip ≠ .metaProp p n t) ∧ (O.allowUnsafe = false → ¬ ReachesIn first.expr → ∀ x ∈ rest, x.kind ≠ .comparison)) := by
  rw [show plainOk O (first :: rest) = if (first.kind == .plain) = true then
      !isMeta (skip first.expr) && !(!O.allowUnsafe && !isAccess (skip first.expr) && rest.any fun x => x.kind == .comparison) else true from rfl]
  by_cases h : (first.kind == .plain) = true
  · rw [if_pos h]
    rw [imp_iff_right (by simpa using h), Bool.and_eq_true]
    refine and_congr ?_ ?_
    · generalize first.expr.skip = e
      cases e <;> simp [isMeta]
    · unfold ReachesIn
      simp only [Bool.not_eq_true', Bool.and_eq_false_imp, Bool.and_eq_true, List.any_eq_false, beq_iff_eq, and_imp, Bool.not_eq_true]
  · rw [if_neg h]
    simp only [true_iff]
    intro hk; exact absurd (by simpa using hk) h

theorem needlessNull_iff (T : Types) (first : Operand) (rest : List Operand) : needlessNull T (first :: rest) = true ↔
    LaterMarked (first :: rest) ∧ (first.kind ∈ [.isNull, .isBoth] ∨ NullEquality first) ∧ ∀ x ∈ first :: rest, .null ∉ T x.expr ∧ .undef ∉ T x.expr := by
  rw [show needlessNull T (first :: rest) = (laterOptional (first :: rest) && (first.kind == .isNull || first.kind == .isBoth || nullComparison first) &&
    !(first :: rest).any fun x => Info.hasNull (T x.expr) || Info.hasUndef (T x.expr)) from rfl]
  rw [Bool.and_eq_true, Bool.and_eq_true, laterOptional_iff, Bool.or_eq_true, Bool.or_eq_true, nullEquality_iff, Bool.not_eq_true', List.any_eq_false, and_assoc]
  refine and_congr Iff.rfl (and_congr (or_congr (by simp) Iff.rfl) ?_)
  exact forall_congr' fun x => imp_congr_right fun _ => by simp [Info.hasNull, Info.hasUndef]

theorem strictThenOptional_iff (T : Types) (chain : List Operand) : strictThenOptional T chain = true ↔
    LaterMarked chain ∧ (∀ x ∈ chain, StrictOperand x) ∧ ((∃ x ∈ chain, .null ∈ T x.expr) ↔ ∃ x ∈ chain, .undef ∈ T x.expr) := by
  unfold strictThenOptional
  rw [Bool.and_eq_true, Bool.and_eq_true, laterOptional_iff, strictOperand_iff, and_assoc]
  refine and_congr Iff.rfl (and_congr Iff.rfl ?_)
  have hn : (chain.any fun x => Info.hasNull (T x.expr)) = true ↔ ∃ x ∈ chain, .null ∈ T x.expr := by simp [Info.hasNull]
  have hu : (chain.any fun x => Info.hasUndef (T x.expr)) = true ↔ ∃ x ∈ chain, .undef ∈ T x.expr := by simp [Info.hasUndef]
  rw [← hn, ← hu]
  cases (chain.any fun x => Info.hasNull (T x.expr)) <;> cases (chain.any fun x => Info.hasUndef (T x.expr)) <;> simp

theorem optimalOr_iff (T : Types) (chain : List Operand) : optimalOr T chain = true ↔
    ∃ first second rest, chain = first :: second :: rest ∧ LaterMarked chain ∧ first.kind = .isNull ∧ .undef ∉ T first.expr ∧ ¬ Untyped (T first.expr) := by
  match chain with
  | [] => simp [optimalOr]
  | [x] => simp [optimalOr]
  | first :: second :: rest =>
    rw [show optimalOr T (first :: second :: rest) = (laterOptional (first :: second :: rest) && first.kind == .isNull && !Info.hasUndef (T first.expr) && !Info.hasAny (T first.expr) &&
      !Info.hasUnknown (T first.expr)) from rfl]
    simp only [Bool.and_eq_true, laterOptional_iff, beq_iff_eq, Bool.not_eq_true', Info.hasUndef, Info.hasAny, Info.hasUnknown, ← Bool.not_eq_true, List.contains_iff_mem, Untyped, not_or]
    constructor
    · rintro ⟨⟨⟨⟨h1, h2⟩, h3⟩, h4⟩, h5⟩; exact ⟨first, second, rest, rfl, h1, h2, h3, h4, h5⟩
    · rintro ⟨f, s, r, he, h1, h2, h3, h4, h5⟩; cases he; exact ⟨⟨⟨⟨h1, h2⟩, h3⟩, h4⟩, h5⟩

/-- the first tests of `orReported` -/
def wholePassed (O : Options) (T : Types) (chain : List Operand) : Bool :=
  chain.all (fun x => x.kind == .plain) || optimalOr T chain || allSame chain || needlessNull T chain || strictThenOptional T chain ||
    !negationOk O chain || !equalityOk O T chain || !plainOk O chain

theorem flip_not (b : Bool) : (!b) = true ↔ ¬ b = true := by cases b <;> simp

theorem wholePassed_iff (O : Options) (T : Types) (chain : List Operand) (hne : chain ≠ []) : wholePassed O T chain = true ↔ OrPassed O T chain := by
  obtain ⟨first, rest, rfl⟩ : ∃ first rest, chain = first :: rest := by
    cases chain with
    | nil => exact absurd rfl hne
    | cons f r => exact ⟨f, r, rfl⟩
  unfold wholePassed
  have e1 := (flip_not (negationOk O (first :: rest))).trans (not_congr (negationOk_iff O first rest))
  have e2 := (flip_not (equalityOk O T (first :: rest))).trans (not_congr (equalityOk_iff O T first rest))
  have e3 := (flip_not (plainOk O (first :: rest))).trans (not_congr (plainOk_iff O first rest))
  rw [Bool.or_eq_true, Bool.or_eq_true, Bool.or_eq_true, Bool.or_eq_true, Bool.or_eq_true, Bool.or_eq_true, Bool.or_eq_true, optimalOr_iff, allSame_iff, needlessNull_iff, strictThenOptional_iff, e1, e2, e3]
  constructor
  · rintro (((((((h | h) | h) | h) | h) | h) | h) | h)
    · exact .truths (by simpa using h)
    · obtain ⟨f, s, r, h1, h2, h3, h4, h5⟩ := h; exact .onlyNull f s r h1 h2 h3 h4 h5
    · exact .repeated h.1 h.2
    · exact .needlessNull first rfl h.1 h.2.1 h.2.2
    · exact .strictThenMarked h.1 h.2.1 h.2.2
    · simp only [Classical.not_imp, Classical.not_and_iff_not_or_not, Classical.not_forall] at h
      obtain ⟨hO, hk, h⟩ := h
      rcases h with ⟨ha, a, x, b, he, h⟩ | ⟨ha, x, hx, h⟩
      · exact .negatedName first a x b hO (by rw [he]; rfl) hk ha h
      · exact .negatedAccess first rest x hO rfl hk ha hx (Classical.not_not.1 h)
    · simp only [Classical.not_imp, Classical.not_forall] at h
      obtain ⟨hO, hk, a, x, b, he, h⟩ := h
      exact .equality first a x b hO (by rw [he]; rfl) hk h
    · simp only [Classical.not_imp, Classical.not_and_iff_not_or_not, Classical.not_forall, ne_eq, Classical.not_not] at h
      obtain ⟨hk, h⟩ := h
      rcases h with ⟨p, n, t, h⟩ | ⟨hO, ha, x, hx, h⟩
      · exact .metaProperty first p n t rfl hk h
      · exact .plainName first rest x hO rfl hk ha hx h
  · intro h
    cases h with
    | truths h => exact .inl (.inl (.inl (.inl (.inl (.inl (.inl (by simpa using h)))))))
    | onlyNull f s r h1 h2 h3 h4 h5 => exact .inl (.inl (.inl (.inl (.inl (.inl (.inr ⟨f, s, r, h1, h2, h3, h4, h5⟩))))))
    | repeated h1 h2 => exact .inl (.inl (.inl (.inl (.inl (.inr ⟨h1, h2⟩)))))
    | needlessNull f hf h1 h2 h3 => cases hf; exact .inl (.inl (.inl (.inl (.inr ⟨h1, h2, h3⟩))))
    | strictThenMarked h1 h2 h3 => exact .inl (.inl (.inl (.inr ⟨h1, h2, h3⟩)))
    | negatedName f a x b hO he hk ha h =>
      rw [List.cons_append, List.cons.injEq] at he
      obtain ⟨rfl, he⟩ := he
      exact .inl (.inl (.inr fun hn => h ((hn hO hk).1 ha a x b he)))
    | negatedAccess f r x hO he hk ha hx h => cases he; exact .inl (.inl (.inr fun hn => (hn hO hk).2 ha x hx h))
    | equality f a x b hO he hk h =>
      rw [List.cons_append, List.cons.injEq] at he
      obtain ⟨rfl, he⟩ := he
      exact .inl (.inr fun hn => h (hn hO hk a x b he))
    | metaProperty f p n t hf hk h => cases hf; exact .inr fun hn => (hn hk).1 p n t h
    | plainName f r x hO he hk ha hx h => cases he; exact .inr fun hn => (hn hk).2 hO ha x hx h

/-! ### Checks for only one of null and undefined -/

theorem typeFits_iff (chain : List Operand) (t : List Part) : typeFits (analyze true chain) t = true ↔ Suffices true chain t := by
  unfold typeFits Suffices
  obtain ⟨hn, hu⟩ := onlyTests_iff true chain
  rw [← hn, ← hu]
  rw [Bool.or_eq_true, noNullable_iff, Bool.and_eq_true, Bool.and_eq_true, Bool.and_eq_true, Bool.not_eq_true', untyped_false, Bool.not_eq_true', ← Bool.not_eq_true, nullAndUndef_iff,
    and_assoc, and_assoc]
  refine or_congr Iff.rfl (and_congr Iff.rfl (and_congr Iff.rfl (and_congr ?_ ?_)))
  · simp only [Info.hasNull, Info.hasUndef, Bool.not_eq_true', Bool.and_eq_false_imp, Bool.and_eq_true, ← Bool.not_eq_true, List.contains_iff_mem]
    constructor
    · intro h h1 h2; exact Classical.byContradiction fun h3 => h ⟨⟨h1, h3⟩, h2⟩
    · rintro h ⟨⟨h1, h3⟩, h2⟩; exact h3 (h h1 h2)
  · simp only [Info.hasNull, Info.hasUndef, Bool.not_eq_true', Bool.and_eq_false_imp, Bool.and_eq_true, ← Bool.not_eq_true, List.contains_iff_mem]
    constructor
    · intro h h1 h2; exact Classical.byContradiction fun h3 => h ⟨⟨h1, h2⟩, h3⟩
    · rintro h ⟨⟨h1, h2⟩, h3⟩; exact h3 (h h1 h2)

theorem typesSuffice_iff (T : Types) (chain : List Operand) : strictFits (analyze true chain) T chain = true ↔ TypesSuffice T chain := by
  unfold strictFits TypesSuffice
  rw [Bool.and_eq_true, List.all_eq_true, List.any_eq_true]
  simp only [typeFits_iff, Bool.not_eq_true', ← Bool.not_eq_true, noNullable_iff, Classical.not_not]

theorem incomplete_tests (chain : List Operand) : (analyze true chain).incomplete = true ↔ ∃ a, a ≠ .both ∧ OnlyTests true a chain := by
  unfold Analysis.incomplete
  rw [Bool.or_eq_true, (onlyTests_iff true chain).1, (onlyTests_iff true chain).2]
  constructor
  · rintro (h | h)
    · exact ⟨.null, nofun, h⟩
    · exact ⟨.undef, nofun, h⟩
  · rintro ⟨a, ha, h⟩
    cases a with
    | null => exact .inl h
    | undef => exact .inr h
    | both => exact absurd rfl ha

theorem trailingOptional_iff (chain : List Operand) : trailingOptional chain = false ↔ ∀ init l, chain = init ++ [l] → init ≠ [] → ¬ HasMark l.expr := by
  rcases List.eq_nil_or_concat chain with rfl | ⟨i, l, rfl⟩
  · simp [trailingOptional]
  · rw [List.concat_eq_append]
    unfold trailingOptional
    rw [List.getLast?_concat]
    simp only [Bool.and_eq_false_imp, decide_eq_true_eq, hasOptional_false]
    constructor
    · intro h init l' he hne
      obtain ⟨rfl, h'⟩ := List.append_inj' he rfl
      cases h'
      apply h
      have := List.length_pos_iff.2 hne
      simp; omega
    · intro h hl
      exact h i l rfl (by rintro rfl; simp at hl)

theorem notEnough_iff (T : Types) (chain : List Operand) : notEnough T chain = true ↔ NotEnough T chain := by
  unfold notEnough NotEnough
  have hb : (analyze true chain).incomplete = true → (analyze true chain).both = false := by
    intro h
    unfold Analysis.incomplete Analysis.onlyNull Analysis.onlyUndef at h
    cases hh : (analyze true chain).both
    · rfl
    · rw [hh] at h; simp at h
  have hc : (analyze true chain).incomplete = true → (neverNullish T chain = false ↔ ∃ x, chain.head? = some x ∧ CanBe (T x.expr)) := by
    intro h
    cases chain with
    | nil => exact absurd h (by decide)
    | cons x xs => simp [neverNullish, canBe_iff]
  simp only [Bool.and_eq_true, Bool.not_eq_true']
  constructor
  · rintro ⟨⟨⟨⟨_, h1⟩, h2⟩, h3⟩, h4⟩
    exact ⟨(incomplete_tests chain).1 h4, (hc h4).1 h1, (trailingOptional_iff chain).1 h2, fun h => by rw [(typesSuffice_iff T chain).2 h] at h3; cases h3⟩
  · rintro ⟨h4, h1, h2, h3⟩
    have h4 := (incomplete_tests chain).2 h4
    exact ⟨⟨⟨⟨hb h4, (hc h4).2 h1⟩, (trailingOptional_iff chain).2 h2⟩, by rw [← Bool.not_eq_true, typesSuffice_iff]; exact h3⟩, h4⟩

/-! ### Where the chain is cut -/

theorem stops_iff (T : Types) (x : Operand) : stopsHere T x = true ↔ Stops T x := by
  unfold stopsHere Stops NullAndUndef
  rw [Bool.and_eq_true, Bool.and_eq_true, Bool.and_eq_true, Bool.not_eq_true', hasOptional_false, and_assoc, and_assoc]
  refine and_congr Iff.rfl ?_
  rw [← and_assoc]
  refine and_congr (by simp [Info.hasNull, Info.hasUndef]) ?_
  by_cases hk : x.kind = .comparison
  · have hm : ∀ (b : Bool), (match x.kind with
        | .notNull | .notUndef | .isNull | .isUndef => true
        | .comparison => b
        | _ => false) = b := by rw [hk]; intro b; rfl
    refine Iff.trans (iff_of_eq (congrArg (· = true) (hm _))) ?_
    simp only [hk, List.mem_cons, reduceCtorEq, List.not_mem_nil, or_false, or_self, false_or, true_and]
    constructor
    · intro h
      split at h
      · rename_i l o t r hn
        rw [Bool.and_eq_true, beq_iff_eq] at h
        obtain ⟨rfl, h⟩ := h
        refine ⟨l, t, r, hn, ?_⟩
        unfold NullExpr UndefExpr
        revert h
        cases l.isNullLit <;> cases r.isNullLit <;> cases l.isUndefLit <;> cases r.isUndefLit <;> simp
      · exact (nomatch h)
    · rintro ⟨l, t, r, hn, h⟩
      rw [hn]
      simp only [beq_self_eq_true, Bool.true_and]
      revert h
      unfold NullExpr UndefExpr
      cases l.isNullLit <;> cases r.isNullLit <;> cases l.isUndefLit <;> cases r.isUndefLit <;> simp
  · cases hk' : x.kind <;> simp_all

theorem cutAfter_iff (T : Types) : ∀ chain c : List Operand, CutAfter T chain c ↔ c = truncate T chain
  | [], c => by
    constructor
    · intro h
      cases h with
      | whole _ => rfl
      | short a x b h => simp at h
    · rintro rfl; exact .whole nofun
  | [x], c => by
    constructor
    · intro h
      cases h with
      | whole _ => rfl
      | short a y b h hb =>
        have := congrArg List.length h
        have := List.length_pos_iff.2 hb
        simp at *; omega
    · rintro rfl; exact .whole nofun
  | x :: y :: rest, c => by
    rw [show truncate T (x :: y :: rest) = if stopsHere T x = true then [x] else x :: truncate T (y :: rest) from rfl]
    by_cases hs : stopsHere T x = true
    · rw [if_pos hs]
      have hS := (stops_iff T x).1 hs
      constructor
      · intro h
        cases h with
        | whole h => exact absurd hS (h x (by simp))
        | short a z b he hb ha hz =>
          cases a with
          | nil => cases he; rfl
          | cons w a =>
            rw [List.cons_append, List.cons.injEq] at he
            exact absurd hS (he.1 ▸ ha w (by simp))
      · rintro rfl; exact .short [] x (y :: rest) rfl (by simp) nofun hS
    · rw [if_neg hs]
      have hS : ¬ Stops T x := fun h => hs ((stops_iff T x).2 h)
      have ih := cutAfter_iff T (y :: rest)
      constructor
      · intro h
        cases h with
        | whole h =>
          rw [← (ih (y :: rest)).1 (.whole fun z hz => h z (by rw [List.dropLast_cons_of_ne_nil (by simp)]; exact List.mem_cons_of_mem _ hz))]
        | short a z b he hb ha hz =>
          cases a with
          | nil => cases he; exact absurd hz hS
          | cons w a =>
            rw [List.cons_append, List.cons.injEq] at he
            obtain ⟨rfl, he⟩ := he
            rw [← (ih (a ++ [z])).1 (.short a z b he hb (fun v hv => ha v (List.mem_cons_of_mem _ hv)) hz)]
            rfl
      · rintro rfl
        have h := (ih (truncate T (y :: rest))).2 rfl
        generalize truncate T (y :: rest) = d at h
        cases h with
        | whole h =>
          refine .whole ?_
          rw [List.dropLast_cons_of_ne_nil (by simp)]
          intro z hz
          rcases List.mem_cons.1 hz with rfl | hz
          · exact hS
          · exact h z hz
        | short a z b he hb ha hz =>
          refine .short (x :: a) z b (by rw [he]; rfl) hb ?_ hz
          intro v hv
          rcases List.mem_cons.1 hv with rfl | hv
          · exact hS
          · exact ha v hv

/-! ### What is left -/

theorem strictThenNegated_iff (T : Types) : ∀ c : List Operand, strictThenNegated T c = true ↔ ∃ a g b x, c = a ++ g :: b ∧ g.kind ∈ [.notNull, .notUndef] ∧
    (Untyped (T g.expr) ∨ NullAndUndef (T g.expr)) ∧ x ∈ b ∧ x.kind = .not ∧ (compare g.expr x.expr = .equal ∨ compare g.expr x.expr = .subset) ∧ ReachesIn x.expr
  | [] => by simp [strictThenNegated]
  | g :: rest => by
    have hk : g.kind.strictCheck = true ↔ g.kind ∈ [.notNull, .notUndef] := by cases g.kind <;> simp [Kind.strictCheck]
    rw [strictThenNegated, Bool.or_eq_true, strictThenNegated_iff T rest, Bool.and_eq_true, Bool.and_eq_true, hk, Bool.or_eq_true, untyped_iff, nullAndUndef_iff, List.any_eq_true]
    simp only [Bool.and_eq_true, Bool.or_eq_true, beq_iff_eq, access_iff]
    constructor
    · rintro (⟨⟨h1, h2⟩, x, hx, ⟨h3, h4⟩, h5⟩ | ⟨a, g', b, x, he, h⟩)
      · exact ⟨[], g, rest, x, rfl, h1, h2, hx, h3, h4, h5⟩
      · exact ⟨g :: a, g', b, x, by rw [he]; rfl, h⟩
    · rintro ⟨a, g', b, x, he, h1, h2, hx, h3, h4, h5⟩
      cases a with
      | nil => cases he; exact .inl ⟨⟨h1, h2⟩, x, hx, ⟨h3, h4⟩, h5⟩
      | cons y a =>
        rw [List.cons_append, List.cons.injEq] at he
        exact .inr ⟨a, g', b, x, he.2, h1, h2, hx, h3, h4, h5⟩

theorem negatedThenCalled_iff : ∀ c : List Operand, negatedThenCalled c = true ↔ ∃ a g b x f o ts xs, c = a ++ g :: b ∧ g.kind = .not ∧ x ∈ b ∧ x.kind ≠ .not ∧
    x.expr.skip = .call f o ts xs ∧ compare g.expr f = .equal
  | [] => by simp [negatedThenCalled]
  | g :: rest => by
    have hm : ∀ e : Expr, (match e with | .call c _ _ _ => compare g.expr c == .equal | _ => false) = true ↔ ∃ f o ts xs, e = .call f o ts xs ∧ compare g.expr f = .equal := by
      intro e
      cases e <;> simp
    rw [negatedThenCalled, Bool.or_eq_true, negatedThenCalled_iff rest, Bool.and_eq_true, beq_iff_eq, List.any_eq_true]
    have hx' : ∀ x : Operand, (x.kind != .not && (match skip x.expr with | .call c _ _ _ => compare g.expr c == .equal | _ => false)) = true ↔
        x.kind ≠ .not ∧ ∃ f o ts xs, x.expr.skip = .call f o ts xs ∧ compare g.expr f = .equal := by
      intro x
      rw [Bool.and_eq_true]
      exact and_congr (by simp) (hm _)
    constructor
    · rintro (⟨h1, x, hx, h⟩ | ⟨a, g', b, x, f, o, ts, xs, he, h⟩)
      · obtain ⟨h2, f, o, ts, xs, h3, h4⟩ := (hx' x).1 h
        exact ⟨[], g, rest, x, f, o, ts, xs, rfl, h1, hx, h2, h3, h4⟩
      · exact ⟨g :: a, g', b, x, f, o, ts, xs, by rw [he]; rfl, h⟩
    · rintro ⟨a, g', b, x, f, o, ts, xs, he, h1, hx, h2, h3, h4⟩
      cases a with
      | nil => cases he; exact .inl ⟨h1, x, hx, (hx' x).2 ⟨h2, f, o, ts, xs, h3, h4⟩⟩
      | cons y a =>
        rw [List.cons_append, List.cons.injEq] at he
        exact .inr ⟨a, g', b, x, f, o, ts, xs, he.2, h1, hx, h2, h3, h4⟩

/-- the last tests of `orReported` -/
def leftPassed (O : Options) (T : Types) (c : List Operand) : Bool :=
  decide (c.length < 2) || (!O.allowUnsafe && strictThenNegated T c) || (!O.allowUnsafe && c.any fun x => (x.kind == .plain || x.kind == .not) && Info.changesReturn (T x.expr)) || negatedThenCalled c

theorem orReported_eq (O : Options) (T : Types) (chain c : List Operand) : orReported O T chain = some c ↔ wholePassed O T chain = false ∧ orChecks O T chain = some c ∧ leftPassed O T c = false := by
  have he : orReported O T chain = if wholePassed O T chain = true then none else match orChecks O T chain with
    | none => none
    | some chain => if leftPassed O T chain = true then none else some chain := rfl
  rw [he]
  by_cases h : wholePassed O T chain = true
  · rw [if_pos h, h]; simp
  · rw [if_neg h]
    simp only [Bool.not_eq_true] at h
    rw [and_iff_right h]
    cases hc : orChecks O T chain with
    | none => simp
    | some d =>
      simp only [Option.some.injEq]
      by_cases hl : leftPassed O T d = true
      · rw [if_pos hl]
        simp only [reduceCtorEq, false_iff]
        rintro ⟨rfl, h'⟩; rw [hl] at h'; cases h'
      · rw [if_neg hl]
        simp only [Option.some.injEq]
        constructor
        · rintro rfl; exact ⟨rfl, by simpa using hl⟩
        · exact fun h => h.1

theorem checkedOr_iff (a : Analysis) (complete : Bool) (d c : List Operand) : checkedOr a complete d = some c ↔ c = d ∧ 2 ≤ c.length ∧ ∀ first rest, c = first :: rest →
    (first.kind.guardStart = true → afterTypeof rest = true) ∧ lastTests a complete first rest = true := by
  match d with
  | [] =>
    simp only [checkedOr, reduceCtorEq, false_iff]
    rintro ⟨rfl, h, _⟩; simp at h
  | [x] =>
    simp only [checkedOr, reduceCtorEq, false_iff]
    rintro ⟨rfl, h, _⟩; simp at h
  | first :: second :: rest =>
    rw [show checkedOr a complete (first :: second :: rest) = if ((first.kind.guardStart && !afterTypeof (second :: rest)) || !lastTests a complete first (second :: rest)) = true then none
      else some (first :: second :: rest) from rfl]
    by_cases h : ((first.kind.guardStart && !afterTypeof (second :: rest)) || !lastTests a complete first (second :: rest)) = true
    · rw [if_pos h]
      simp only [reduceCtorEq, false_iff]
      rintro ⟨rfl, _, h'⟩
      obtain ⟨h1, h2⟩ := h' first (second :: rest) rfl
      simp only [h2, Bool.not_true, Bool.or_false, Bool.and_eq_true, Bool.not_eq_true'] at h
      rw [h1 h.1] at h; cases h.2
    · rw [if_neg h]
      simp only [Option.some.injEq]
      constructor
      · rintro rfl
        refine ⟨rfl, by simp, ?_⟩
        rintro f r he
        cases he
        simp only [Bool.or_eq_true, not_or, Bool.not_eq_true, Bool.not_eq_false', Bool.and_eq_false_imp] at h
        exact h
      · exact fun h => h.1.symm

theorem afterTypeof_iff (rest : List Operand) : afterTypeof rest = true ↔ ∀ x ∈ rest, ¬ (UnsafeComparison x ∨ x.kind = .plain ∨ x.kind = .not) := by
  unfold afterTypeof
  rw [Bool.not_eq_true', List.any_eq_false]
  refine forall_congr' fun x => imp_congr_right fun _ => not_congr ?_
  rw [Bool.or_eq_true, Bool.or_eq_true, unsafe_and, beq_iff_eq, beq_iff_eq, or_assoc]

theorem lastTests_iff (T : Types) (chain : List Operand) (first : Operand) (rest : List Operand) :
    lastTests (analyze true chain) (strictFits (analyze true chain) T chain) first rest = true ↔
    ¬ (OnlyTests true .null chain ∧ ¬ TypesSuffice T chain) ∧ ¬ (NullishEquality first ∧ ∃ x ∈ rest, UnsafeComparison x ∧ ¬ NullishEquality x) := by
  unfold lastTests
  rw [Bool.and_eq_true, Bool.not_eq_true', Bool.not_eq_true', ← Bool.not_eq_true, ← Bool.not_eq_true]
  refine and_congr (not_congr ?_) (not_congr ?_)
  · rw [Bool.and_eq_true, Bool.not_eq_true', ← Bool.not_eq_true, typesSuffice_iff, ← (onlyTests_iff true chain).1]
    rfl
  · rw [Bool.and_eq_true, Bool.and_eq_true, nullishEquality_iff, beq_iff_eq, List.any_eq_true]
    have hx : ∀ x : Operand, (x.kind == .comparison && !orSafe x && !nullishComparison x) = true ↔ UnsafeComparison x ∧ ¬ NullishEquality x := by
      intro x
      rw [Bool.and_eq_true, unsafe_and, Bool.not_eq_true', ← Bool.not_eq_true, nullishEquality_iff]
    simp only [hx]
    exact ⟨fun h => ⟨h.1.2, h.2⟩, fun h => ⟨⟨h.1.1, h.1⟩, h.2⟩⟩

theorem guardStart_iff (k : Kind) : k.guardStart = true ↔ k ∈ [.typeof, .isNull, .isUndef, .isBoth] := by cases k <;> simp [Kind.guardStart]

theorem orChecks_iff (O : Options) (T : Types) (chain c : List Operand) : orChecks O T chain = some c ↔ Left O T chain c ∧
    (O.allowUnsafe = false → ¬ NotEnough T chain ∧ 2 ≤ c.length ∧ ∀ first rest, c = first :: rest →
      (first.kind ∈ [.typeof, .isNull, .isUndef, .isBoth] → ∀ x ∈ rest, ¬ (UnsafeComparison x ∨ x.kind = .plain ∨ x.kind = .not)) ∧
      ¬ (OnlyTests true .null chain ∧ ¬ TypesSuffice T chain) ∧ ¬ (NullishEquality first ∧ ∃ x ∈ rest, UnsafeComparison x ∧ ¬ NullishEquality x)) := by
  unfold orChecks Left
  by_cases hO : O.allowUnsafe = true
  · rw [if_pos hO]
    simp [hO, eq_comm]
  · rw [if_neg hO]
    simp only [Bool.not_eq_true] at hO
    simp only [hO, Bool.false_eq_true, false_and, true_and, false_or, forall_const]
    by_cases hn : notEnough T chain = true
    · rw [if_pos hn]
      have := (notEnough_iff T chain).1 hn
      simp [this]
    · rw [if_neg hn, checkedOr_iff]
      have hN : ¬ NotEnough T chain := fun h => hn ((notEnough_iff T chain).2 h)
      simp only [hN, not_false_eq_true, true_and, cutAfter_iff, lastTests_iff, guardStart_iff, afterTypeof_iff]

theorem leftPassed_false (O : Options) (T : Types) (c : List Operand) : leftPassed O T c = false ↔ 2 ≤ c.length ∧ (O.allowUnsafe = false → strictThenNegated T c = false) ∧
    (O.allowUnsafe = false → ∀ x ∈ c, x.kind ∈ [.plain, .not] → ¬ LiteralType (T x.expr)) ∧ negatedThenCalled c = false := by
  unfold leftPassed
  simp only [Bool.or_eq_false_iff, decide_eq_false_iff_not, Nat.not_lt, Bool.and_eq_false_imp, Bool.not_eq_true', and_assoc]
  refine and_congr Iff.rfl (and_congr Iff.rfl (and_congr (imp_congr_right fun _ => ?_) Iff.rfl))
  rw [List.any_eq_false]
  refine forall_congr' fun x => imp_congr_right fun _ => ?_
  rw [Bool.and_eq_true, literalType_iff, not_and]
  simp

/-- **C118** What is reported of an OR chain: it is a candidate, there is no reason to pass it over, and none to pass over what is left of it when it is cut. -/
theorem reportsOr_iff (O : Options) (T : Types) (chain c : List Operand) : reportsOr O T chain = some c ↔
    Candidate O T false chain ∧ ¬ OrPassed O T chain ∧ Left O T chain c ∧ ¬ LeftPassed O T chain c := by
  have he : reportsOr O T chain = some c ↔ validChain O T false chain = true ∧ orReported O T chain = some c := by
    unfold reportsOr
    by_cases h : validChain O T false chain = true
    · rw [if_pos h]; simp [h]
    · rw [if_neg h]; simp [h]
  rw [he, candidate_iff, orReported_eq]
  refine and_congr_right ?_
  rintro ⟨⟨f, s, r, hc, _⟩, _⟩
  rw [← Bool.not_eq_true, wholePassed_iff O T chain (by rw [hc]; simp)]
  refine and_congr_right fun _ => ?_
  rw [orChecks_iff, and_assoc]
  refine and_congr_right fun _ => ?_
  rw [leftPassed_false]
  constructor
  · rintro ⟨h1, h2, h3, h4, h5⟩ h
    cases h with
    | notEnough hO h => exact (h1 hO).1 h
    | short h => omega
    | afterTypeof first rest x hO hcr hk hx h => exact ((h1 hO).2.2 first rest hcr).1 hk x hx h
    | onlyNull hO h h' =>
      cases c with
      | nil => simp at h2
      | cons a b => exact ((h1 hO).2.2 a b rfl).2.1 ⟨h, h'⟩
    | afterNullish first rest x hO hcr hk hx h h' => exact ((h1 hO).2.2 first rest hcr).2.2 ⟨hk, x, hx, h, h'⟩
    | strictThenNegated a g b x hO hcr ha hb hx hk he ha' =>
      have := h3 hO
      rw [← Bool.not_eq_true, strictThenNegated_iff] at this
      exact this ⟨a, g, b, x, hcr, ha, hb, hx, hk, he, ha'⟩
    | literalTest x hO hx hk h => exact h4 hO x hx hk h
    | negatedThenCalled a g b x f o ts xs hcr hg hx hk hs he =>
      rw [← Bool.not_eq_true, negatedThenCalled_iff] at h5
      exact h5 ⟨a, g, b, x, f, o, ts, xs, hcr, hg, hx, hk, hs, he⟩
  · intro h
    have hlen : 2 ≤ c.length := Nat.le_of_not_lt fun hl => h (.short hl)
    refine ⟨fun hO => ⟨fun hn => h (.notEnough hO hn), hlen, fun first rest hcr => ⟨fun hk x hx hu => h (.afterTypeof first rest x hO hcr hk hx hu), fun hn => h (.onlyNull hO hn.1 hn.2), ?_⟩⟩,
      hlen, fun hO => ?_, fun hO x hx hk hl => h (.literalTest x hO hx hk hl), ?_⟩
    · rintro ⟨hf, x, hx, hu, hn⟩
      exact h (.afterNullish first rest x hO hcr hf hx hu hn)
    · rw [← Bool.not_eq_true, strictThenNegated_iff]
      rintro ⟨a, g, b, x, h1, h2, h3, h4, h5, h6, h7⟩
      exact h (.strictThenNegated a g b x hO h1 h2 h3 h4 h5 h6 h7)
    · rw [← Bool.not_eq_true, negatedThenCalled_iff]
      rintro ⟨a, g, b, x, f, o, ts, xs, h1, h2, h3, h4, h5, h6⟩
      exact h (.negatedThenCalled a g b x f o ts xs h1 h2 h3 h4 h5 h6)

/-! ### Fix or suggestion -/

theorem matches_iff (chain : List Operand) (t : List Part) : typeMatches (analyze true chain) t = true ↔ Matches chain t := by
  unfold typeMatches Matches
  obtain ⟨hn, hu⟩ := onlyTests_iff true chain
  rw [← hn, ← hu]
  rw [Bool.or_eq_true, noNullable_iff, Bool.and_eq_true, Bool.and_eq_true, Bool.and_eq_true, Bool.not_eq_true', untyped_false, Bool.not_eq_true', ← Bool.not_eq_true, nullAndUndef_iff,
    and_assoc, and_assoc]
  refine or_congr Iff.rfl (and_congr_right fun hU => and_congr Iff.rfl (and_congr ?_ ?_))
  · simp only [Just, hU, not_false_eq_true, true_and, Info.hasNull, Info.hasUndef, Bool.not_eq_true', Bool.and_eq_false_imp, Bool.or_eq_false_iff, Bool.not_eq_false']
    simp
  · simp only [Just, hU, not_false_eq_true, true_and, Info.hasNull, Info.hasUndef, Bool.not_eq_true', Bool.and_eq_false_imp, Bool.or_eq_false_iff, Bool.not_eq_false']
    simp [and_comm]

theorem testsLess_iff (T : Types) (chain : List Operand) : strictSuggests T chain = true ↔ TestsLess T chain := by
  unfold strictSuggests TestsLess
  simp only [Bool.or_eq_true, Bool.and_eq_true, incomplete_tests, List.all_eq_true, matches_iff, List.any_eq_true, shorterUndef_iff, Bool.not_eq_true', ← Bool.not_eq_true, noNullable_iff,
    Classical.not_not, and_assoc]

/-- **C118** The rewrite of an OR chain is only suggested just if there is a reason for asking. -/
theorem orSuggests_iff (O : Options) (T : Types) (chain : List Operand) (hne : chain ≠ []) : orSuggests O T chain = true ↔ OrAsks O T chain := by
  rcases List.eq_nil_or_concat chain with rfl | ⟨init, last, rfl⟩
  · exact absurd rfl hne
  rw [List.concat_eq_append]
  unfold orSuggests OrAsks
  rw [List.getLast?_concat]
  simp only
  rw [Bool.and_eq_true, Bool.and_eq_true, Bool.and_eq_true, and_assoc, and_assoc, Bool.not_eq_true']
  refine and_congr_right fun _ => ?_
  have ht : (!(init ++ [last]).any fun x => Info.anyOrUnknown (T x.expr) || Info.both (T x.expr)) = true ↔ ∀ x ∈ init ++ [last], ¬ Untyped (T x.expr) ∧ ¬ NullAndUndef (T x.expr) := by
    rw [Bool.not_eq_true', List.any_eq_false]
    refine forall_congr' fun x => imp_congr_right fun _ => ?_
    rw [Bool.or_eq_true, untyped_iff, nullAndUndef_iff, not_or]
  have hk : ((!last.kind.fixedAtEnd) = true ∧ (!(last.kind.comparisonOrCheck && !strictSuggests T (init ++ [last]))) = true) ↔
      (last.kind ∈ [.plain, .invalid, .negated] ∨ (last.kind ∈ [.comparison, .notNull, .isNull] ∧ TestsLess T (init ++ [last]))) := by
    rw [← testsLess_iff]
    cases last.kind <;> simp [Kind.fixedAtEnd, Kind.comparisonOrCheck, Kind.nullishCheck]
  rw [ht, ← and_assoc, hk]
  constructor
  · rintro ⟨h1, h2⟩; exact ⟨h2, init, last, rfl, h1⟩
  · rintro ⟨h2, i, l, he, h1⟩
    obtain ⟨rfl, h⟩ := List.append_inj' he rfl
    cases h
    exact ⟨h1, h2⟩

/-! ### Cases -/

/-- `!x || !x.a.…` is reported as a whole -/
example : Candidate {} sampleOr false (orParsed [sampleNot (sampleVar "x")] sampleOrEnd) ∧ ¬ OrPassed {} sampleOr (orParsed [sampleNot (sampleVar "x")] sampleOrEnd) ∧
    ∃ c, Left {} sampleOr (orParsed [sampleNot (sampleVar "x")] sampleOrEnd) c ∧ ¬ LeftPassed {} sampleOr (orParsed [sampleNot (sampleVar "x")] sampleOrEnd) c := by
  have h : reportsOr {} sampleOr (orParsed [sampleNot (sampleVar "x")] sampleOrEnd) ≠ none := by decide +kernel
  obtain ⟨c, hc⟩ := Option.ne_none_iff_exists'.1 h
  obtain ⟨h1, h2, h3, h4⟩ := (reportsOr_iff _ _ _ _).1 hc
  exact ⟨h1, h2, c, h3, h4⟩

example : ¬ OrAsks {} sampleOr (orParsed [sampleNot (sampleVar "x")] sampleOrEnd) := by
  rw [← orSuggests_iff _ _ _ (by simp [orParsed])]; decide +kernel

end Tsgolint.OptionalChain
