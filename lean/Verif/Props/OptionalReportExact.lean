import Verif.Spec.OptionalReport
import Verif.Props.OptionalReport
import Verif.Props.OptionalEnding

/-!
# C117: just which AND chains prefer-optional-chain reports
-/

namespace Tsgolint.OptionalChain

open Expr

/-! ### Words -/

theorem hasOptional_iff : ∀ e : Expr, e.hasOptional = true ↔ HasMark e
  | .paren e => by
    rw [hasOptional, hasOptional_iff e]
    exact ⟨.paren, fun h => by cases h; assumption⟩
  | .prop e o n => by
    rw [hasOptional, Bool.or_eq_true, hasOptional_iff e]
    exact ⟨fun h => h.elim (fun h => h ▸ .prop e n) (.propIn o n), fun h => by cases h <;> simp [*]⟩
  | .elem e o x => by
    rw [hasOptional, Bool.or_eq_true, hasOptional_iff e]
    exact ⟨fun h => h.elim (fun h => h ▸ .elem e x) (.elemIn o x), fun h => by cases h <;> simp [*]⟩
  | .call e o ts xs => by
    rw [hasOptional, Bool.or_eq_true, hasOptional_iff e]
    exact ⟨fun h => h.elim (fun h => h ▸ .call e ts xs) (.callIn o ts xs), fun h => by cases h <;> simp [*]⟩
  | .binary l o t r => by
    rw [hasOptional, Bool.or_eq_true, hasOptional_iff l, hasOptional_iff r]
    exact ⟨fun h => h.elim (.left o t r) (.right l o t), fun h => by cases h <;> simp [*]⟩
  | .ident .. | .keyword .. | .literal .. | .nonNull .. | .asType .. | .assertion .. | .unary .. | .typeof .. | .template .. | .await .. | .metaProp .. | .other .. =>
    ⟨nofun, nofun⟩

theorem hasOptional_false (e : Expr) : e.hasOptional = false ↔ ¬ HasMark e := by rw [← hasOptional_iff, Bool.not_eq_true]

theorem laterOptional_iff (chain : List Operand) : laterOptional chain = true ↔ LaterMarked chain := by
  unfold laterOptional LaterMarked
  simp only [List.all_eq_true, hasOptional_iff]

theorem binaryParts_iff (e l : Expr) (o : Op) (r : Expr) : binaryParts e = some (l, o, r) ↔ ∃ l' t r', e.skip = .binary l' o t r' ∧ l = l'.skip ∧ r = r'.skip := by
  unfold binaryParts
  constructor
  · intro h
    split at h
    · rename_i l' o' t r' he
      cases h
      exact ⟨_, _, _, he, rfl, rfl⟩
    · exact (nomatch h)
  · rintro ⟨l', t, r', he, rfl, rfl⟩
    rw [he]

theorem compares_iff (x : Operand) (o : Op) (p : Expr → Bool) :
    Compares x o (fun e => p e = true) ↔ ∃ l r, binaryParts x.node = some (l, o, r) ∧ (p l || p r) = true := by
  unfold Compares
  simp only [binaryParts_iff, Bool.or_eq_true]
  constructor
  · rintro ⟨l, t, r, h, h'⟩
    exact ⟨_, _, ⟨l, t, r, h, rfl, rfl⟩, h'⟩
  · rintro ⟨_, _, ⟨l, t, r, h, rfl, rfl⟩, h'⟩
    exact ⟨l, t, r, h, h'⟩

/-- an analysis as a predicate -/
def Analysis.has (a : Analysis) : Aspect → Bool
  | .null => a.null
  | .undef => a.undef
  | .both => a.both

theorem compares_nullish (x : Operand) (o : Op) : Compares x o (fun e => NullExpr e ∨ UndefExpr e) ↔
    ∃ l r, binaryParts x.node = some (l, o, r) ∧ ((isNullLit l || isNullLit r) || (isUndefLit l || isUndefLit r)) = true := by
  have := compares_iff x o fun e => isNullLit e || isUndefLit e
  simp only [Bool.or_eq_true] at this ⊢
  refine Iff.trans this ⟨?_, ?_⟩ <;> rintro ⟨l, r, h, h'⟩ <;> refine ⟨l, r, h, ?_⟩ <;> rcases h' with (h' | h') | (h' | h') <;> simp [h']

theorem analyzeComparison_iff (x : Operand) (w : Aspect) : (analyzeComparison x).has w = true ↔
    (w = .null ∧ Compares x .seq NullExpr) ∨ (w = .undef ∧ Compares x .seq UndefExpr) ∨ (w = .both ∧ Compares x .eq fun e => NullExpr e ∨ UndefExpr e) := by
  rw [show (NullExpr : Expr → Prop) = fun e => e.isNullLit = true from rfl, show (UndefExpr : Expr → Prop) = fun e => e.isUndefLit = true from rfl, compares_iff, compares_iff]
  rw [show (Compares x .eq fun e => (e.isNullLit = true) ∨ (e.isUndefLit = true)) ↔ _ from compares_nullish x .eq]
  unfold analyzeComparison
  cases hb : binaryParts x.node with
  | none => simp [Analysis.has]; cases w <;> rfl
  | some p =>
    obtain ⟨l, o, r⟩ := p
    simp only [Option.some.injEq, Prod.mk.injEq]
    by_cases h1 : (o == .eq && (isNullLit l || isNullLit r || (isUndefLit l || isUndefLit r))) = true
    · rw [if_pos h1]
      simp only [Bool.and_eq_true, beq_iff_eq] at h1
      obtain ⟨rfl, h1⟩ := h1
      cases w
      · simp [Analysis.has]
      · simp [Analysis.has]
      · simp only [Analysis.has, true_iff]
        exact .inr (.inr ⟨trivial, l, r, ⟨rfl, trivial, rfl⟩, h1⟩)
    · rw [if_neg h1]
      have h3 : ¬ ∃ l_1 r_1, (l = l_1 ∧ o = .eq ∧ r = r_1) ∧ ((isNullLit l_1 || isNullLit r_1) || (isUndefLit l_1 || isUndefLit r_1)) = true := by
        rintro ⟨_, _, ⟨rfl, rfl, rfl⟩, h⟩
        exact h1 (by rw [h]; rfl)
      by_cases h2 : (o == .seq) = true
      · rw [if_pos h2]
        have h2' : o = .seq := by simpa using h2
        subst h2'
        cases w
        · simp only [Analysis.has]
          exact ⟨fun h => .inl ⟨trivial, l, r, ⟨rfl, trivial, rfl⟩, h⟩, fun h => by
            rcases h with ⟨_, _, _, ⟨rfl, _, rfl⟩, h⟩ | ⟨h, _⟩ | ⟨h, _⟩
            · exact h
            · exact (nomatch h)
            · exact (nomatch h)⟩
        · simp only [Analysis.has]
          exact ⟨fun h => .inr (.inl ⟨trivial, l, r, ⟨rfl, trivial, rfl⟩, h⟩), fun h => by
            rcases h with ⟨h, _⟩ | ⟨_, _, _, ⟨rfl, _, rfl⟩, h⟩ | ⟨h, _⟩
            · exact (nomatch h)
            · exact h
            · exact (nomatch h)⟩
        · simp [Analysis.has]
      · rw [if_neg h2]
        have h2' : o ≠ .seq := by simpa using h2
        cases w
        · simp [Analysis.has, h2']
        · simp [Analysis.has, h2']
        · simp only [Analysis.has, Bool.false_eq_true, false_iff]
          rintro (h | h | h)
          · exact nomatch h.1
          · exact nomatch h.1
          · exact h3 h.2

theorem analyzeOne_iff (isOr : Bool) (x : Operand) (w : Aspect) : (analyzeOne isOr x).has w = true ↔ Concerns isOr x w := by
  constructor
  · intro h
    unfold analyzeOne at h
    cases hk : x.kind <;> rw [hk] at h <;> simp only at h
    case comparison =>
      rw [analyzeComparison_iff] at h
      rcases h with ⟨rfl, h⟩ | ⟨rfl, h⟩ | ⟨rfl, h⟩
      · exact .strictNull hk h
      · exact .strictUndef hk h
      · exact .loose hk h
    case not => cases w <;> simp [Analysis.has] at h; exact .negation h hk
    case plain => cases w <;> simp [Analysis.has] at h; exact .truth h hk
    all_goals (cases w <;> simp [Analysis.has] at h)
    all_goals first | exact .null (by simp [hk]) | exact .undef (by simp [hk]) | exact .both (by simp [hk])
  · intro h
    unfold analyzeOne
    cases h with
    | null hk => simp at hk; rcases hk with hk | hk <;> rw [hk] <;> rfl
    | undef hk => simp at hk; rcases hk with hk | hk | hk <;> rw [hk] <;> rfl
    | both hk => simp at hk; rcases hk with hk | hk <;> rw [hk] <;> rfl
    | negation h hk => rw [hk, h]; rfl
    | truth h hk => rw [hk, h]; rfl
    | strictNull hk h => rw [hk]; exact (analyzeComparison_iff x .null).2 (.inl ⟨rfl, h⟩)
    | strictUndef hk h => rw [hk]; exact (analyzeComparison_iff x .undef).2 (.inr (.inl ⟨rfl, h⟩))
    | loose hk h => rw [hk]; exact (analyzeComparison_iff x .both).2 (.inr (.inr ⟨rfl, h⟩))

theorem analyze_iff (isOr : Bool) (chain : List Operand) (w : Aspect) : (analyze isOr chain).has w = true ↔ ∃ x ∈ chain, Concerns isOr x w := by
  have : (analyze isOr chain).has w = chain.any fun x => (analyzeOne isOr x).has w := by cases w <;> rfl
  rw [this, List.any_eq_true]
  simp only [analyzeOne_iff]

theorem onlyTests_iff (isOr : Bool) (chain : List Operand) : ((analyze isOr chain).onlyNull = true ↔ OnlyTests isOr .null chain) ∧ ((analyze isOr chain).onlyUndef = true ↔ OnlyTests isOr .undef chain) := by
  have hn := analyze_iff isOr chain .null
  have hu := analyze_iff isOr chain .undef
  have hb := analyze_iff isOr chain .both
  simp only [Analysis.has] at hn hu hb
  unfold Analysis.onlyNull Analysis.onlyUndef OnlyTests
  simp only [Bool.and_eq_true, Bool.not_eq_true', ← Bool.not_eq_true, hn, hu, hb]
  constructor
  · constructor
    · rintro ⟨⟨h1, h2⟩, h3⟩
      exact ⟨h1, fun x hx b hc => by cases b; rfl; exact absurd ⟨x, hx, hc⟩ h2; exact absurd ⟨x, hx, hc⟩ h3⟩
    · rintro ⟨h1, h2⟩
      exact ⟨⟨h1, fun ⟨x, hx, hc⟩ => nomatch h2 x hx _ hc⟩, fun ⟨x, hx, hc⟩ => nomatch h2 x hx _ hc⟩
  · constructor
    · rintro ⟨⟨h1, h2⟩, h3⟩
      exact ⟨h2, fun x hx b hc => by cases b; exact absurd ⟨x, hx, hc⟩ h1; rfl; exact absurd ⟨x, hx, hc⟩ h3⟩
    · rintro ⟨h1, h2⟩
      exact ⟨⟨fun ⟨x, hx, hc⟩ => (nomatch h2 x hx _ hc), h1⟩, fun ⟨x, hx, hc⟩ => nomatch h2 x hx _ hc⟩

/-! ### Types -/

theorem untyped_iff (t : List Part) : Info.anyOrUnknown t = true ↔ Untyped t := by simp [Info.anyOrUnknown, Info.hasAny, Info.hasUnknown, Untyped]
theorem untyped_false (t : List Part) : Info.anyOrUnknown t = false ↔ ¬ Untyped t := by rw [← untyped_iff, Bool.not_eq_true]
theorem canBe_iff (t : List Part) : Info.nullish t = true ↔ CanBe t := by
  simp only [Info.nullish, Info.hasNull, Info.hasUndef, Info.hasAny, Info.hasUnknown, CanBe, Untyped, Bool.or_eq_true, List.contains_iff_mem, or_assoc]
theorem canBe_false (t : List Part) : Info.nullish t = false ↔ ¬ CanBe t := by rw [← canBe_iff, Bool.not_eq_true]
theorem noNullable_iff (t : List Part) : Info.noNullable t = true ↔ ¬ CanBe t := by
  simp [Info.noNullable, Info.hasNull, Info.hasUndef, Info.hasAny, Info.hasUnknown, CanBe, Untyped, and_assoc]
theorem nullAndUndef_iff (t : List Part) : Info.both t = true ↔ NullAndUndef t := by simp [Info.both, Info.hasNull, Info.hasUndef, NullAndUndef]

theorem literalType_iff (t : List Part) : Info.changesReturn t = true ↔ LiteralType t := by
  unfold Info.changesReturn LiteralType Info.explicitNullish Info.hasNull Info.hasUndef
  simp only [Bool.and_eq_true, Bool.or_eq_true, Bool.not_eq_true', Bool.or_eq_false_iff, List.contains_iff_mem, ← Bool.not_eq_true]
  refine and_congr ⟨?_, ?_⟩ not_or
  · rintro (((h | h) | h) | h) <;> exact ⟨_, h, by simp⟩
  · rintro ⟨p, h, hp⟩
    simp only [List.mem_cons, List.not_mem_nil, or_false] at hp
    rcases hp with rfl | rfl | rfl | rfl <;> simp [h]

theorem skipByType_iff (O : Options) (T : Types) (e : Expr) : skipByType O T e = true ↔ LeftOut O (T e.base) := by
  unfold skipByType LeftOut
  generalize T e.base = t
  by_cases h0 : (O.requireNullish && Info.explicitNullish t) = true
  · rw [if_pos h0]
    simp only [Bool.false_eq_true, false_iff]
    rintro ⟨h, _⟩
    apply h
    simpa [Info.explicitNullish, Info.hasNull, Info.hasUndef] using h0
  · rw [if_neg h0]
    have h0' : ¬ (O.requireNullish = true ∧ (.null ∈ t ∨ .undef ∈ t)) := by simpa [Info.explicitNullish, Info.hasNull, Info.hasUndef] using h0
    rw [and_iff_right h0']
    have key : (∃ p ∈ t, O.checks p = false) ↔ (Info.hasAny t && !O.checkAny) = true ∨ (Info.bigLike t && !O.checkBigInt) = true ∨ (Info.boolLike t && !O.checkBoolean) = true ∨
        (Info.numLike t && !O.checkNumber) = true ∨ (Info.strLike t && !O.checkString) = true ∨ (Info.hasUnknown t && !O.checkUnknown) = true := by
      simp only [Info.hasAny, Info.bigLike, Info.boolLike, Info.numLike, Info.strLike, Info.hasUnknown, Bool.and_eq_true, Bool.or_eq_true, List.contains_iff_mem, Bool.not_eq_true']
      constructor
      · rintro ⟨p, hp, h⟩
        cases p <;> simp only [Options.checks] at h <;> first | exact absurd h (by decide) | (simp [hp, h]; done)
      · rintro (⟨hp, h⟩ | ⟨hp | hp, h⟩ | ⟨hp | hp, h⟩ | ⟨hp | hp, h⟩ | ⟨hp | hp, h⟩ | ⟨hp, h⟩) <;> exact ⟨_, hp, h⟩
    rw [key]
    split
    · simp [*]
    split
    · simp [*]
    split
    · simp [*]
    split
    · simp [*]
    split
    · simp [*]
    simp [*]

theorem safeValue_iff (o : Op) (t : List Part) : trailingSafe o t = true ↔ SafeValue o t := by
  have hne : t.isEmpty = false ↔ t ≠ [] := by cases t <;> simp
  have hall : ∀ (l : List Part), (∀ p ∈ t, p ∉ l) ↔ ∀ q ∈ l, q ∉ t := fun l => ⟨fun h q hq hp => h q hp hq, fun h p hp hq => h p hq hp⟩
  have not_untyped : ∀ (l : List Part), Part.any ∉ l → Part.unknown ∉ l → (∀ p ∈ t, p ∈ l) → Info.anyOrUnknown t = false := by
    intro l h1 h2 h
    rw [untyped_false]
    rintro (h' | h')
    · exact h1 (h _ h')
    · exact h2 (h _ h')
  have halways : ∀ (f : Part → Bool) (l : List Part), Part.any ∉ l → Part.unknown ∉ l → (∀ p, f p = true ↔ p ∈ l) →
      ((!(t.isEmpty || Info.anyOrUnknown t) && t.all f) = true ↔ t ≠ [] ∧ ∀ p ∈ t, p ∈ l) := by
    intro f l h1 h2 hf
    simp only [Bool.and_eq_true, Bool.not_eq_true', Bool.or_eq_false_iff, hne, List.all_eq_true, hf]
    exact ⟨fun h => ⟨h.1.1, h.2⟩, fun h => ⟨⟨h.1, not_untyped l h1 h2 h.2⟩, h.2⟩⟩
  cases o <;> simp only [trailingSafe, SafeValue] <;> try simp
  · rw [Info.canBeNullish]
    simp only [Bool.or_eq_false_iff, hne, Info.hasNull, Info.hasUndef, Info.hasVoid, Info.hasAny, Info.hasUnknown]
    simp only [← Bool.not_eq_true, List.contains_iff_mem]
    have := hall [.null, .undef, .void, .any, .unknown]
    simp at this
    rw [this]
    simp [and_assoc]
  · exact halways _ [.null, .undef, .void] (by decide) (by decide) (by intro p; cases p <;> decide) |>.trans (by simp)
  · rw [Info.canBeUndef]
    simp only [Bool.or_eq_false_iff, hne, Info.hasUndef, Info.hasVoid, Info.hasAny, Info.hasUnknown]
    simp only [← Bool.not_eq_true, List.contains_iff_mem]
    have := hall [.undef, .void, .any, .unknown]
    simp at this
    rw [this]
    simp [and_assoc]
  · exact halways _ [.undef, .void] (by decide) (by decide) (by intro p; cases p <;> decide) |>.trans (by simp)

theorem strictComplete_iff (a : Analysis) (t : List Part) :
    (a.null = true → a.undef = false → (strictComplete a t = true ↔ Just .null t)) ∧ (a.null = false → a.undef = true → (strictComplete a t = true ↔ Just .undef t)) := by
  unfold strictComplete Just
  constructor <;> intro h1 h2 <;> rw [h1, h2] <;>
    simp only [Bool.not_true, Bool.not_false, Bool.true_and, Bool.false_and, Bool.or_false, Bool.false_or, Bool.and_eq_true, Bool.not_eq_true', Info.hasNull, Info.hasUndef,
      List.contains_iff_mem, ← Bool.not_eq_true, untyped_iff, and_assoc]

/-! ### What all chains need -/

theorem skipForRequire_iff (O : Options) (T : Types) (isAnd : Bool) (chain : List Operand) : skipForRequire O T isAnd chain = false ↔ Required O T isAnd chain := by
  unfold skipForRequire Required
  by_cases hr : O.requireNullish = true
  · simp only [hr, Bool.not_true, Bool.false_eq_true, if_false, forall_const]
    have h2 : (chain.all (fun x => x.kind == .plain) && !(isAnd && chain.dropLast.any fun x => Info.explicitNullish (T x.expr))) = false ↔
        ((∃ x ∈ chain, x.kind ≠ .plain) ∨ (isAnd = true ∧ ∃ x ∈ chain.dropLast, .null ∈ T x.expr ∨ .undef ∈ T x.expr)) := by
      rw [Bool.and_eq_false_iff]
      refine or_congr ?_ ?_
      · rw [List.all_eq_false]; simp
      · rw [Bool.not_eq_false', Bool.and_eq_true, List.any_eq_true]
        simp [Info.explicitNullish, Info.hasNull, Info.hasUndef]
    cases chain with
    | nil =>
      rw [show (!isAnd && false) = false by cases isAnd <;> rfl, if_neg (by decide), h2]
      exact (and_iff_right (fun _ x hx => nomatch hx)).symm
    | cons y ys =>
      simp only [List.head?_cons, Option.some.injEq, forall_eq']
      by_cases h1 : (!isAnd && y.kind == .not) = true
      · rw [if_pos h1]
        simp only [Bool.true_eq_false, false_iff]
        rintro ⟨h, _⟩
        simp only [Bool.and_eq_true, Bool.not_eq_true', beq_iff_eq] at h1
        exact h h1.1 h1.2
      · rw [if_neg h1, h2]
        refine (and_iff_right ?_).symm
        intro ha hk
        apply h1
        rw [ha, hk]; rfl
  · simp [hr]

/-- **C117** which chains are candidates -/
theorem candidate_iff (O : Options) (T : Types) (isAnd : Bool) (chain : List Operand) : validChain O T isAnd chain = true ↔ Candidate O T isAnd chain := by
  unfold validChain Candidate
  simp only [Bool.and_eq_true, Bool.not_eq_true', skipForRequire_iff, decide_eq_true_eq]
  rw [and_assoc, and_congr_left_iff.2 (fun _ => ?_)]
  · constructor
    · rintro ⟨h1, h2, h3⟩
      exact ⟨h1, by simpa [anyAccess, ReachesIn] using h2, h3⟩
    · rintro ⟨h1, h2, h3⟩
      exact ⟨h1, by simpa [anyAccess, ReachesIn] using h2, h3⟩
  · match chain with
    | [] => simp
    | [x] => simp
    | first :: second :: rest =>
      simp only [sameBase, List.all_eq_true]
      constructor
      · rintro ⟨_, h⟩; exact ⟨_, _, _, rfl, h⟩
      · rintro ⟨_, _, _, h, h'⟩; cases h; exact ⟨by simp, h'⟩

/-! ### AND chains -/

theorem split_iff (chain : List Operand) : splitStrict chain = true ↔ Split chain := by
  unfold Split AboutNull AboutUndef
  constructor
  · intro h
    unfold splitStrict at h
    split at h
    · rename_i a b
      refine ⟨a, b, rfl, ?_⟩
      simpa [undefCheck] using h
    · exact (nomatch h)
  · rintro ⟨a, b, rfl, h⟩
    simpa [splitStrict, undefCheck] using h

theorem allSame_iff (chain : List Operand) : allSame chain = true ↔ 2 ≤ chain.length ∧ ∀ x ∈ chain, ∀ y ∈ chain, partTexts x.expr = partTexts y.expr := by
  unfold partTexts
  match chain with
  | [] => simp [allSame]
  | [x] => simp [allSame]
  | first :: second :: rest =>
    simp only [allSame, List.all_eq_true, sameTexts, beq_iff_eq]
    constructor
    · intro h
      have h' : ∀ x ∈ first :: second :: rest, (flat false first.expr).map Link.text = (flat false x.expr).map Link.text := by
        intro x hx
        rcases List.mem_cons.1 hx with rfl | hx
        · rfl
        · exact h x hx
      exact ⟨by simp, fun x hx y hy => (h' x hx).symm.trans (h' y hy)⟩
    · rintro ⟨_, h⟩ x hx
      exact h first (by simp) x (List.mem_cons_of_mem _ hx)

theorem partsAgree_marks : ∀ a b : List Link, partsAgree true a b = true ↔ a.map (fun p => (p.text, p.optional)) <+: b.map fun p => (p.text, p.optional)
  | [], b => by simp [partsAgree]
  | _ :: _, [] => by simp [partsAgree]
  | p :: ps, q :: qs => by
    rw [partsAgree, List.map_cons, List.map_cons, List.cons_prefix_cons, ← partsAgree_marks ps qs]
    simp

theorem partsAgree_texts : ∀ a b : List Link, partsAgree false a b = true ↔ a.map Link.text <+: b.map Link.text
  | [], b => by simp [partsAgree]
  | _ :: _, [] => by simp [partsAgree]
  | p :: ps, q :: qs => by
    rw [partsAgree, List.map_cons, List.map_cons, List.cons_prefix_cons, ← partsAgree_texts ps qs]
    simp

theorem redundant_iff (x y : Expr) : redundant (flat false x) (flat false y) = true ↔ OneMore x y := by
  unfold redundant OneMore partMarks
  rw [Bool.and_eq_true, Bool.and_eq_true, partsAgree_marks, beq_iff_eq]
  generalize flat false x = a
  generalize flat false y = b
  constructor
  · rintro ⟨⟨h1, more, h2⟩, h3⟩
    have hlen := congrArg List.length h2
    simp only [List.length_append, List.length_map] at hlen
    obtain ⟨q, rfl⟩ := List.length_eq_one_iff.1 (show more.length = 1 by omega)
    have hl := congrArg List.getLast? h2
    rw [List.getLast?_concat, List.getLast?_map] at hl
    cases hb : b.getLast? with
    | none => rw [hb] at hl; cases hl
    | some p =>
      rw [hb] at hl h3
      simp only [Option.map_some, Option.some.injEq] at hl h3
      exact ⟨p.text, by rw [← h2, hl, h3]⟩
  · rintro ⟨t, h⟩
    have hlen := congrArg List.length h
    simp only [List.length_append, List.length_map, List.length_cons, List.length_nil] at hlen
    refine ⟨⟨by omega, ⟨_, h.symm⟩⟩, ?_⟩
    have hl := congrArg List.getLast? h
    rw [List.getLast?_concat, List.getLast?_map] at hl
    cases hb : b.getLast? with
    | none => rw [hb] at hl; cases hl
    | some p =>
      rw [hb] at hl
      simp only [Option.map_some, Option.some.injEq, Prod.mk.injEq] at hl
      exact hl.2

theorem flat_nonempty (e : Expr) : (flat false e).isEmpty = false := by rw [flat_eq]; rfl

theorem alreadyOptional_iff (x y : Operand) : alreadyOptional [x, y] = true ↔
    HasMark y.expr ∧ ((OneMore x.expr y.expr ∧ y.kind = .comparison) ∨ (¬ OneMore x.expr y.expr ∧ GoesOn x.expr y.expr)) := by
  rw [show alreadyOptional [x, y] = (hasOptional y.expr && if redundant (flat false x.expr) (flat false y.expr) then y.kind == .comparison
    else decide ((flat false x.expr).length < (flat false y.expr).length) && !(flat false x.expr).isEmpty && partsAgree false (flat false x.expr) (flat false y.expr) &&
      ((flat false y.expr).drop (flat false x.expr).length).any Link.optional) from rfl]
  rw [Bool.and_eq_true, hasOptional_iff]
  refine and_congr Iff.rfl ?_
  by_cases h : redundant (flat false x.expr) (flat false y.expr) = true
  · rw [if_pos h]
    simp [(redundant_iff _ _).1 h]
  · rw [if_neg h]
    have h' : ¬ OneMore x.expr y.expr := fun h' => h ((redundant_iff _ _).2 h')
    rw [flat_nonempty, Bool.and_eq_true, Bool.and_eq_true, Bool.and_eq_true, partsAgree_texts, flat_length, flat_length, decide_eq_true_eq, List.any_eq_true]
    simp [h', GoesOn, partTexts, and_assoc]

theorem standsApart_iff (prev last : Operand) : (last.kind.trailing || (last.kind == .plain && decide ((flat false prev.expr).length < (flat false last.expr).length))) = true ↔ StandsApart prev last := by
  unfold StandsApart
  rw [Bool.or_eq_true, Bool.and_eq_true, beq_iff_eq, decide_eq_true_eq, flat_length, flat_length]
  refine or_congr ?_ Iff.rfl
  cases last.kind <;> simp [Kind.trailing]

theorem guardOperands_two (init : List Operand) (prev last : Operand) : guardOperands (init ++ [prev, last]) =
    if (last.kind.trailing || (last.kind == .plain && decide ((flat false prev.expr).length < (flat false last.expr).length))) = true then init ++ [prev] else init ++ [prev, last] := by
  have hrev : (init ++ [prev, last]).reverse = last :: prev :: init.reverse := by simp
  have hdrop : (init ++ [prev, last]).dropLast = init ++ [prev] := by rw [show init ++ [prev, last] = (init ++ [prev]) ++ [last] by simp, List.dropLast_concat]
  unfold guardOperands
  rw [hrev, hdrop]
  simp only
  cases last.kind.trailing
  · simp only [Bool.false_eq_true, if_false, Bool.false_or]
  · simp only [if_true, Bool.true_or]

theorem apart_two (init : List Operand) (prev last : Operand) : apart (init ++ [prev, last]) =
    if (last.kind.trailing || (last.kind == .plain && decide ((flat false prev.expr).length < (flat false last.expr).length))) = true then some last else none := by
  unfold apart
  rw [guardOperands_two]
  have hl : (init ++ [prev, last]).getLast? = some last := by rw [show init ++ [prev, last] = (init ++ [prev]) ++ [last] by simp, List.getLast?_concat]
  rw [hl]
  by_cases h : (last.kind.trailing || (last.kind == .plain && decide ((flat false prev.expr).length < (flat false last.expr).length))) = true
  · rw [if_pos h, if_pos h]
    simp
  · rw [if_neg h, if_neg h]
    simp

theorem guards_iff (chain guards : List Operand) (t : Option Operand) : Guards chain guards t ↔ guards = guardOperands chain ∧ t = apart chain := by
  rcases List.eq_nil_or_concat chain with rfl | ⟨init', last, rfl⟩
  · constructor
    · intro h
      cases h with
      | apart init prev last h _ => simp at h
      | all _ => exact ⟨rfl, rfl⟩
    · rintro ⟨rfl, rfl⟩
      exact .all (by intro init prev last h; simp at h)
  rcases List.eq_nil_or_concat init' with rfl | ⟨init, prev, rfl⟩
  · constructor
    · intro h
      cases h with
      | apart init prev last' h _ =>
        have := congrArg List.length h
        simp at this
      | all _ => exact ⟨rfl, rfl⟩
    · rintro ⟨rfl, rfl⟩
      refine .all ?_
      intro init prev last' h
      have := congrArg List.length h
      simp at this
  have hc : (init.concat prev).concat last = init ++ [prev, last] := by simp
  rw [hc, guardOperands_two, apart_two]
  have hinj : ∀ (i : List Operand) (p l : Operand), init ++ [prev, last] = i ++ [p, l] → i = init ∧ p = prev ∧ l = last := by
    intro i p l h
    obtain ⟨h1, h2⟩ := List.append_inj' h rfl
    cases h2
    exact ⟨h1.symm, rfl, rfl⟩
  by_cases h : (last.kind.trailing || (last.kind == .plain && decide ((flat false prev.expr).length < (flat false last.expr).length))) = true
  · rw [if_pos h, if_pos h]
    have hs := (standsApart_iff prev last).1 h
    constructor
    · intro hg
      cases hg with
      | apart i p l he _ => obtain ⟨rfl, rfl, rfl⟩ := hinj i p l he; exact ⟨rfl, rfl⟩
      | all hn => exact absurd hs (hn _ _ _ rfl)
    · rintro ⟨rfl, rfl⟩
      exact .apart init prev last rfl hs
  · rw [if_neg h, if_neg h]
    have hs : ¬ StandsApart prev last := fun hs => h ((standsApart_iff prev last).2 hs)
    constructor
    · intro hg
      cases hg with
      | apart i p l he hs' => obtain ⟨rfl, rfl, rfl⟩ := hinj i p l he; exact absurd hs' hs
      | all _ => exact ⟨rfl, rfl⟩
    · rintro ⟨rfl, rfl⟩
      refine .all ?_
      intro i p l he
      obtain ⟨rfl, rfl, rfl⟩ := hinj i p l he
      exact hs

theorem incomplete_iff (T : Types) (chain : List Operand) : incompleteCheck T chain = true ↔ Incomplete T chain := by
  have hG : Incomplete T chain ↔ ((∀ x ∈ guardOperands chain, x.kind ≠ .typeof) ∧ (∀ l, apart chain = some l → l.kind ≠ .notBoth ∧ ¬ HasMark l.expr) ∧
      ∃ g, (guardOperands chain).head? = some g ∧ CanBe (T g.expr) ∧ ∃ a, a ≠ .both ∧ OnlyTests false a (guardOperands chain) ∧ ¬ Just a (T g.expr)) := by
    unfold Incomplete
    simp only [guards_iff]
    constructor
    · rintro ⟨_, _, ⟨rfl, rfl⟩, h⟩; exact h
    · intro h; exact ⟨_, _, ⟨rfl, rfl⟩, h⟩
  rw [hG]
  unfold incompleteCheck
  generalize guardOperands chain = guards
  generalize apart chain = tr
  simp only [Bool.and_eq_true, Bool.not_eq_true']
  have hty : guards.any (fun x => x.kind == .typeof) = false ↔ ∀ x ∈ guards, x.kind ≠ .typeof := by rw [List.any_eq_false]; simp
  have htr : ((match (generalizing := false) tr with | some x => x.kind == .notBoth | none => false) = false ∧ (match (generalizing := false) tr with | some x => hasOptional x.expr | none => false) = false) ↔
      ∀ l, tr = some l → l.kind ≠ .notBoth ∧ ¬ HasMark l.expr := by
    cases tr with
    | none => simp
    | some x => simp [hasOptional_false]
  have ho := onlyTests_iff false guards
  have hrest : ((analyze false guards).both = false ∧ (match (generalizing := false) guards with | x :: _ => !Info.nullish (T x.expr) | [] => false) = false ∧
      (match (generalizing := false) guards with | x :: _ => strictComplete (analyze false guards) (T x.expr) | [] => false) = false ∧ (analyze false guards).incomplete = true) ↔
      ∃ g, guards.head? = some g ∧ CanBe (T g.expr) ∧ ∃ a, a ≠ .both ∧ OnlyTests false a guards ∧ ¬ Just a (T g.expr) := by
    cases guards with
    | nil =>
      simp only [List.head?_nil, reduceCtorEq, false_and, exists_false, iff_false]
      rintro ⟨_, _, _, h⟩
      exact absurd h (by decide)
    | cons g gs =>
      simp only [Bool.not_eq_false', canBe_iff, List.head?_cons, Option.some.injEq, exists_eq_left']
      unfold Analysis.incomplete
      rw [Bool.or_eq_true, ho.1, ho.2]
      generalize ha : analyze false (g :: gs) = an at *
      have hc := strictComplete_iff an (T g.expr)
      constructor
      · rintro ⟨h1, h2, h3, h4⟩
        refine ⟨h2, ?_⟩
        rcases h4 with h4 | h4
        · have h := ho.1.2 h4
          unfold Analysis.onlyNull at h
          simp only [Bool.and_eq_true, Bool.not_eq_true'] at h
          exact ⟨.null, nofun, h4, fun hj => by rw [(hc.1 h.1.1 h.1.2).2 hj] at h3; cases h3⟩
        · have h := ho.2.2 h4
          unfold Analysis.onlyUndef at h
          simp only [Bool.and_eq_true, Bool.not_eq_true'] at h
          exact ⟨.undef, nofun, h4, fun hj => by rw [(hc.2 h.1.1 h.1.2).2 hj] at h3; cases h3⟩
      · rintro ⟨h2, a, hb, h4, hj⟩
        cases a with
        | both => exact absurd rfl hb
        | null =>
          have h := ho.1.2 h4
          unfold Analysis.onlyNull at h
          simp only [Bool.and_eq_true, Bool.not_eq_true'] at h
          refine ⟨h.2, h2, ?_, .inl h4⟩
          rw [← Bool.not_eq_true, hc.1 h.1.1 h.1.2]; exact hj
        | undef =>
          have h := ho.2.2 h4
          unfold Analysis.onlyUndef at h
          simp only [Bool.and_eq_true, Bool.not_eq_true'] at h
          refine ⟨h.2, h2, ?_, .inr h4⟩
          rw [← Bool.not_eq_true, hc.2 h.1.1 h.1.2]; exact hj
  rw [← hty, ← htr, ← hrest]
  constructor
  · rintro ⟨⟨⟨⟨⟨⟨h1, h2⟩, h3⟩, h4⟩, h5⟩, h6⟩, h7⟩; exact ⟨h2, ⟨h3, h4⟩, h1, h5, h6, h7⟩
  · rintro ⟨h2, ⟨h3, h4⟩, h1, h5, h6, h7⟩; exact ⟨⟨⟨⟨⟨⟨h1, h2⟩, h3⟩, h4⟩, h5⟩, h6⟩, h7⟩

theorem otherSide_iff (e l r v : Expr) : trailingValue e l r = some v ↔ OtherSide e l r v := by
  unfold trailingValue OtherSide
  cases e.eq l <;> cases e.eq r <;> cases l.isAccess <;> cases r.isAccess <;> simp [eq_comm]

theorem isTrailing_iff (init : List Operand) (last : Operand) : isTrailing (init ++ [last]) = true ↔
    (last.kind = .comparison ∨ (last.kind ∈ [.notNull, .notUndef, .notBoth] ∧ ∃ prev, init.getLast? = some prev ∧ prev.expr.size < last.expr.size)) := by
  rcases List.eq_nil_or_concat init with rfl | ⟨i, prev, rfl⟩
  · simp [isTrailing]
  · have hrev : (i.concat prev ++ [last]).reverse = last :: prev :: i.reverse := by simp
    unfold isTrailing
    rw [hrev]
    simp [flat_length, or_assoc]

theorem unsafeTrailing_iff (O : Options) (T : Types) (chain : List Operand) : unsafeTrailing O T chain = true ↔ O.allowUnsafe = false ∧ UnsafeLast T chain := by
  rcases List.eq_nil_or_concat chain with rfl | ⟨init, last, rfl⟩
  · simp [unsafeTrailing, UnsafeLast]
  · unfold unsafeTrailing UnsafeLast
    rw [List.concat_eq_append, List.getLast?_concat]
    simp only
    rw [Bool.and_eq_true, isTrailing_iff]
    have hm : (match binaryParts last.node with
        | none => false
        | some (l, o, r) => match trailingValue last.expr l r with
          | none => false
          | some v => !trailingSafe o (T v) && !O.allowUnsafe) = true ↔
        O.allowUnsafe = false ∧ ∃ l o t r v, last.node.skip = .binary l o t r ∧ OtherSide last.expr l.skip r.skip v ∧ ¬ SafeValue o (T v) := by
      constructor
      · intro h
        cases hb : binaryParts last.node with
        | none => rw [hb] at h; cases h
        | some p =>
          obtain ⟨l, o, r⟩ := p
          rw [hb] at h
          simp only at h
          obtain ⟨l', t, r', hn, rfl, rfl⟩ := (binaryParts_iff _ _ _ _).1 hb
          cases hv : trailingValue last.expr l'.skip r'.skip with
          | none => rw [hv] at h; cases h
          | some v =>
            rw [hv] at h
            simp only [Bool.and_eq_true, Bool.not_eq_true'] at h
            exact ⟨h.2, l', o, t, r', v, hn, (otherSide_iff _ _ _ _).1 hv, fun hs => by rw [(safeValue_iff _ _).2 hs] at h; cases h.1⟩
      · rintro ⟨hO, l', o, t, r', v, hn, hv, hs⟩
        rw [(binaryParts_iff last.node l'.skip o r'.skip).2 ⟨l', t, r', hn, rfl, rfl⟩]
        simp only [(otherSide_iff _ _ _ _).2 hv, hO]
        have : trailingSafe o (T v) = false := by rw [← Bool.not_eq_true, safeValue_iff]; exact hs
        rw [this]; rfl
    refine Iff.trans (and_congr Iff.rfl hm) ?_
    constructor
    · rintro ⟨h1, h2, h3⟩; exact ⟨h2, init, last, rfl, h1, h3⟩
    · rintro ⟨h2, i, l, he, h1, h3⟩
      obtain ⟨rfl, h⟩ := List.append_inj' he rfl
      cases h
      exact ⟨h1, h2, h3⟩

theorem firstOptional_iff (chain : List Operand) (first : Operand) : firstOptional chain first = true ↔
    HasMark first.expr ∧ (first.kind = .plain ∨ (first.kind ∈ [.notNull, .notUndef] ∧ ¬ Split chain)) := by
  unfold firstOptional
  have hk : first.kind.strictCheck = true ↔ first.kind ∈ [.notNull, .notUndef] := by cases first.kind <;> simp [Kind.strictCheck]
  rw [Bool.and_eq_true, hasOptional_iff, Bool.or_eq_true, Bool.and_eq_true, beq_iff_eq, hk, Bool.not_eq_true', ← split_iff, Bool.not_eq_true]

theorem optimalStrict_iff (T : Types) (first second : Operand) (rest : List Operand) : optimalStrict T (first :: second :: rest) = true ↔
    LaterMarked (first :: second :: rest) ∧ (∃ x ∈ first :: second :: rest, x.kind ∈ [.notNull, .notUndef]) ∧
      (∀ x ∈ first :: second :: rest, x.kind ∉ [.not, .negated, .notBoth, .isBoth]) ∧ NullAndUndef (T first.expr) := by
  unfold optimalStrict
  have hk : ∀ x : Operand, x.kind.strictCheck = true ↔ x.kind ∈ [.notNull, .notUndef] := by intro x; cases x.kind <;> simp [Kind.strictCheck]
  have hn : ∀ x : Operand, (x.kind == .not || x.kind == .negated || x.kind.looseCheck) = true ↔ x.kind ∈ [.not, .negated, .notBoth, .isBoth] := by
    intro x; cases x.kind <;> simp [Kind.looseCheck]
  simp only
  rw [Bool.and_eq_true, Bool.and_eq_true, Bool.and_eq_true, laterOptional_iff, List.any_eq_true, Bool.not_eq_true', List.any_eq_false, nullAndUndef_iff]
  simp only [hk, hn, and_assoc]

theorem badFirstTest_iff (O : Options) (T : Types) (first : Operand) : badFirstTest O T first = true ↔
    first.kind = .plain ∧ (.void ∈ T first.expr ∨ LeftOut O (T first.expr.base) ∨ (LiteralType (T first.expr) ∧ O.allowUnsafe = false)) := by
  unfold badFirstTest
  rw [Bool.and_eq_true, beq_iff_eq, Bool.or_eq_true, Bool.or_eq_true, skipByType_iff, Bool.and_eq_true, literalType_iff, Bool.not_eq_true']
  simp only [Info.hasVoid, List.contains_iff_mem, or_assoc]

theorem typeofCall_iff (T : Types) (chain : List Operand) : typeofCall T chain = true ↔
    ∃ x y, chain = [x, y] ∧ (∃ z ∈ chain, z.kind = .typeof ∧ ¬ CanBe (T z.expr)) ∧ y.expr.skip.isCall = true := by
  unfold typeofCall
  constructor
  · intro h
    simp only [Bool.and_eq_true, beq_iff_eq] at h
    obtain ⟨⟨h1, h2⟩, h3⟩ := h
    match chain, h1 with
    | [x, y], _ =>
      refine ⟨x, y, rfl, ?_, by simpa using h3⟩
      rw [List.any_eq_true] at h2
      obtain ⟨z, hz, h⟩ := h2
      simp only [Bool.and_eq_true, beq_iff_eq, Bool.not_eq_true', canBe_false] at h
      exact ⟨z, hz, h⟩
  · rintro ⟨x, y, rfl, ⟨z, hz, h, h'⟩, hc⟩
    simp only [Bool.and_eq_true, beq_iff_eq]
    refine ⟨⟨rfl, ?_⟩, by simpa using hc⟩
    rw [List.any_eq_true]
    exact ⟨z, hz, by simp [h, (canBe_false _).2 h']⟩

theorem isNonNull_iff (e : Expr) : isNonNull e = true ↔ ∃ e', e = .nonNull e' := by cases e <;> simp [isNonNull]

/-- **C117** An AND chain is reported just if it is a candidate and there is no reason to pass it over. -/
theorem reportsAnd_iff (O : Options) (T : Types) (chain : List Operand) : reportsAnd O T chain = true ↔ Candidate O T true chain ∧ ¬ AndPassed O T chain := by
  unfold reportsAnd
  rw [Bool.and_eq_true, candidate_iff]
  refine and_congr_right ?_
  rintro ⟨⟨first, second, rest, hc, _⟩, _⟩
  have key : andReported O T chain = false ↔ AndPassed O T chain := by
    have hrep : andReported O T chain = (!firstOptional chain first && !allSame chain && !optimalStrict T chain && !alreadyOptional chain && !badFirstTest O T first &&
      !(!O.allowUnsafe && (chain.any (fun x => isNonNull x.node) || incompleteCheck T chain)) && !typeofCall T chain && !unsafeTrailing O T chain) := by rw [hc]; rfl
    have hhead : chain.head? = some first := by rw [hc]; rfl
    have hlen : 2 ≤ chain.length := by rw [hc]; simp
    rw [hrep]
    simp only [Bool.and_eq_false_iff, Bool.not_eq_false']
    constructor
    · rintro (((((((h | h) | h) | h) | h) | h) | h) | h)
      · rw [firstOptional_iff] at h; exact .markedFirst first hhead h.1 h.2
      · rw [allSame_iff] at h; exact .repeated h.1 h.2
      · have h' : optimalStrict T (first :: second :: rest) = true := by rw [← hc]; exact h
        rw [optimalStrict_iff, ← hc] at h'
        exact .strictThenMarked first hhead hlen h'.1 h'.2.1 h'.2.2.1 h'.2.2.2
      · rw [hc] at h
        cases rest with
        | nil =>
          rw [alreadyOptional_iff] at h
          rcases h with ⟨hm, ⟨h1, h2⟩ | ⟨h1, h2⟩⟩
          · exact .optionalCompared first second hc hm h1 h2
          · exact .optionalAlready first second hc hm h1 h2
        | cons r rs => exact (nomatch h)
      · rw [badFirstTest_iff] at h
        rcases h with ⟨hk, h | h | h⟩
        · exact .voidTest first hhead hk h
        · exact .leftOut first hhead hk h
        · exact .literalTest first h.2 hhead hk h.1
      · simp only [Bool.and_eq_true, Bool.not_eq_true', Bool.or_eq_true, List.any_eq_true, isNonNull_iff, incomplete_iff] at h
        rcases h with ⟨hO, ⟨x, hx, e, he⟩ | h⟩
        · exact .bang x e hO hx he
        · exact .incomplete hO h
      · rw [typeofCall_iff] at h
        obtain ⟨x, y, h1, h2, h3⟩ := h
        exact .typeofCall x y h1 h2 h3
      · rw [unsafeTrailing_iff] at h
        exact .unsafeLast h.1 h.2
    · intro h
      cases h with
      | markedFirst f hf h1 h2 =>
        rw [hhead] at hf; cases hf
        exact .inl (.inl (.inl (.inl (.inl (.inl (.inl ((firstOptional_iff _ _).2 ⟨h1, h2⟩)))))))
      | repeated h1 h2 => exact .inl (.inl (.inl (.inl (.inl (.inl (.inr ((allSame_iff _).2 ⟨h1, h2⟩)))))))
      | strictThenMarked f hf _ h1 h2 h3 h4 =>
        rw [hhead] at hf; cases hf
        refine .inl (.inl (.inl (.inl (.inl (.inr ?_)))))
        rw [hc, optimalStrict_iff, ← hc]; exact ⟨h1, h2, h3, h4⟩
      | optionalCompared x y hxy hm h1 h2 =>
        refine .inl (.inl (.inl (.inl (.inr ?_))))
        rw [hxy, alreadyOptional_iff]; exact ⟨hm, .inl ⟨h1, h2⟩⟩
      | optionalAlready x y hxy hm h1 h2 =>
        refine .inl (.inl (.inl (.inl (.inr ?_))))
        rw [hxy, alreadyOptional_iff]; exact ⟨hm, .inr ⟨h1, h2⟩⟩
      | voidTest f hf hk h => rw [hhead] at hf; cases hf; exact .inl (.inl (.inl (.inr ((badFirstTest_iff _ _ _).2 ⟨hk, .inl h⟩))))
      | leftOut f hf hk h => rw [hhead] at hf; cases hf; exact .inl (.inl (.inl (.inr ((badFirstTest_iff _ _ _).2 ⟨hk, .inr (.inl h)⟩))))
      | literalTest f hO hf hk h => rw [hhead] at hf; cases hf; exact .inl (.inl (.inl (.inr ((badFirstTest_iff _ _ _).2 ⟨hk, .inr (.inr ⟨h, hO⟩)⟩))))
      | bang x e hO hx he =>
        refine .inl (.inl (.inr ?_))
        simp only [Bool.and_eq_true, Bool.not_eq_true', Bool.or_eq_true, List.any_eq_true, isNonNull_iff]
        exact ⟨hO, .inl ⟨x, hx, e, he⟩⟩
      | incomplete hO h =>
        refine .inl (.inl (.inr ?_))
        rw [(incomplete_iff _ _).2 h, hO]; simp
      | typeofCall x y h1 h2 h3 => exact .inl (.inr ((typeofCall_iff _ _).2 ⟨x, y, h1, h2, h3⟩))
      | unsafeLast hO h => exact .inr ((unsafeTrailing_iff _ _ _).2 ⟨hO, h⟩)
  rw [← key]
  cases andReported O T chain <;> simp

/-! ### Fix or suggestion -/

theorem compares_ending (before : List Operand) (s l : Operand) : (ending (before ++ [s, l]).reverse).compares = false ↔
    ¬ StrictThenPlain before s l ∧ l.kind ∉ [.comparison, .notNull, .notUndef, .notBoth, .typeof] := by
  obtain ⟨h1, h2, h3⟩ := ending_eq before s l
  by_cases hp : Pair s l
  · rw [h1 hp]
    simp only [Ending.compares, Bool.true_eq_false, false_iff]
    rintro ⟨_, h⟩
    apply h
    rcases hp.2 with ⟨_, h | h⟩ | ⟨_, h⟩ <;> rw [h] <;> simp
  by_cases hs : StrictThenPlain before s l
  · rw [h2 hp hs]; simp [Ending.compares, hs]
  obtain ⟨h3, h4, h5⟩ := h3 hp hs
  by_cases hk : l.kind ∈ [.comparison, .notNull, .notUndef, .notBoth, .typeof]
  · have hc : (ending (before ++ [s, l]).reverse).compares = true := by
      by_cases ht : l.kind = .typeof
      · rw [h4 ht]; rfl
      · rw [h3 (by simpa [ht] using hk)]; rfl
    rw [hc]
    simp [hk, hs]
  · rw [h5 hk]; simp only [Ending.compares, true_iff]; exact ⟨hs, hk⟩

/-- **C117** The rewrite of a chain is only suggested just if there is a reason for asking. -/
theorem andSuggests_iff (O : Options) (T : Types) (chain : List Operand) (h2 : 2 ≤ chain.length) : andSuggests O T chain = true ↔ AndAsks O T chain := by
  obtain ⟨before, s, l, hc⟩ : ∃ before s l, chain = before ++ [s, l] := by
    rcases List.eq_nil_or_concat chain with rfl | ⟨i, l, rfl⟩
    · simp at h2
    rcases List.eq_nil_or_concat i with rfl | ⟨i, s, rfl⟩
    · simp at h2
    exact ⟨i, s, l, by simp⟩
  obtain ⟨first, tail, hf⟩ : ∃ first tail, chain = first :: tail := by
    cases chain with
    | nil => simp at h2
    | cons f t => exact ⟨f, t, rfl⟩
  have hrev : chain.reverse = l :: s :: before.reverse := by rw [hc]; simp
  have hS : andSuggests O T chain = if O.allowUnsafe then false
      else (!fixAtFirst T chain l (ending chain.reverse)) || explicitThenPlain T first l || pairSuggests (ending chain.reverse) s l := by
    rw [hrev]
    unfold andSuggests
    rw [hrev]
    subst hf
    rfl
  have hinj : ∀ (i : List Operand) (p q : Operand), chain = i ++ [p, q] → i = before ∧ p = s ∧ q = l := by
    intro i p q h
    obtain ⟨h1, h2⟩ := List.append_inj' (h.symm.trans hc) rfl
    cases h2
    exact ⟨h1, rfl, rfl⟩
  have hce := compares_ending before s l
  rw [← hc] at hce
  have hA : fixAtFirst T chain l (ending chain.reverse) = false ↔ l.kind ∉ [.isBoth, .notBoth, .isUndef, .notUndef, .typeof, .comparison, .notNull] ∧ ¬ StrictThenPlain before s l ∧
      ∀ x ∈ chain, .undef ∉ T x.expr ∧ ¬ Untyped (T x.expr) := by
    unfold fixAtFirst
    rw [Bool.or_eq_false_iff, Bool.or_eq_false_iff, hce, List.any_eq_false]
    have hx : ∀ x : Operand, ¬ (Info.hasUndef (T x.expr) || Info.anyOrUnknown (T x.expr)) = true ↔ .undef ∉ T x.expr ∧ ¬ Untyped (T x.expr) := by
      intro x
      rw [Bool.or_eq_true, not_or, untyped_iff]; simp [Info.hasUndef]
    simp only [hx]
    constructor
    · rintro ⟨⟨h1, h2, h3⟩, h4⟩
      refine ⟨?_, h2, h4⟩
      intro hk
      cases hlk : l.kind <;> rw [hlk] at hk h1 h3 <;> simp at hk h1 h3
    · rintro ⟨h1, h2, h4⟩
      refine ⟨⟨?_, h2, ?_⟩, h4⟩
      · cases hlk : l.kind <;> rw [hlk] at h1 <;> simp at h1 ⊢
      · intro hk
        cases hlk : l.kind <;> rw [hlk] at hk h1 <;> simp at hk h1
  have hB : explicitThenPlain T first l = true ↔ first.kind ∈ [.notBoth, .notNull, .notUndef] ∧ l.kind = .plain ∧ ¬ Untyped (T first.expr) := by
    unfold explicitThenPlain
    simp only [Bool.and_eq_true, Bool.or_eq_true, beq_iff_eq, Bool.not_eq_true', untyped_false, List.mem_cons, List.not_mem_nil, or_false, or_assoc, and_assoc]
  have hC : pairSuggests (ending chain.reverse) s l = true ↔ Pair s l ∧ (l.kind = .typeof ∨ s.kind = .notNull) := by
    obtain ⟨e1, e2, e3⟩ := ending_eq before s l
    rw [← hc] at e1 e2 e3
    by_cases hp : Pair s l
    · rw [e1 hp]; simp [pairSuggests, hp]
    · have : ∀ b, ending chain.reverse ≠ .pair b := by
        intro b hb
        by_cases hs : StrictThenPlain before s l
        · rw [e2 hp hs] at hb; cases hb
        obtain ⟨e3, e4, e5⟩ := e3 hp hs
        by_cases h1 : l.kind ∈ [.comparison, .notNull, .notUndef, .notBoth]
        · rw [e3 h1] at hb; cases hb
        by_cases h2 : l.kind = .typeof
        · rw [e4 h2] at hb; cases hb
        · rw [e5 (by simp only [List.mem_cons, List.not_mem_nil, or_false] at h1 ⊢; rintro (h | h | h | h | h)
                     · exact h1 (.inl h)
                     · exact h1 (.inr (.inl h))
                     · exact h1 (.inr (.inr (.inl h)))
                     · exact h1 (.inr (.inr (.inr h)))
                     · exact h2 h)] at hb
          cases hb
      simp only [hp, false_and, iff_false]
      unfold pairSuggests
      split
      · rename_i b hb; exact absurd hb (this b)
      · nofun
  rw [hS]
  by_cases hO : O.allowUnsafe = true
  · rw [if_pos hO]
    simp only [Bool.false_eq_true, false_iff]
    intro h
    cases h with
    | mayReturnAnother _ _ _ h => rw [hO] at h; cases h
    | explicitThenTest _ _ _ h => rw [hO] at h; cases h
    | pair _ _ _ h => rw [hO] at h; cases h
  · rw [if_neg hO]
    have hO' : O.allowUnsafe = false := by simpa using hO
    rw [Bool.or_eq_true, Bool.or_eq_true, Bool.not_eq_true', hA, hB, hC]
    constructor
    · rintro ((⟨h1, h2, h3⟩ | ⟨h1, h2, h3⟩) | ⟨h1, h2⟩)
      · exact .mayReturnAnother before s l hO' hc h1 h2 h3
      · obtain ⟨mid, hm⟩ : ∃ mid, chain = first :: mid ++ [l] := by
          cases before with
          | nil => rw [hc] at hf; cases hf; exact ⟨[], hc⟩
          | cons b bs =>
            rw [hc, List.cons_append, List.cons.injEq] at hf
            obtain ⟨rfl, rfl⟩ := hf
            exact ⟨bs ++ [s], by rw [hc]; simp⟩
        exact .explicitThenTest first mid l hO' hm h1 h2 h3
      · exact .pair before s l hO' hc h1 h2
    · intro h
      cases h with
      | mayReturnAnother i p q _ he h1 h2 h3 =>
        obtain ⟨rfl, rfl, rfl⟩ := hinj i p q he
        exact .inl (.inl ⟨h1, h2, h3⟩)
      | explicitThenTest f m q _ he h1 h2 h3 =>
        have hq : q = l := by
          have := congrArg List.getLast? (he.symm.trans hc)
          rw [List.getLast?_concat, show before ++ [s, l] = (before ++ [s]) ++ [l] by simp, List.getLast?_concat] at this
          exact Option.some.inj this
        have hff : f = first := by
          have := he.symm.trans hf
          rw [List.cons_append, List.cons.injEq] at this
          exact this.1
        subst hq hff
        exact .inl (.inr ⟨h1, h2, h3⟩)
      | pair i p q _ he h1 h2 =>
        obtain ⟨rfl, rfl, rfl⟩ := hinj i p q he
        exact .inr ⟨h1, h2⟩

/-! ### Cases -/

/-- `x != null && x.a === 0` -/
example : Candidate {} sampleTyped true (parsed sampleChain sampleEnd) ∧ ¬ AndPassed {} sampleTyped (parsed sampleChain sampleEnd) :=
  (reportsAnd_iff _ _ _).1 (by decide +kernel)
example : ¬ AndAsks {} sampleTyped (parsed sampleChain sampleEnd) := by
  rw [← andSuggests_iff _ _ _ (by decide +kernel)]; decide +kernel
/-- `x !== null && x.a`, where `x` may be undefined too -/
example : AndPassed {} (fun _ => [.null, .undef, .object]) (parsed [.binary (sampleVar "x") .sne " !== ".toList sampleNull] (sampleAccess "x" "a")) := by
  have h : ¬ reportsAnd {} (fun _ => [.null, .undef, .object]) (parsed [.binary (sampleVar "x") .sne " !== ".toList sampleNull] (sampleAccess "x" "a")) = true := by decide +kernel
  rw [reportsAnd_iff] at h
  have hc : Candidate {} (fun _ => [.null, .undef, .object]) true (parsed [.binary (sampleVar "x") .sne " !== ".toList sampleNull] (sampleAccess "x" "a")) := (candidate_iff _ _ _ _).1 (by decide +kernel)
  exact Classical.byContradiction fun hn => h ⟨hc, hn⟩
/-- `x && x.a`, where `x` is an object or null -/
example : AndAsks {} (fun _ => [.null, .object]) (parsed [sampleVar "x"] (sampleAccess "x" "a")) := (andSuggests_iff _ _ _ (by decide +kernel)).1 (by decide +kernel)

end Tsgolint.OptionalChain
