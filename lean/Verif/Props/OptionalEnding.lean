import Verif.Props.OptionalCode
import Verif.Spec.OptionalEnding

/-!
# C114: what is put after the optional chain that replaces an AND chain
-/

namespace Tsgolint.OptionalChain

open Expr

variable {V : Type}

/-! ### Which ending -/

theorem undefCheck_iff (k : Operand) : undefCheck k.kind = true ↔ AboutUndef k := by
  unfold undefCheck AboutUndef; simp

theorem endsInPair_iff (s l : Operand) : endsInPair s l = true ↔ Pair s l := by
  unfold endsInPair Pair AboutNull
  rw [Bool.and_eq_true, beq_iff_eq, Bool.or_eq_true, Bool.and_eq_true, Bool.and_eq_true, undefCheck_iff, undefCheck_iff, beq_iff_eq, beq_iff_eq]
  constructor
  · rintro ⟨h1, h | h⟩
    · exact ⟨h1, .inl ⟨h.2, h.1⟩⟩
    · exact ⟨h1, .inr ⟨h.2, h.1⟩⟩
  · rintro ⟨h1, h | h⟩
    · exact ⟨h1, .inl ⟨h.2, h.1⟩⟩
    · exact ⟨h1, .inr ⟨h.2, h.1⟩⟩

theorem looseBefore_iff (s : Operand) (before : List Operand) : looseBefore s before.reverse = true ↔
    ∃ a x b, before = a ++ x :: b ∧ (x.kind = .notBoth ∨ x.kind = .isBoth) ∧ (∀ y ∈ b, y.kind ≠ .notBoth ∧ y.kind ≠ .isBoth) ∧ compare x.expr s.expr = .subset := by
  have hl : ∀ k : Kind, k.looseCheck = true ↔ k = .notBoth ∨ k = .isBoth := by intro k; cases k <;> simp [Kind.looseCheck]
  unfold looseBefore
  constructor
  · intro h
    cases hf : before.reverse.find? (fun x => x.kind.looseCheck) with
    | none => rw [hf] at h; cases h
    | some x =>
      rw [hf] at h
      obtain ⟨h1, a, b, h2, h3⟩ := List.find?_eq_some_iff_append.1 hf
      refine ⟨b.reverse, x, a.reverse, ?_, (hl _).1 h1, fun y hy => ?_, by simpa using h⟩
      · rw [← List.reverse_reverse before, h2]; simp
      · have := h3 y (List.mem_reverse.1 hy)
        rw [Bool.not_eq_true'] at this
        refine ⟨fun h => ?_, fun h => ?_⟩ <;> rw [h] at this <;> cases this
  · rintro ⟨a, x, b, rfl, h1, h2, h3⟩
    have : (a ++ x :: b).reverse.find? (fun x => x.kind.looseCheck) = some x := by
      refine List.find?_eq_some_iff_append.2 ⟨(hl _).2 h1, b.reverse, a.reverse, by simp, fun y hy => ?_⟩
      have := h2 y (List.mem_reverse.1 hy)
      rw [Bool.not_eq_true', ← Bool.not_eq_true, hl]
      rintro (h | h)
      · exact this.1 h
      · exact this.2 h
    rw [this]; simpa using h3

theorem strictPlain_iff (before : List Operand) (s l : Operand) :
    (!before.reverse.isEmpty && l.kind == .plain && s.kind.strictCheck && !before.reverse.any (completes s) && looseBefore s before.reverse) = true ↔ StrictThenPlain before s l := by
  have hs : s.kind.strictCheck = true ↔ s.kind = .notNull ∨ s.kind = .notUndef := by cases s.kind <;> simp [Kind.strictCheck]
  have hc : before.reverse.any (completes s) = false ↔
      ∀ x ∈ before, compare x.expr s.expr = .equal → ¬ (s.kind = .notNull ∧ AboutUndef x) ∧ ¬ (s.kind = .notUndef ∧ AboutNull x) := by
    rw [List.any_eq_false]
    refine ⟨fun h x hx he => ?_, fun h x hx hc => ?_⟩
    · have := h x (List.mem_reverse.2 hx)
      unfold completes at this
      rw [Bool.and_eq_true, beq_iff_eq, Bool.or_eq_true, Bool.and_eq_true, Bool.and_eq_true, undefCheck_iff, beq_iff_eq, beq_iff_eq, beq_iff_eq] at this
      exact ⟨fun h' => this ⟨he, .inl h'⟩, fun h' => this ⟨he, .inr h'⟩⟩
    · unfold completes at hc
      rw [Bool.and_eq_true, beq_iff_eq, Bool.or_eq_true, Bool.and_eq_true, Bool.and_eq_true, undefCheck_iff, beq_iff_eq, beq_iff_eq, beq_iff_eq] at hc
      have := h x (List.mem_reverse.1 hx) hc.1
      rcases hc.2 with h' | h'
      · exact this.1 h'
      · exact this.2 h'
  unfold StrictThenPlain
  simp only [Bool.and_eq_true, Bool.not_eq_true', beq_iff_eq]
  rw [hs, hc, looseBefore_iff]
  constructor
  · rintro ⟨⟨⟨⟨_, h1⟩, h2⟩, h3⟩, h4⟩
    exact ⟨h1, h2, h3, h4⟩
  · rintro ⟨h1, h2, h3, h4⟩
    refine ⟨⟨⟨⟨?_, h1⟩, h2⟩, h3⟩, h4⟩
    obtain ⟨a, x, b, rfl, _⟩ := h4
    simp

/-- **C114** Of a chain that ends in comparisons of the same expression with null and with undefined, the last one is kept behind a comparison of the optional chain; so is
a truth test after a strict comparison that is not complete; otherwise the kind of the last operand decides -/
theorem ending_eq (before : List Operand) (s l : Operand) :
    (Pair s l → ending (before ++ [s, l]).reverse = .pair (decide (s.kind = .typeof))) ∧
    (¬ Pair s l → StrictThenPlain before s l → ending (before ++ [s, l]).reverse = .strictPlain) ∧
    (¬ Pair s l → ¬ StrictThenPlain before s l →
      (l.kind ∈ [.comparison, .notNull, .notUndef, .notBoth] → ending (before ++ [s, l]).reverse = .comparison) ∧
      (l.kind = .typeof → ending (before ++ [s, l]).reverse = .typeof) ∧
      (l.kind ∉ [.comparison, .notNull, .notUndef, .notBoth, .typeof] → ending (before ++ [s, l]).reverse = .plain)) := by
  have hrev : (before ++ [s, l]).reverse = l :: s :: before.reverse := by simp
  rw [hrev, show ending (l :: s :: before.reverse) = if endsInPair s l then .pair (s.kind == .typeof)
    else if !before.reverse.isEmpty && l.kind == .plain && s.kind.strictCheck && !before.reverse.any (completes s) && looseBefore s before.reverse then .strictPlain
    else endingOf l from rfl]
  refine ⟨fun h => ?_, fun h1 h2 => ?_, fun h1 h2 => ?_⟩
  · rw [if_pos ((endsInPair_iff s l).2 h)]
    rfl
  · rw [if_neg (by rw [endsInPair_iff]; exact h1), if_pos ((strictPlain_iff before s l).2 h2)]
  · rw [if_neg (by rw [endsInPair_iff]; exact h1), if_neg (by rw [strictPlain_iff]; exact h2)]
    unfold endingOf
    cases l.kind <;> simp

/-! ### A comparison of the optional chain -/

theorem conj_two (W : World V) (s l : Expr) (r : V) : ∀ gs : List Expr, W.conjunction (gs ++ [s, l]) = some r →
    (∃ v, W.conjunction (gs ++ [s]) = some v ∧ W.truthy v = true ∧ W.value l = some r) ∨ (W.conjunction (gs ++ [s]) = some r ∧ W.truthy r = false)
  | [], h => by
    have h : (match W.value s with
      | none => none
      | some v => if W.truthy v = true then W.value l else some v) = some r := h
    cases hs : W.value s with
    | none => rw [hs] at h; cases h
    | some v =>
      rw [hs] at h
      simp only at h
      have hc : W.conjunction ([] ++ [s]) = W.value s := rfl
      rw [hc, hs]
      by_cases ht : W.truthy v = true
      · rw [if_pos ht] at h; exact .inl ⟨v, rfl, ht, h⟩
      · rw [if_neg ht] at h; cases h; exact .inr ⟨rfl, by simpa using ht⟩
  | g :: gs, h => by
    have hcons : ∀ x xs, W.conjunction (g :: gs ++ x :: xs) = match W.value g with
      | none => none
      | some v => if W.truthy v = true then W.conjunction (gs ++ x :: xs) else some v := by
      intro x xs; cases gs <;> rfl
    rw [hcons] at h ⊢
    cases hg : W.value g with
    | none => rw [hg] at h; cases h
    | some v =>
      rw [hg] at h
      simp only at h ⊢
      by_cases ht : W.truthy v = true
      · rw [if_pos ht] at h ⊢; exact conj_two W s l r gs h
      · rw [if_neg ht] at h ⊢; cases h; exact .inr ⟨rfl, by simpa using ht⟩

/-- what `andChain_code` says of the new code: it has the value of `T` where the guards do not throw, and is undefined if a guard's expression is null or undefined -/
def Stands (W : World V) (gs : List Expr) (T e' : Expr) : Prop :=
  (∀ x, (∀ g ∈ gs, W.value (parse true g).target ≠ none) → W.value T = some x → W.value e' = some x) ∧
  (∀ a f b x, gs = a ++ f :: b → (∀ g ∈ a, W.value (parse true g).target ≠ none) → W.value (parse true f).target = some x → W.Nullish x →
    ∃ y, W.Nullish y ∧ ((parse true f).target.size < T.size → y = W.undef) ∧ W.value e' = some y)

theorem Stands.passed {W : World V} {gs : List Expr} {T e' : Expr} (h : Stands W gs T e') (hW : W.Lawful) (hk : ∀ g ∈ gs, Guard (parse true g))
    (hg : ∀ g ∈ gs, ∃ v, W.value g = some v ∧ W.truthy v = true) (x : V) (hx : W.value T = some x) : W.value e' = some x := by
  refine h.1 x (fun g hgm => ?_) hx
  obtain ⟨v, hv, _⟩ := hg g hgm
  obtain ⟨x, hx, _⟩ := guard_target W hW g (hk g hgm) v hv
  rw [hx]; nofun

theorem Stands.stopped {W : World V} {gs : List Expr} {T e' : Expr} (h : Stands W gs T e') (hW : W.Lawful) (hk : ∀ g ∈ gs, Guard (parse true g))
    (hlt : ∀ g ∈ gs, (parse true g).target.size < T.size)
    (hplain : ∀ g ∈ gs, (parse true g).kind = .plain → ∀ v, W.value g = some v → W.truthy v = true ∨ W.Nullish v) (r : V) (a : List Expr) (f : Expr) (b : List Expr)
    (hG : gs = a ++ f :: b) (hg : ∀ g ∈ a, ∃ v, W.value g = some v ∧ W.truthy v = true) (hf : W.value f = some r) (hfalse : W.truthy r = false) :
    W.value e' = some W.undef := by
  have hfm : f ∈ gs := by rw [hG]; simp
  obtain ⟨x', hx', hnull⟩ := guard_target W hW f (hk f hfm) r hf
  obtain ⟨y', _, hu, hye⟩ := h.2 a f b x' hG (fun g hgm => by
    obtain ⟨v, hv, _⟩ := hg g hgm
    obtain ⟨x, hx, _⟩ := guard_target W hW g (hk g (by rw [hG]; simp [hgm])) v hv
    rw [hx]; nofun) hx' (hnull hfalse fun hp => hplain f hfm hp r hf)
  rw [hye, hu (hlt f hfm)]

/-- one expression can take the place of another one: the same value, or both falsy -/
def Replaces (W : World V) (es : List Expr) (e' : Expr) : Prop :=
  ∀ r, W.conjunction es = some r → (W.value e' = some r ∨ (W.truthy r = false ∧ ∃ z, W.truthy z = false ∧ W.value e' = some z))

/-- the optional chain takes the place of the compared expression -/
theorem compared (W : World V) (hW : W.Lawful) (gs : List Expr) (lhs rhs : Expr) (o : Op) (t : Text) (ho : o.eager) (hk : ∀ g ∈ gs, Guard (parse true g))
    (x y : Expr) (hxy : (x, y) = if onRight true lhs o rhs then (rhs, lhs) else (lhs, rhs)) (hx : isParen x = false)
    (hlt : ∀ g ∈ gs, (parse true g).target.size < x.size) (hy : W.value y ≠ none)
    (hsafe : ∀ b, W.value y = some b → ∃ z, (if onRight true lhs o rhs then W.op o b W.undef else W.op o W.undef b) = some z ∧ W.truthy z = false)
    (hplain : ∀ g ∈ gs, (parse true g).kind = .plain → ∀ v, W.value g = some v → W.truthy v = true ∨ W.Nullish v)
    (inner : Text) (e' : Expr) (h1 : inner = e'.text) (h2 : e'.bare = x.bare) (h : Stands W gs x e') :
    ∃ e'', withComparison false (.binary lhs o t rhs) inner = e''.text ∧ e''.bare = (Expr.binary lhs o t rhs).bare ∧ Replaces W (gs ++ [.binary lhs o t rhs]) e'' := by
  obtain ⟨b, hb⟩ := Option.ne_none_iff_exists'.1 hy
  obtain ⟨z, hz, hzf⟩ := hsafe b hb
  cases hR : onRight true lhs o rhs with
  | false =>
    rw [hR] at hxy hz
    simp only [Bool.false_eq_true, if_false, Prod.mk.injEq] at hxy hz
    obtain ⟨rfl, rfl⟩ := hxy
    refine ⟨.binary e' o t y, ?_, ?_, fun r hr => ?_⟩
    · rw [text_binary, h1]; simp only [withComparison, hR, hx, Bool.false_eq_true, if_false]
    · simp only [Expr.bare, h2]
    · rcases conj_split W _ r gs hr with ⟨hg, hlr⟩ | ⟨a, f, b', hG, hg, hf, hfalse⟩
      · left
        obtain ⟨va, vb, hva, hvb, hop⟩ := (value_binary W _ _ _ _ ho _).1 hlr
        exact (value_binary W _ _ _ _ ho _).2 ⟨va, vb, h.passed hW hk hg va hva, hvb, hop⟩
      · right
        exact ⟨hfalse, z, hzf, (value_binary W _ _ _ _ ho _).2 ⟨_, b, h.stopped hW hk hlt hplain r a f b' hG hg hf hfalse, hb, hz⟩⟩
  | true =>
    rw [hR] at hxy hz
    simp only [if_true, Prod.mk.injEq] at hxy hz
    obtain ⟨rfl, rfl⟩ := hxy
    refine ⟨.binary y o t e', ?_, ?_, fun r hr => ?_⟩
    · rw [text_binary, h1]; simp only [withComparison, hR, opening_bare x hx, Bool.false_eq_true, if_true, if_false, List.append_nil]
    · simp only [Expr.bare, h2]
    · rcases conj_split W _ r gs hr with ⟨hg, hlr⟩ | ⟨a, f, b', hG, hg, hf, hfalse⟩
      · left
        obtain ⟨va, vb, hva, hvb, hop⟩ := (value_binary W _ _ _ _ ho _).1 hlr
        exact (value_binary W _ _ _ _ ho _).2 ⟨va, vb, hva, h.passed hW hk hg vb hvb, hop⟩
      · right
        exact ⟨hfalse, z, hzf, (value_binary W _ _ _ _ ho _).2 ⟨b, _, hb, h.stopped hW hk hlt hplain r a f b' hG hg hf hfalse, hz⟩⟩

/-- what replaces all operands but the last one, joined by `&&` with the last one -/
theorem kept_value (W : World V) (gs : List Expr) (s l e'' : Expr) (between : Text) (h : Replaces W (gs ++ [s]) e'') : Replaces W (gs ++ [s, l]) (.binary e'' .and between l) := by
  intro r hr
  rw [value_and]
  rcases conj_two W s l r gs hr with ⟨v, hc, ht, hl⟩ | ⟨hc, hf⟩
  · rcases h v hc with h | ⟨h, _⟩
    · left; rw [h]; simp only [ht, if_true, hl]
    · rw [ht] at h; cases h
  · rcases h r hc with h | ⟨_, z, hz, h⟩
    · left; rw [h]; simp [hf]
    · right; exact ⟨hf, z, hz, by rw [h]; simp [hz]⟩


/-- the code of a chain that keeps its last operand -/
theorem andCode_kept (between : Text) (gs : List Expr) (s l g0 : Expr) (hg0 : gs.head? = some g0) (hend : (ending (parsed (gs ++ [s]) l).reverse).keepsLast = true) (code : Text)
    (hcode : andCode between (parsed (gs ++ [s]) l) = some code) :
    ∃ inner, andChain (parsed (gs ++ [s]) l) (parse true g0) (parse true l) (parse true s) gs.length = some inner ∧
      code = withComparison (decide (ending (parsed (gs ++ [s]) l).reverse = .pair true)) s inner ++ between ++ l.text := by
  have hrev : (parsed (gs ++ [s]) l).reverse = parse true l :: parse true s :: (gs.map (parse true)).reverse := by simp [parsed]
  obtain ⟨rest, hrest⟩ : ∃ rest, parsed (gs ++ [s]) l = parse true g0 :: rest := by
    cases gs with
    | nil => simp at hg0
    | cons i gs => simp at hg0; subst hg0; exact ⟨_, rfl⟩
  unfold andCode at hcode
  rw [hrev] at hcode hend ⊢
  generalize hp : parsed (gs ++ [s]) l = P at hcode hrest ⊢
  subst hrest
  simp only [hend, if_true, parse_node] at hcode
  have hlenP : (parse true g0 :: rest).length - 2 = gs.length := by rw [← hp]; simp [parsed]
  rw [hlenP] at hcode
  obtain ⟨inner, h1, h2⟩ := Option.map_eq_some_iff.1 hcode
  refine ⟨inner, h1, ?_⟩
  rw [← h2]
  generalize ending (parse true l :: parse true s :: (gs.map (parse true)).reverse) = e at hend ⊢
  cases e with
  | pair ty => cases ty <;> rfl
  | strictPlain => rfl
  | plain => cases hend
  | comparison => cases hend
  | typeof => cases hend

/-- the last two operands, and the chain without the last one -/
theorem linked_init {gs : List Expr} {s l : Expr} (h : Linked (parsed (gs ++ [s]) l)) : Linked (parsed gs s) := by
  intro a p q b hc
  refine h a p q (b ++ [parse true l]) ?_
  have : parsed (gs ++ [s]) l = parsed gs s ++ [parse true l] := by simp [parsed]
  rw [this, hc]; simp

theorem checks_kept (gs : List Expr) (s l : Expr) (hlink : Linked (parsed (gs ++ [s]) l)) : ∃ xs, checks (parsed (gs ++ [s]) l) = gs.map (parse true) ++ xs ∧
    (xs = [] ∨ ∃ x ys, xs = x :: ys ∧ ∀ y ∈ ys, (parse true s).target.size ≤ y.target.size) := by
  have hlast : (parsed (gs ++ [s]) l).getLast? = some (parse true l) := by simp [parsed]
  unfold checks
  rw [hlast]
  simp only
  split
  · exact ⟨[parse true s], by simp [parsed], .inr ⟨_, [], rfl, nofun⟩⟩
  · refine ⟨[parse true s, parse true l], by simp [parsed], .inr ⟨_, _, rfl, fun y hy => ?_⟩⟩
    rw [List.mem_singleton] at hy
    subst hy
    have hpw := linked_pairwise _ hlink
    have : parsed (gs ++ [s]) l = gs.map (parse true) ++ [parse true s, parse true l] := by simp [parsed]
    rw [this, List.pairwise_append] at hpw
    have := (List.pairwise_cons.1 hpw.2.1).1 (parse true l) (List.mem_singleton.2 rfl)
    rw [target_size, target_size]
    exact this.size

/-- **C114** A chain whose last operand is kept: the new expression is the comparison of the optional chain, `&&` and the last operand. It has the same value where the
guards let through; where one stopped, both are falsy, if undefined compared with the other side is -/
theorem kept_meaning (W : World V) (hW : W.Lawful) (gs : List Expr) (lhs rhs l : Expr) (o : Op) (t : Text) (ho : o.eager) (hne : gs ≠ [])
    (hlink : Linked (parsed (gs ++ [.binary lhs o t rhs]) l)) (hk : ∀ g ∈ gs, Guard (parse true g))
    (hs : (parse true (.binary lhs o t rhs)).kind ∈ [.notNull, .notUndef]) (hend : (ending (parsed (gs ++ [.binary lhs o t rhs]) l).reverse).keepsLast = true)
    (x y : Expr) (hxy : (x, y) = if onRight true lhs o rhs then (rhs, lhs) else (lhs, rhs)) (hx : isParen x = false)
    (hlen : links false x ≠ []) (hnb : NoBang x) (hw : ∀ g ∈ gs, WrittenAlike (parse true g).target x) (hlt : ∀ g ∈ gs, (parse true g).target.size < x.size)
    (hcalm : Calm W x) (hy : W.value y ≠ none)
    (hsafe : ∀ b, W.value y = some b → ∃ z, (if onRight true lhs o rhs then W.op o b W.undef else W.op o W.undef b) = some z ∧ W.truthy z = false)
    (hplain : ∀ g ∈ gs, (parse true g).kind = .plain → ∀ v, W.value g = some v → W.truthy v = true ∨ W.Nullish v)
    (between code : Text) (hcode : andCode between (parsed (gs ++ [.binary lhs o t rhs]) l) = some code) :
    ∃ e', code = (Expr.binary e' .and between l).text ∧ e'.bare = (Expr.binary lhs o t rhs).bare ∧ Replaces W (gs ++ [.binary lhs o t rhs, l]) (.binary e' .and between l) := by
  have hki : (parse true (.binary lhs o t rhs)).kind ≠ .invalid ∧ (parse true (.binary lhs o t rhs)).kind ≠ .typeof ∧ (parse true (.binary lhs o t rhs)).kind ≠ .plain := by
    simp only [List.mem_cons, List.not_mem_nil, or_false] at hs
    rcases hs with h | h <;> rw [h] <;> exact ⟨nofun, nofun, nofun⟩
  have ht : (parse true (.binary lhs o t rhs)).target = x := by
    unfold Operand.target; rw [if_neg (by simpa using hki.2.2)]
    rw [expr_side true lhs o t rhs hki.1 hki.2.1]
    cases hR : onRight true lhs o rhs <;> rw [hR] at hxy <;> simp only [Bool.false_eq_true, if_true, if_false, Prod.mk.injEq] at hxy ⊢ <;> rw [← hxy.1] <;> exact skip_bare x hx
  obtain ⟨g0, hg0⟩ : ∃ g0, gs.head? = some g0 := by cases gs with | nil => exact absurd rfl hne | cons g _ => exact ⟨g, rfl⟩
  obtain ⟨inner, hac, hcode2⟩ := andCode_kept between gs _ l g0 hg0 hend code hcode
  have hty : decide (ending (parsed (gs ++ [.binary lhs o t rhs]) l).reverse = .pair true) = false := by
    rw [decide_eq_false_iff_not]
    have hp : parsed (gs ++ [.binary lhs o t rhs]) l = gs.map (parse true) ++ [parse true (.binary lhs o t rhs), parse true l] := by simp [parsed]
    rw [hp]
    obtain ⟨h1, h2, h3⟩ := ending_eq (gs.map (parse true)) (parse true (.binary lhs o t rhs)) (parse true l)
    by_cases hpair : Pair (parse true (.binary lhs o t rhs)) (parse true l)
    · rw [h1 hpair]; simp [hki.2.1]
    · rw [hp] at hend
      by_cases hst : StrictThenPlain (gs.map (parse true)) (parse true (.binary lhs o t rhs)) (parse true l)
      · rw [h2 hpair hst]; nofun
      · obtain ⟨h3, h4, h5⟩ := h3 hpair hst
        by_cases ha : (parse true l).kind ∈ [Kind.comparison, .notNull, .notUndef, .notBoth]
        · rw [h3 ha]; nofun
        · by_cases hb : (parse true l).kind = .typeof
          · rw [h4 hb]; nofun
          · rw [h5 (by simp_all)]; nofun
  rw [hty] at hcode2
  obtain ⟨e', h1, h2, h3, h4⟩ := andChain_code W _ gs _ g0 hg0 (linked_init hlink) hk (checks_kept gs _ l hlink) (by rw [ht]; exact hlen) (by rw [ht]; exact hnb)
    (by rw [ht]; exact hw) (by rw [ht]; exact hcalm) _ inner hac
  rw [ht] at h2 h3 h4
  obtain ⟨e'', h5, h6, h7⟩ := compared W hW gs lhs rhs o t ho hk x y hxy hx hlt hy hsafe hplain inner e' h1 h2 ⟨h3, h4⟩
  exact ⟨e'', by rw [hcode2, h5, text_binary], h6, kept_value W gs _ l e'' between h7⟩

/-! ### `typeof` -/

/-- the same parentheses around another expression -/
def reparen : Expr → Expr → Expr
  | paren e, x => paren (reparen e x)
  | _, x => x

theorem reparen_text : ∀ e x : Expr, (reparen e x).text = opening e ++ x.text ++ closing e
  | .paren e, x => by rw [reparen, text_paren, reparen_text e x, opening, closing]; simp
  | .ident _ _, _ | .keyword _ _, _ | .literal _ _ _, _ | .prop _ _ _, _ | .elem _ _ _, _ | .call _ _ _ _, _ | .nonNull _, _ | .asType _ _, _ | .assertion _ _, _
  | .binary _ _ _ _, _ | .unary _ _, _ | .typeof _, _ | .template _ _ _, _ | .await _, _ | .metaProp _ _ _, _ | .other _ _ _, _ => by simp [reparen, opening, closing]

theorem reparen_value (W : World V) : ∀ e x : Expr, W.value (reparen e x) = W.value x
  | .paren e, x => by rw [reparen, value_paren, reparen_value W e x]
  | .ident _ _, _ | .keyword _ _, _ | .literal _ _ _, _ | .prop _ _ _, _ | .elem _ _ _, _ | .call _ _ _ _, _ | .nonNull _, _ | .asType _ _, _ | .assertion _ _, _
  | .binary _ _ _ _, _ | .unary _ _, _ | .typeof _, _ | .template _ _ _, _ | .await _, _ | .metaProp _ _ _, _ | .other _ _ _, _ => rfl

theorem reparen_bare : ∀ e x : Expr, (reparen e x).bare = x.bare
  | .paren e, x => by rw [reparen, Expr.bare, reparen_bare e x]
  | .ident _ _, _ | .keyword _ _, _ | .literal _ _ _, _ | .prop _ _ _, _ | .elem _ _ _, _ | .call _ _ _ _, _ | .nonNull _, _ | .asType _ _, _ | .assertion _ _, _
  | .binary _ _ _ _, _ | .unary _ _, _ | .typeof _, _ | .template _ _ _, _ | .await _, _ | .metaProp _ _ _, _ | .other _ _ _, _ => rfl

theorem skip_bare' : ∀ e : Expr, e.skip.bare = e.bare
  | .paren e => by rw [Expr.skip, Expr.bare, skip_bare' e]
  | .ident _ _ | .keyword _ _ | .literal _ _ _ | .prop _ _ _ | .elem _ _ _ | .call _ _ _ _ | .nonNull _ | .asType _ _ | .assertion _ _
  | .binary _ _ _ _ | .unary _ _ | .typeof _ | .template _ _ _ | .await _ | .metaProp _ _ _ | .other _ _ _ => rfl

theorem andCheck_typeof (o : Op) (x v : Expr) : andCheck o x v ≠ some .typeof := by
  intro h
  unfold andCheck at h
  repeat' (first | cases h | split at h)

/-- a `typeof` check -/
theorem typeof_shape (lhs rhs : Expr) (o : Op) (t : Text) (h : (parse true (.binary lhs o t rhs)).kind = .typeof) : (o = .sne ∨ o = .ne) ∧
    ((onRight true lhs o rhs = false ∧ lhs.skip = .typeof (parse true (.binary lhs o t rhs)).expr ∧ ∃ p, rhs = .literal p .string "undefined".toList) ∨
     (onRight true lhs o rhs = true ∧ rhs.skip = .typeof (parse true (.binary lhs o t rhs)).expr ∧ ∃ p, lhs = .literal p .string "undefined".toList)) := by
  unfold parse at h ⊢
  split at h
  · cases h
  rename_i h1
  rw [if_neg h1]
  split at h
  · cases h
  rename_i h2
  rw [if_neg h2]
  simp only [Expr.unwrap] at h ⊢
  unfold parseBinary at h ⊢
  unfold onRight
  cases hn : nullishOperand true lhs o rhs with
  | none =>
    rw [hn] at h
    simp only at h
    split at h <;> cases h
  | some kx =>
    obtain ⟨k, x⟩ := kx
    rw [hn] at h
    simp only at h ⊢
    subst h
    unfold nullishOperand at hn
    unfold sides at hn
    cases h3 : isNullishLit rhs || isStringLit rhs with
    | true =>
      rw [h3] at hn
      simp only [if_true] at hn
      cases h4 : typeofCheck true o lhs.skip rhs with
      | some e =>
        rw [h4] at hn
        simp only [Option.some.injEq, Prod.mk.injEq, true_and] at hn
        subst hn
        obtain ⟨h5, h6, h7⟩ := typeofCheck_spec h4
        exact ⟨h7, .inl ⟨rfl, h5, h6⟩⟩
      | none =>
        rw [h4] at hn
        cases h5 : andCheck o lhs.skip rhs with
        | none => simp [h5] at hn
        | some k' => simp [h5] at hn; rw [hn.1] at h5; exact absurd h5 (andCheck_typeof _ _ _)
    | false =>
      rw [h3] at hn
      simp only [Bool.false_eq_true, if_false] at hn
      cases h6 : isNullishLit lhs || isStringLit lhs with
      | false => rw [h6] at hn; simp at hn
      | true =>
        rw [h6] at hn
        simp only [if_true] at hn
        cases h4 : typeofCheck true o rhs.skip lhs with
        | some e =>
          rw [h4] at hn
          simp only [Option.some.injEq, Prod.mk.injEq, true_and] at hn
          subst hn
          obtain ⟨h5, h6, h7⟩ := typeofCheck_spec h4
          exact ⟨h7, .inr ⟨rfl, h5, h6⟩⟩
        | none =>
          rw [h4] at hn
          cases h5 : andCheck o rhs.skip lhs with
          | none => simp [h5] at hn
          | some k' => simp [h5] at hn; rw [hn.1] at h5; exact absurd h5 (andCheck_typeof _ _ _)

/-- with a link, it is no variable -/
theorem resolvable (W : World V) (T e' : Expr) (hlen : links false T ≠ []) (hb : e'.bare = T.bare) : ¬ Expr.unresolvable W e' := by
  rintro ⟨p, n, h, _⟩
  have h1 : e'.bare = .ident 0 n := by rw [← bare_unwrap, h]; simp only [Expr.bare]
  rw [hb, ← bare_links false T] at h1
  obtain ⟨ps, q, hq⟩ : ∃ ps q, links false T = ps ++ [q] := by
    rcases List.eq_nil_or_concat (links false T) with h | ⟨a, b, h⟩
    · exact absurd h hlen
    · exact ⟨a, b, by rw [h]; simp⟩
  rw [hq, assemble_append] at h1
  have h2 : (q.apply (assemble (rootOf false T) ps)).bare = .ident 0 n := h1
  obtain ⟨s, o, b⟩ := q
  cases b <;> cases s <;> simp [Piece.apply, Step.apply, Expr.bare] at h2

theorem typeof_known (W : World V) (e : Expr) (h : ¬ Expr.unresolvable W e) (v : V) (hv : W.value e = some v) : W.value (.typeof e) = some (W.typeof v) := by
  rw [World.value] at hv
  rw [World.value, World.eval, if_neg h, hv]; rfl

/-- the optional chain takes the place of the expression under `typeof` -/
theorem typeof_compared (W : World V) (hW : W.Lawful) (gs : List Expr) (lhs rhs : Expr) (o : Op) (t : Text) (hk : ∀ g ∈ gs, Guard (parse true g))
    (hs : (parse true (.binary lhs o t rhs)).kind = .typeof) (x : Expr) (hx : x = (parse true (.binary lhs o t rhs)).expr) (hlen : links false x ≠ [])
    (hlt : ∀ g ∈ gs, (parse true g).target.size < x.size)
    (hplain : ∀ g ∈ gs, (parse true g).kind = .plain → ∀ v, W.value g = some v → W.truthy v = true ∨ W.Nullish v)
    (inner : Text) (e' : Expr) (h1 : inner = e'.text) (h2 : e'.bare = x.bare) (h : Stands W gs x e') :
    ∃ e'', withComparison true (.binary lhs o t rhs) inner = e''.text ∧ e''.bare = (Expr.binary lhs o t rhs).bare ∧ Replaces W (gs ++ [.binary lhs o t rhs]) e'' := by
  have hshape := typeof_shape lhs rhs o t hs
  rw [← hx] at hshape
  obtain ⟨hop, hshape⟩ := hshape
  have ho : o.eager := by rcases hop with rfl | rfl <;> exact ⟨nofun, nofun, nofun⟩
  have hself := resolvable W x x hlen rfl
  have hnew := resolvable W x e' hlen h2
  have hundef : W.typeof W.undef = W.undefText := (hW.typeof _).2 rfl
  have hfalsy : ∃ z, W.op o W.undefText W.undefText = some z ∧ W.truthy z = false := by
    rcases hop with rfl | rfl
    · obtain ⟨r, h1, h2⟩ := hW.sne W.undefText W.undefText (.inr (.inr ⟨.inl rfl, .inl rfl⟩))
      exact ⟨r, h1, by cases ht : W.truthy r; rfl; exact absurd rfl (h2.1 ht)⟩
    · obtain ⟨r, h1, h2⟩ := hW.textNe W.undefText W.undefText (.inl rfl) (.inl rfl)
      exact ⟨r, h1, by cases ht : W.truthy r; rfl; exact absurd rfl (h2.1 ht)⟩
  obtain ⟨z, hz, hzf⟩ := hfalsy
  have hlit : ∀ p, W.value (.literal p .string "undefined".toList) = some W.undefText := by
    intro p; rw [World.value, World.eval, hW.undefText]; rfl
  have htext : ("typeof ".toList ++ inner : Text) = (Expr.typeof e').text := by rw [h1]; rfl
  have hpass : ∀ r side, (side : Expr).skip = .typeof x → (∀ g ∈ gs, ∃ v, W.value g = some v ∧ W.truthy v = true) → W.value side = some r → W.value (reparen side (.typeof e')) = some r := by
    intro r side hside hg hr
    rw [reparen_value]
    rw [← value_skip, hside] at hr
    rcases typeof_value W hW x r hr with ⟨hu, _⟩ | ⟨b, hb, rfl⟩
    · exact absurd hu hself
    · exact typeof_known W e' hnew b (h.passed hW hk hg b hb)
  have hstop : ∀ r a f b side, gs = a ++ f :: b → (∀ g ∈ a, ∃ v, W.value g = some v ∧ W.truthy v = true) → W.value f = some r → W.truthy r = false →
      W.value (reparen side (.typeof e')) = some W.undefText := by
    intro r a f b side hG hg hf hfalse
    rw [reparen_value, ← hundef]
    exact typeof_known W e' hnew _ (h.stopped hW hk hlt hplain r a f b hG hg hf hfalse)
  rcases hshape with ⟨hR, hside, p, rfl⟩ | ⟨hR, hside, p, rfl⟩
  · refine ⟨.binary (reparen lhs (.typeof e')) o t (.literal p .string "undefined".toList), ?_, ?_, fun r hr => ?_⟩
    · rw [text_binary, reparen_text, ← htext]; simp only [withComparison, hR, if_true, Bool.false_eq_true, if_false, List.append_assoc]
    · simp only [Expr.bare, reparen_bare, h2]
      rw [← skip_bare' lhs, hside, Expr.bare]
    · rcases conj_split W _ r gs hr with ⟨hg, hlr⟩ | ⟨a, f, b', hG, hg, hf, hfalse⟩
      · left
        obtain ⟨va, vb, hva, hvb, hop⟩ := (value_binary W _ _ _ _ ho _).1 hlr
        exact (value_binary W _ _ _ _ ho _).2 ⟨va, vb, hpass va lhs hside hg hva, hvb, hop⟩
      · right
        exact ⟨hfalse, z, hzf, (value_binary W _ _ _ _ ho _).2 ⟨_, _, hstop r a f b' lhs hG hg hf hfalse, hlit p, hz⟩⟩
  · refine ⟨.binary (.literal p .string "undefined".toList) o t (reparen rhs (.typeof e')), ?_, ?_, fun r hr => ?_⟩
    · rw [text_binary, reparen_text, ← htext]; simp only [withComparison, hR, if_true, List.append_assoc]
    · simp only [Expr.bare, reparen_bare, h2]
      rw [← skip_bare' rhs, hside, Expr.bare]
    · rcases conj_split W _ r gs hr with ⟨hg, hlr⟩ | ⟨a, f, b', hG, hg, hf, hfalse⟩
      · left
        obtain ⟨va, vb, hva, hvb, hop⟩ := (value_binary W _ _ _ _ ho _).1 hlr
        exact (value_binary W _ _ _ _ ho _).2 ⟨va, vb, hva, hpass vb rhs hside hg hvb, hop⟩
      · right
        exact ⟨hfalse, z, hzf, (value_binary W _ _ _ _ ho _).2 ⟨_, _, hlit p, hstop r a f b' rhs hG hg hf hfalse, hz⟩⟩

/-- the code of a chain that ends in a `typeof` check -/
theorem andCode_typeof (between : Text) (gs : List Expr) (l g0 : Expr) (hg0 : gs.head? = some g0) (hend : ending (parsed gs l).reverse = .typeof) (code : Text)
    (hcode : andCode between (parsed gs l) = some code) :
    ∃ inner, andChain (parsed gs l) (parse true g0) (parse true l) (parse true l) gs.length = some inner ∧ code = withComparison true l inner := by
  obtain ⟨init, s, rfl⟩ : ∃ init s, gs = init ++ [s] := by
    rcases List.eq_nil_or_concat gs with rfl | ⟨i, s, rfl⟩
    · cases hg0
    · exact ⟨i, s, by simp⟩
  have hrev : (parsed (init ++ [s]) l).reverse = parse true l :: parse true s :: (init.map (parse true)).reverse := by simp [parsed]
  obtain ⟨rest, hrest⟩ : ∃ rest, parsed (init ++ [s]) l = parse true g0 :: rest := by
    cases init with
    | nil => simp at hg0; subst hg0; exact ⟨_, rfl⟩
    | cons i init => simp at hg0; subst hg0; exact ⟨_, rfl⟩
  unfold andCode at hcode
  rw [hrev] at hcode hend
  generalize hp : parsed (init ++ [s]) l = P at hcode hrest ⊢
  subst hrest
  simp only [hend, Ending.keepsLast, Bool.false_eq_true, if_false, parse_node] at hcode
  have hlenP : (parse true g0 :: rest).length - 1 = (init ++ [s]).length := by rw [← hp]; simp [parsed]
  rw [hlenP] at hcode
  obtain ⟨inner, h1, h2⟩ := Option.map_eq_some_iff.1 hcode
  exact ⟨inner, h1, h2.symm⟩

theorem ending_typeof (gs : List Expr) (s l : Expr) (hl : (parse true l).kind = .typeof) (hp : ¬ Pair (parse true s) (parse true l)) : ending (parsed (gs ++ [s]) l).reverse = .typeof := by
  have hp' : parsed (gs ++ [s]) l = gs.map (parse true) ++ [parse true s, parse true l] := by simp [parsed]
  rw [hp']
  refine ((ending_eq _ _ _).2.2 hp ?_).2.1 hl
  rintro ⟨h, _⟩
  rw [hl] at h; cases h

/-- **C114** A `typeof` check at the end is kept: the new expression asks for the type of the optional chain. It has the same value where the guards let through; where
one stopped, both are falsy -/
theorem typeof_meaning (W : World V) (hW : W.Lawful) (gs : List Expr) (s lhs rhs : Expr) (o : Op) (t : Text)
    (hlink : Linked (parsed (gs ++ [s]) (.binary lhs o t rhs))) (hk : ∀ g ∈ gs ++ [s], Guard (parse true g))
    (hl : (parse true (.binary lhs o t rhs)).kind = .typeof) (hpair : ¬ Pair (parse true s) (parse true (.binary lhs o t rhs)))
    (x : Expr) (hx : x = (parse true (.binary lhs o t rhs)).expr)
    (hlen : links false x ≠ []) (hnb : NoBang x) (hw : ∀ g ∈ gs ++ [s], WrittenAlike (parse true g).target x) (hlt : ∀ g ∈ gs ++ [s], (parse true g).target.size < x.size)
    (hcalm : Calm W x) (hplain : ∀ g ∈ gs ++ [s], (parse true g).kind = .plain → ∀ v, W.value g = some v → W.truthy v = true ∨ W.Nullish v)
    (between code : Text) (hcode : andCode between (parsed (gs ++ [s]) (.binary lhs o t rhs)) = some code) :
    ∃ e', code = e'.text ∧ e'.bare = (Expr.binary lhs o t rhs).bare ∧ Replaces W ((gs ++ [s]) ++ [.binary lhs o t rhs]) e' := by
  have ht : (parse true (.binary lhs o t rhs)).target = x := by
    unfold Operand.target; rw [if_neg (by rw [hl]; nofun)]; exact hx.symm
  obtain ⟨g0, hg0⟩ : ∃ g0, (gs ++ [s]).head? = some g0 := by cases gs <;> exact ⟨_, rfl⟩
  have hchecks : checks (parsed (gs ++ [s]) (.binary lhs o t rhs)) = (gs ++ [s]).map (parse true) ++ [parse true (.binary lhs o t rhs)] := by
    unfold checks
    rw [parsed_eq]
    simp [hl]
  obtain ⟨inner, hac, hcode2⟩ := andCode_typeof between _ _ g0 hg0 (ending_typeof gs s _ hl hpair) code hcode
  obtain ⟨e', h1, h2, h3, h4⟩ := andChain_code W _ (gs ++ [s]) _ g0 hg0 hlink hk ⟨_, hchecks, .inr ⟨_, [], rfl, nofun⟩⟩ (by rw [ht]; exact hlen) (by rw [ht]; exact hnb)
    (by rw [ht]; exact hw) (by rw [ht]; exact hcalm) _ inner hac
  rw [ht] at h2 h3 h4
  obtain ⟨e'', h5, h6, h7⟩ := typeof_compared W hW (gs ++ [s]) lhs rhs o t hk hl x hx hlen hlt hplain inner e' h1 h2 ⟨h3, h4⟩
  exact ⟨e'', by rw [hcode2, h5], h6, h7⟩

/-- **C114** A `typeof` check that a comparison of the same expression with null follows: both are kept, the first one of the optional chain -/
theorem kept_typeof_meaning (W : World V) (hW : W.Lawful) (gs : List Expr) (lhs rhs l : Expr) (o : Op) (t : Text) (hne : gs ≠ [])
    (hlink : Linked (parsed (gs ++ [.binary lhs o t rhs]) l)) (hk : ∀ g ∈ gs, Guard (parse true g))
    (hs : (parse true (.binary lhs o t rhs)).kind = .typeof) (hpair : Pair (parse true (.binary lhs o t rhs)) (parse true l))
    (x : Expr) (hx : x = (parse true (.binary lhs o t rhs)).expr)
    (hlen : links false x ≠ []) (hnb : NoBang x) (hw : ∀ g ∈ gs, WrittenAlike (parse true g).target x) (hlt : ∀ g ∈ gs, (parse true g).target.size < x.size)
    (hcalm : Calm W x) (hplain : ∀ g ∈ gs, (parse true g).kind = .plain → ∀ v, W.value g = some v → W.truthy v = true ∨ W.Nullish v)
    (between code : Text) (hcode : andCode between (parsed (gs ++ [.binary lhs o t rhs]) l) = some code) :
    ∃ e', code = (Expr.binary e' .and between l).text ∧ e'.bare = (Expr.binary lhs o t rhs).bare ∧ Replaces W (gs ++ [.binary lhs o t rhs, l]) (.binary e' .and between l) := by
  have ht : (parse true (.binary lhs o t rhs)).target = x := by
    unfold Operand.target; rw [if_neg (by rw [hs]; nofun)]; exact hx.symm
  obtain ⟨g0, hg0⟩ : ∃ g0, gs.head? = some g0 := by cases gs with | nil => exact absurd rfl hne | cons g _ => exact ⟨g, rfl⟩
  have hend : ending (parsed (gs ++ [.binary lhs o t rhs]) l).reverse = .pair true := by
    have hp : parsed (gs ++ [.binary lhs o t rhs]) l = gs.map (parse true) ++ [parse true (.binary lhs o t rhs), parse true l] := by simp [parsed]
    rw [hp, (ending_eq _ _ _).1 hpair, hs]; rfl
  obtain ⟨inner, hac, hcode2⟩ := andCode_kept between gs _ l g0 hg0 (by rw [hend]; rfl) code hcode
  rw [hend, decide_eq_true rfl] at hcode2
  obtain ⟨e', h1, h2, h3, h4⟩ := andChain_code W _ gs _ g0 hg0 (linked_init hlink) hk (checks_kept gs _ l hlink) (by rw [ht]; exact hlen) (by rw [ht]; exact hnb)
    (by rw [ht]; exact hw) (by rw [ht]; exact hcalm) _ inner hac
  rw [ht] at h2 h3 h4
  obtain ⟨e'', h5, h6, h7⟩ := typeof_compared W hW gs lhs rhs o t hk hs x hx hlen hlt hplain inner e' h1 h2 ⟨h3, h4⟩
  exact ⟨e'', by rw [hcode2, h5, text_binary], h6, kept_value W gs _ l e'' between h7⟩

/-! ### Where the question marks are -/

theorem withMarks_exact (L : List Nat) (c : Bool) : ∀ (ps : List Piece) (i j : Nat) (n : Piece), (withMarks L c i ps)[j]? = some n →
    ∃ p, ps[j]? = some p ∧ n.step = p.step ∧ n.opt = made L c (decide (j + 1 = ps.length)) (i + j) p
  | [], _, _, _, h => by simp [withMarks] at h
  | p :: ps, i, 0, n, h => by
    rw [withMarks] at h
    simp only [List.getElem?_cons_zero, Option.some.injEq] at h
    subst h
    refine ⟨p, rfl, rfl, ?_⟩
    have : ps.isEmpty = decide (0 + 1 = (p :: ps).length) := by cases ps <;> simp
    rw [this]; rfl
  | p :: ps, i, j + 1, n, h => by
    rw [withMarks] at h
    simp only [List.getElem?_cons_succ] at h ⊢
    obtain ⟨q, h1, h2, h3⟩ := withMarks_exact L c ps (i + 1) j n h
    refine ⟨q, h1, h2, ?_⟩
    rw [h3, show i + (j + 1) = i + 1 + j from by omega]
    congr 1
    simp

theorem counts_mem (cs : List Operand) (n : Nat) : n ∈ checkedLengths cs ↔ ∃ x, Counts cs x ∧ x.expr.size = n := by
  unfold checkedLengths Counts
  simp only [List.mem_eraseDups, List.mem_map, List.mem_filter, flat_length]
  constructor
  · rintro ⟨x, ⟨hx, hc⟩, rfl⟩
    refine ⟨x, ⟨hx, fun ht y hy => ?_⟩, rfl⟩
    rw [ht] at hc
    simp at hc
    exact hc y hy
  · rintro ⟨x, ⟨hx, hc⟩, rfl⟩
    refine ⟨x, ⟨hx, ?_⟩, rfl⟩
    by_cases ht : x.kind = .typeof
    · simp [ht]; exact hc ht
    · simp [ht]

theorem only_root (cs : List Operand) : checkedLengths cs = [1] ↔ (∃ x, Counts cs x) ∧ ∀ x, Counts cs x → x.expr.size = 1 := by
  constructor
  · intro h
    refine ⟨?_, fun x hx => ?_⟩
    · obtain ⟨x, hx, _⟩ := (counts_mem cs 1).1 (by rw [h]; simp)
      exact ⟨x, hx⟩
    · have := (counts_mem cs x.expr.size).2 ⟨x, hx, rfl⟩
      rw [h] at this; simpa using this
  · rintro ⟨⟨x, hx⟩, h⟩
    have hmem : ∀ n ∈ checkedLengths cs, n = 1 := by
      intro n hn
      obtain ⟨y, hy, rfl⟩ := (counts_mem cs n).1 hn
      exact h y hy
    have h1 : 1 ∈ checkedLengths cs := (counts_mem cs 1).2 ⟨x, hx, h x hx⟩
    have hlist : ∀ L : List Nat, (∀ n ∈ L, n = 1) → 1 ∈ L → L.eraseDups = [1] := by
      intro L hL h1
      cases L with
      | nil => cases h1
      | cons a L =>
        rw [List.eraseDups_cons, hL a (by simp)]
        have : L.filter (fun b => !b == 1) = [] := by
          rw [List.filter_eq_nil_iff]
          intro b hb
          rw [hL b (by simp [hb])]; decide
        rw [this]; rfl
    unfold checkedLengths at hmem h1 ⊢
    simp only [List.mem_eraseDups] at hmem h1
    exact hlist _ hmem h1

theorem last_cons_concat {α : Type} (a q : α) (xs : List α) : (a :: (xs ++ [q])).getLast? = some q := by rw [← List.cons_append, List.getLast?_concat]

theorem link_isCall (p : Piece) : p.link.isCall = true ↔ ∃ ts xs, p.step = .call ts xs := by
  obtain ⟨s, o, b⟩ := p
  cases s <;> simp [Piece.link]

theorem flat_endsInCall (e : Expr) : ∃ p, (flat false e).getLast? = some p ∧ (p.isCall = true ↔ EndsInCall e) := by
  rw [flat_eq]
  unfold EndsInCall
  rcases List.eq_nil_or_concat (links false e) with h | ⟨a, q, h⟩
  · rw [h]; exact ⟨_, rfl, by simp [rootLink]⟩
  · rw [h, List.concat_eq_append, List.map_append]
    exact ⟨q.link, last_cons_concat _ _ _, by simp [link_isCall]⟩

theorem filled_iff (cs : List Operand) (last : Operand) (j : Nat) : j + 1 ∈ filledLengths cs last ↔ (∃ x, Counts cs x ∧ x.expr.size = j + 1) ∨ Filled cs last j := by
  unfold filledLengths Filled
  by_cases h : checkedLengths cs = [1]
  · rw [if_pos (by simpa using h), List.mem_append, ← counts_mem, h]
    have hr := (only_root cs).1 h
    simp only [List.mem_filter, List.mem_range, decide_eq_true_eq]
    by_cases hk : last.kind = .plain
    · obtain ⟨p, hp, hpc⟩ := flat_endsInCall last.node
      have : fillUpTo last = if (decide ((links false last.node).length > 0) && p.isCall) = true then (links false last.node).length - 1 else (links false last.node).length := by
        unfold fillUpTo
        rw [if_pos (by simpa using hk)]
        simp only [flat_length, Expr.size, Nat.add_sub_cancel, hp]
      rw [this]
      by_cases hc : EndsInCall last.node
      · have hpos : (links false last.node).length > 0 := by
          obtain ⟨w, _, _, hw, _⟩ := hc
          exact List.length_pos_of_mem (List.mem_of_getLast? hw)
        rw [if_pos (by rw [hpc.2 hc]; simpa using hpos)]
        constructor
        · rintro (h | ⟨h, _⟩)
          · exact .inl h
          · exact .inr ⟨hr.1, hr.2, hk, by omega, fun _ => by omega⟩
        · rintro (h | ⟨_, _, _, h1, h2⟩)
          · exact .inl h
          · have := h2 hc
            exact .inr ⟨by omega, by omega⟩
      · rw [if_neg (by rw [Bool.and_eq_true]; exact fun h => hc (hpc.1 h.2))]
        constructor
        · rintro (h | ⟨h, _⟩)
          · exact .inl h
          · exact .inr ⟨hr.1, hr.2, hk, by omega, fun h => absurd h hc⟩
        · rintro (h | ⟨_, _, _, h1, h2⟩)
          · exact .inl h
          · exact .inr ⟨by omega, by omega⟩
    · have : fillUpTo last = 1 := by unfold fillUpTo; rw [if_neg (by simpa using hk)]
      rw [this]
      constructor
      · rintro (h | ⟨h, _⟩)
        · exact .inl h
        · left
          have : j = 0 := by omega
          subst this; simp
      · rintro (h | ⟨_, _, h, _⟩)
        · exact .inl h
        · exact absurd h hk
  · rw [if_neg (by simpa using h), ← counts_mem]
    constructor
    · exact .inl
    · rintro (h' | ⟨h1, h2, _⟩)
      · exact h'
      · exact absurd ((only_root cs).2 ⟨h1, h2⟩) h

/-- **C114** Where the question marks of the code are: a link has one exactly if it has one in the first of the guards that have the link (or, if none does, itself), or
if the expression up to it is checked; if only the root is checked and a truth test is at the end, every link but a call at the end has one; and a call at the end
has one if an operand in front of the last one is about what is called -/
theorem marks (C : List Operand) (gs : List Expr) (l g0 : Expr) (hg0 : gs.head? = some g0) (hlink : Linked (parsed gs l))
    (hl : ∃ xs, checks C = gs.map (parse true) ++ xs ∧ (xs = [] ∨ ∃ x ys, xs = x :: ys ∧ ∀ y ∈ ys, (parse true l).target.size ≤ y.target.size))
    (hlen : links false (parse true l).target ≠ []) (hnb : NoBang (parse true l).target)
    (hw : ∀ g ∈ gs, WrittenAlike (parse true g).target (parse true l).target) (last : Operand) (code : Text)
    (hcode : andChain C (parse true g0) last (parse true l) gs.length = some code) :
    ∃ c new, code = (assemble c new).text ∧ (c = (rootOf false (parse true l).target).unbanged ∨ c = .nonNull (rootOf false (parse true l).target).unbanged) ∧
      new.map Piece.step = (links false (parse true l).target).map Piece.step ∧
      ∀ (j : Nat) n e p, new[j]? = some n →
        (gs.map (fun g => links false (parse true g).target) ++ [links false (parse true l).target]).find? (fun e => decide (j < e.length)) = some e → e[j]? = some p →
        (n.opt = true ↔ p.opt = true ∨ Marked C (checks C) last (parse true l).target j) := by
  obtain ⟨xs, hcs, hxs⟩ := hl
  have hne : gs.map (parse true) ++ xs ≠ [] := by cases gs <;> simp at hg0 ⊢
  have hpw := linked_pairwise _ hlink
  rw [parsed_eq, List.pairwise_append] at hpw
  have hpre : ∀ g ∈ gs, BeginsAs (parse true g).target (parse true l).target := fun g hg =>
    target_pre (hpw.2.2 _ (List.mem_map.2 ⟨g, hg, rfl⟩) _ (List.mem_singleton.2 rfl))
  have hg0m : g0 ∈ gs := List.mem_of_mem_head? (by rw [hg0]; rfl)
  obtain ⟨r, b, hparts, hbase⟩ := withFirst_parts g0 _ (hw g0 hg0m) hnb
  obtain ⟨c, b', ps', hadj, hc, hsteps, hflags⟩ := adjusted (gs.map (parse true)) xs (parse true l).target r b hxs hne hbase hnb hlen
    (by intro g hg; obtain ⟨g', hg', rfl⟩ := List.mem_map.1 hg; exact hw g' hg')
    (by intro g hg; obtain ⟨g', hg', rfl⟩ := List.mem_map.1 hg; exact (hpre g' hg').size)
    (by
      have := hpw.1
      rw [List.pairwise_map] at this ⊢
      exact this.imp fun h => (target_pre h).size)
  have hpl : ps'.length = (links false (parse true l).target).length := by
    have := congrArg List.length hsteps
    simpa using this
  have hlastStep : (ps'.getLast?.map Piece.step) = ((links false (parse true l).target).getLast?.map Piece.step) := by
    rw [← List.getLast?_map, ← List.getLast?_map, hsteps]
  unfold andChain at hcode
  simp only at hcode
  rw [hcs, hparts, ← List.length_map (f := parse true) (as := gs), hadj, build_parts] at hcode
  split at hcode
  · cases hcode
  · rw [Option.some.injEq] at hcode
    refine ⟨c, _, hcode.symm, hc, ?_, ?_⟩
    · rw [withMarks_steps, hsteps]
    · intro j n e p hn hfind hp
      obtain ⟨q, hq, hstep, hopt⟩ := withMarks_exact _ _ _ _ _ _ hn
      have hqo : q.opt = p.opt := by
        refine hflags j e p q ?_ hp hq
        rw [List.map_map]; exact hfind
      rw [hopt]
      unfold made Marked
      rw [hcs]
      have hL : (filledLengths (gs.map (parse true) ++ xs) last).contains (1 + j) = true ↔
          (∃ x, Counts (gs.map (parse true) ++ xs) x ∧ x.expr.size = j + 1) ∨ Filled (gs.map (parse true) ++ xs) last j := by
        rw [List.contains_eq_mem, decide_eq_true_eq, Nat.add_comm, filled_iff]
      have hcall : (match q.step with | .call _ _ => decide (j + 1 = ps'.length) && callOptional C (rootLink c b' :: ps'.map Piece.link) | _ => false) = true ↔
          (EndsInCall (parse true l).target ∧ j + 1 = (links false (parse true l).target).length ∧ ∃ x ∈ C.dropLast, x.expr.size = j + 1) := by
        have hco : callOptional C (rootLink c b' :: ps'.map Piece.link) = true ↔ EndsInCall (parse true l).target ∧ ∃ x ∈ C.dropLast, x.expr.size = ps'.length := by
          unfold callOptional EndsInCall
          rcases List.eq_nil_or_concat ps' with h | ⟨a, z, h⟩
          · rw [h] at hpl
            exact absurd (List.eq_nil_of_length_eq_zero hpl.symm) hlen
          · rw [List.concat_eq_append] at h
            have hz : (links false (parse true l).target).getLast?.map Piece.step = some z.step := by rw [← hlastStep, h]; simp
            obtain ⟨w, hw', hws⟩ := Option.map_eq_some_iff.1 hz
            have hlast : (rootLink c b' :: ps'.map Piece.link).getLast? = some z.link := by
              rw [h, List.map_append]; exact last_cons_concat _ _ _
            rw [hlast]
            simp only [Bool.and_eq_true, link_isCall, List.any_eq_true, beq_iff_eq, flat_length, List.length_cons, List.length_map, Nat.add_sub_cancel]
            constructor
            · rintro ⟨⟨ts, ys, hz⟩, h⟩
              exact ⟨⟨w, ts, ys, hw', by rw [hws, hz]⟩, h⟩
            · rintro ⟨⟨w', ts, ys, h1, h2⟩, h⟩
              rw [hw'] at h1; cases h1
              exact ⟨⟨ts, ys, by rw [← hws, h2]⟩, h⟩
        have hq' : ∀ (h : j + 1 = ps'.length), EndsInCall (parse true l).target → ∃ ts ys, q.step = .call ts ys := by
          rintro hj ⟨w, ts, ys, h1, h2⟩
          refine ⟨ts, ys, ?_⟩
          have : ps'.getLast? = some q := by rw [List.getLast?_eq_getElem?, ← hj]; exact hq
          rw [this, h1] at hlastStep
          simp at hlastStep
          rw [hlastStep, h2]
        constructor
        · intro h
          cases hs : q.step with
          | call ts ys =>
            rw [hs] at h
            simp only [Bool.and_eq_true, decide_eq_true_eq] at h
            obtain ⟨h1, h2⟩ := hco.1 h.2
            exact ⟨h1, by omega, by rw [h.1]; exact h2⟩
          | prop => rw [hs] at h; cases h
          | elem => rw [hs] at h; cases h
        · rintro ⟨h1, h2, h3⟩
          obtain ⟨ts, ys, hs⟩ := hq' (by omega) h1
          rw [hs]
          simp only [Bool.and_eq_true, decide_eq_true_eq]
          exact ⟨by omega, hco.2 ⟨h1, by rw [hpl, ← h2]; exact h3⟩⟩
      rw [Bool.or_eq_true, Bool.or_eq_true, hL, hqo]
      refine Iff.trans (or_congr Iff.rfl hcall) ?_
      constructor
      · rintro (((h | h) | h) | h)
        · exact .inr (.inl h)
        · exact .inr (.inr (.inl h))
        · exact .inl h
        · exact .inr (.inr (.inr h))
      · rintro (h | h | h | h)
        · exact .inl (.inr h)
        · exact .inl (.inl (.inl h))
        · exact .inl (.inl (.inr h))
        · exact .inr h

/-- the code of a chain that ends in a truth test -/
theorem andCode_plain (between : Text) (gs : List Expr) (l g0 : Expr) (hg0 : gs.head? = some g0) (hend : ending (parsed gs l).reverse = .plain) (code : Text)
    (hcode : andCode between (parsed gs l) = some code) : andChain (parsed gs l) (parse true g0) (parse true l) (parse true l) gs.length = some code := by
  obtain ⟨init, s, rfl⟩ : ∃ init s, gs = init ++ [s] := by
    rcases List.eq_nil_or_concat gs with rfl | ⟨i, s, rfl⟩
    · cases hg0
    · exact ⟨i, s, by simp⟩
  have hrev : (parsed (init ++ [s]) l).reverse = parse true l :: parse true s :: (init.map (parse true)).reverse := by simp [parsed]
  obtain ⟨rest, hrest⟩ : ∃ rest, parsed (init ++ [s]) l = parse true g0 :: rest := by
    cases init with
    | nil => simp at hg0; subst hg0; exact ⟨_, rfl⟩
    | cons i init => simp at hg0; subst hg0; exact ⟨_, rfl⟩
  unfold andCode at hcode
  rw [hrev] at hcode hend
  generalize hp : parsed (init ++ [s]) l = P at hcode hrest ⊢
  subst hrest
  simp only [hend, Ending.keepsLast, Bool.false_eq_true, if_false, parse_node] at hcode
  have hlenP : (parse true g0 :: rest).length - 1 = (init ++ [s]).length := by rw [← hp]; simp [parsed]
  rw [hlenP] at hcode
  obtain ⟨inner, h1, h2⟩ := Option.map_eq_some_iff.1 hcode
  rw [← h2]; exact h1

/-- **C114** Where the question marks are, if the chain ends in a truth test `l` -/
theorem plain_marks (gs : List Expr) (l : Expr) (hne : gs ≠ []) (hlink : Linked (parsed gs l)) (hl : (parse true l).kind = .plain)
    (hend : ending (parsed gs l).reverse = .plain) (hlen : links false l ≠ []) (hnb : NoBang l) (hw : ∀ g ∈ gs, WrittenAlike (parse true g).target l)
    (between code : Text) (hcode : andCode between (parsed gs l) = some code) :
    ∃ c new, code = (assemble c new).text ∧ (c = (rootOf false l).unbanged ∨ c = .nonNull (rootOf false l).unbanged) ∧
      new.map Piece.step = (links false l).map Piece.step ∧
      ∀ (j : Nat) n e p, new[j]? = some n →
        (gs.map (fun g => links false (parse true g).target) ++ [links false l]).find? (fun e => decide (j < e.length)) = some e → e[j]? = some p →
        (n.opt = true ↔ p.opt = true ∨ Marked (parsed gs l) (gs.map (parse true)) (parse true l) l j) := by
  have ht : (parse true l).target = l := by unfold Operand.target; rw [if_pos (by simpa using hl), parse_node]
  obtain ⟨g0, hg0⟩ : ∃ g0, gs.head? = some g0 := by cases gs with | nil => exact absurd rfl hne | cons g _ => exact ⟨g, rfl⟩
  have hchecks : checks (parsed gs l) = gs.map (parse true) := by
    unfold checks
    rw [parsed_eq]
    simp [hl]
  have := marks (parsed gs l) gs l g0 hg0 hlink ⟨[], by rw [hchecks]; simp, .inl rfl⟩ (by rw [ht]; exact hlen) (by rw [ht]; exact hnb) (by rw [ht]; exact hw) _ code
    (andCode_plain between gs l g0 hg0 hend code hcode)
  rw [ht, hchecks] at this
  exact this

theorem takeOver_text (ops : List (List Link)) (i : Nat) (p : Link) : p.text <+: (takeOver ops i p).text := by
  unfold takeOver
  cases shortest i ops none with
  | none => exact List.prefix_refl _
  | some op =>
    simp only
    cases op[i]? with
    | none => exact List.prefix_refl _
    | some q =>
      simp only
      by_cases hq : q.bang = true
      · rw [if_pos hq]
        simp only
        split
        · exact List.prefix_refl _
        · exact List.prefix_append _ _
      · rw [if_neg hq]; exact List.prefix_refl _

/-- **C114** The new code begins with the longer one of the two texts of the root, that of the first operand (if it is the root) and that of the last one -/
theorem longer_root (g l : Expr) (hg : (parse true g).kind = .plain) (hl : (parse true l).kind = .plain) (hroot : links false g = []) (hlen : links false l ≠ [])
    (hb : rootBang false g = false) (hb' : rootBang false l = false) (between code : Text) (hcode : andCode between (parsed [g] l) = some code) :
    (if (rootOf false l).text.length < (rootOf false g).text.length then (rootOf false g).text else (rootOf false l).text) <+: code := by
  have hend : ending (parsed [g] l).reverse = .plain := by
    have hp' : parsed [g] l = [] ++ [parse true g, parse true l] := rfl
    rw [hp']
    refine ((ending_eq _ _ _).2.2 ?_ ?_).2.2 (by rw [hl]; simp)
    · rintro ⟨_, ⟨_, h⟩ | ⟨_, h⟩⟩
      · rcases h with h | h <;> rw [hl] at h <;> cases h
      · unfold AboutNull at h; rw [hl] at h; cases h
    · rintro ⟨_, _, _, a, x, b, h, _⟩
      cases a <;> cases h
  have hac := andCode_plain between [g] l g rfl hend code hcode
  have ht : (parse true l).target = l := by unfold Operand.target; rw [if_pos (by simpa using hl), parse_node]
  have htg : (parse true g).target = g := by unfold Operand.target; rw [if_pos (by simpa using hg), parse_node]
  have hfg : flat false g = [rootLink (rootOf false g) false] := by rw [flat_eq, hroot, hb]; rfl
  have hfirst : withFirst (parse true g) (flat false l) =
      rootLink (if (rootOf false l).text.length < (rootOf false g).text.length then rootOf false g else rootOf false l) false :: (links false l).map Piece.link := by
    unfold withFirst
    rw [flat_eq false l, hb', parse_node, hfg, hg]
    simp only [BEq.rfl]
    by_cases hlt : (rootOf false l).text.length < (rootOf false g).text.length
    · rw [if_pos hlt, if_pos (by exact hlt)]
    · rw [if_neg hlt, if_neg (by exact hlt)]
  unfold andChain at hac
  simp only at hac
  rw [ht, hfirst] at hac
  have htext : (if (rootOf false l).text.length < (rootOf false g).text.length then (rootOf false g).text else (rootOf false l).text) =
      (if (rootOf false l).text.length < (rootOf false g).text.length then rootOf false g else rootOf false l).text := by split <;> rfl
  rw [htext]
  generalize (if (rootOf false l).text.length < (rootOf false g).text.length then rootOf false g else rootOf false l) = r at hac
  -- the root keeps its text, with `!` perhaps
  have hadj : ∃ p ps, adjust (checks (parsed [g] l)) [g].length (rootLink r false :: (links false l).map Piece.link) = p :: ps ∧ r.text <+: p.text := by
    unfold adjust
    split
    · simp only
      generalize longest _ = m
      have hun : ∃ ps, unbangFirst m (rootLink r false :: (links false l).map Piece.link) = rootLink r false :: ps := by
        cases m with
        | zero => exact ⟨_, rfl⟩
        | succ m => exact ⟨_, rfl⟩
      obtain ⟨ps, hps⟩ := hun
      rw [hps]
      exact ⟨_, _, rfl, takeOver_text _ _ (rootLink r false)⟩
    · exact ⟨_, _, rfl, List.prefix_refl _⟩
  obtain ⟨p, ps, hadj, hpre⟩ := hadj
  rw [hadj] at hac
  unfold build at hac
  split at hac
  · cases hac
  · rw [Option.some.injEq] at hac
    rw [← hac]
    refine hpre.trans ?_
    unfold render
    simp [optionalAt]

/-! ### Examples -/

/-- `x && x.a !== null && x.a !== undefined` -/
def samplePairS : Expr := .binary (sampleAccess "x" "a") .sne " !== ".toList sampleNull
def samplePairL : Expr := .binary (sampleAccess "x" "a") .sne " !== ".toList (sampleVar "undefined")
/-- `typeof x.a !== 'undefined'` -/
def sampleTypeofA : Expr := .binary (.typeof (sampleAccess "x" "a")) .sne " !== ".toList (.literal 0 .string "undefined".toList)
/-- `x != null` -/
def sampleLoose : Expr := .binary (sampleVar "x") .ne " != ".toList sampleNull

example : Pair (parse true samplePairS) (parse true samplePairL) := ⟨by decide +kernel, .inl ⟨rfl, .inl rfl⟩⟩
example : Pair (parse true sampleTypeofA) (parse true samplePairS) := ⟨by decide +kernel, .inr ⟨.inr (by decide +kernel), rfl⟩⟩
example : StrictThenPlain [parse true sampleLoose] (parse true samplePairL) (parse true sampleLast) :=
  ⟨rfl, .inr rfl, fun x hx he => by
    rw [List.mem_singleton] at hx; subst hx
    exact absurd he (by decide +kernel), [], _, [], rfl, .inl rfl, nofun, by decide +kernel⟩
example : (ending (parsed ([sampleVar "x"] ++ [samplePairS]) samplePairL).reverse).keepsLast = true ∧ (ending (parsed ([sampleLoose] ++ [samplePairL]) sampleLast).reverse).keepsLast = true := by
  decide +kernel
example : (parse true sampleTypeofA).kind = .typeof ∧ (parse true samplePairS).kind = .notNull ∧ onRight true (sampleAccess "x" "a") .sne sampleNull = false := by decide +kernel
example : andCode " && ".toList (parsed [sampleVar "x"] sampleTypeofA) = some "typeof x?.a !== 'undefined'".toList ∨
    andCode " && ".toList (parsed [sampleVar "x"] sampleTypeofA) = some "typeof x?.a !== undefined".toList := by decide +kernel
example : ∃ c, andCode " && ".toList (parsed [sampleVar "x", sampleTypeofA] samplePairS) = some c := ⟨_, by rfl⟩
/-- `x?.a === undefined` is not false where a guard stops: with `!== null` there it is not safe -/
example : ∃ z, lawfulWorld.op .sne lawfulWorld.undef .undef = some z ∧ lawfulWorld.truthy z = false := ⟨.fls, rfl, rfl⟩
example : Filled [parse true (sampleVar "x")] (parse true sampleLast) 1 := by
  have hs : (parse true (sampleVar "x")).expr.size = 1 := by decide +kernel
  refine ⟨⟨parse true (sampleVar "x"), by simp, fun h => absurd h (by decide +kernel)⟩, fun y hy => ?_, rfl, by decide +kernel, ?_⟩
  · have := hy.1
    rw [List.mem_singleton] at this; subst this; exact hs
  · rintro ⟨p, ts, xs, h, hs⟩
    have : (links false (parse true sampleLast).node).getLast? = some ⟨.prop ['b'], false, false⟩ := rfl
    rw [this] at h; cases h; cases hs

end Tsgolint.OptionalChain
