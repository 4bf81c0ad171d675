import Verif.Spec.OptionalRange
import Verif.Props.OptionalOr
import Verif.Props.OptionalReport

/-!
# C119: what prefer-optional-chain replaces
-/

namespace Tsgolint.OptionalChain

variable {V : Type}

open Expr

/-! ### The places of the operands -/

theorem operandsAt_snd (a : Bool) (s : Nat) (e : Expr) : (operandsAt a s e).map (·.2) = operands a e := by
  fun_induction operandsAt a s e with
  | case1 s e x h ih =>
    rw [h] at ih
    rw [operands, ← ih]; rfl
  | case2 s e h ih =>
    rw [operands, ← ih]
    cases hx : operandsAt a (s + 1) e with
    | nil => rfl
    | cons x xs => cases xs with
      | nil => exact absurd hx (h x)
      | cons y ys => rfl
  | case3 s t l r ha ih1 ih2 => subst ha; rw [List.map_append, ih1, ih2, operands]; rfl
  | case4 s t l r ha => rw [operands, if_neg ha]; rfl
  | case5 s t l r ha => rw [operands, if_pos ha]; rfl
  | case6 s t l r ha ih1 ih2 => rw [List.map_append, ih1, ih2, operands, if_neg ha]
  | case7 s e h1 h2 h3 => rw [operands] <;> simp_all

theorem operandsAt_length (a : Bool) (s : Nat) (e : Expr) : (operandsAt a s e).length = (operands a e).length := by
  rw [← operandsAt_snd a s e, List.length_map]

/-- the operands of a spec'd tree are those collected -/
theorem operands_unique (a : Bool) (e : Expr) (es : List Expr) (h : Operands (opOf a) e es) : operands a e = es := by
  induction h with
  | both t _ _ ih1 ih2 => rw [← ih1, ← ih2]; cases a <;> rfl
  | @paren e es _ hlen ih =>
    rcases operands_paren a e with ⟨_, h⟩ | ⟨h, _⟩
    · rw [ih] at h; omega
    · rw [h, ih]
  | one e h =>
    by_cases h2 : 2 ≤ (operands a e).length
    · obtain ⟨l, t, r, hb⟩ := operands_skip a e h2; exact absurd hb (h l t r)
    · have hs := operands_spec a e
      generalize operands a e = es at hs h2
      have : (if a = true then Op.and else Op.or) = opOf a := rfl
      rw [this] at hs
      cases hs with
      | both t hl hr => exact absurd rfl (h _ _ _)
      | paren _ hlen => omega
      | one => rfl

theorem at_both (a : Bool) (s : Nat) (l : Expr) (t : Text) (r : Expr) :
    operandsAt a s (.binary l (opOf a) t r) = operandsAt a s l ++ operandsAt a (s + (text l).length + t.length) r := by cases a <;> rfl

theorem at_paren (a : Bool) (s : Nat) (e : Expr) (h : 2 ≤ (operands a e).length) : operandsAt a s (.paren e) = operandsAt a (s + 1) e := by
  have hl := operandsAt_length a (s + 1) e
  rw [operandsAt]
  cases hx : operandsAt a (s + 1) e with
  | nil => rfl
  | cons x xs => cases xs with
    | nil => rw [hx] at hl; simp at hl; omega
    | cons y ys => rfl

theorem at_one (a : Bool) (s : Nat) (e : Expr) (h : ∀ l t r, e.skip ≠ .binary l (opOf a) t r) : operandsAt a s e = [(s, e)] := by
  have h1 : operands a e = [e] := operands_unique a e _ (.one e h)
  have hl := operandsAt_length a s e
  have hs := operandsAt_snd a s e
  rw [h1] at hl hs
  obtain ⟨x, hx⟩ := List.length_eq_one_iff.1 hl
  have hs' : x.2 = e := by rw [hx] at hs; simpa using hs
  suffices hx1 : x.1 = s by rw [hx]; rw [← hs', ← hx1]
  clear hs hl
  revert hx
  fun_induction operandsAt a s e with
  | case1 s e y hy ih => intro hx; cases hx; rfl
  | case2 s e hy ih => intro hx; exact absurd hx (hy x)
  | case3 s t l r ha => subst ha; exact absurd rfl (h _ _ _)
  | case4 s t l r ha => intro hx; cases hx; rfl
  | case5 s t l r ha => intro hx; cases hx; rfl
  | case6 s t l r ha => have : a = false := by simpa using ha
                        subst this; exact absurd rfl (h _ _ _)
  | case7 s e h1 h2 h3 => intro hx; cases hx; rfl

theorem text_both (l : Expr) (o : Op) (t : Text) (r : Expr) : text (.binary l o t r) = text l ++ t ++ text r := rfl
theorem text_parens (e : Expr) : text (.paren e) = "(".toList ++ text e ++ ")".toList := rfl

/-- without parentheses at the beginning, the first operand is there -/
theorem headOpen_start (a : Bool) (e : Expr) (h : HeadOpen (opOf a) e) (s : Nat) : ∃ x, (operandsAt a s e).head? = some x ∧ x.1 = s := by
  induction h with
  | one e h => exact ⟨(s, e), by rw [at_one a s e h]; rfl, rfl⟩
  | both t r _ ih =>
    obtain ⟨x, hx, h1⟩ := ih
    exact ⟨x, by rw [at_both, List.head?_append, hx]; rfl, h1⟩

/-- without parentheses at the end, the last operand is there -/
theorem tailOpen_end (a : Bool) (e : Expr) (h : TailOpen (opOf a) e) : ∀ s, ∃ x, (operandsAt a s e).getLast? = some x ∧ x.1 + (text x.2).length = s + (text e).length := by
  induction h with
  | one e h => intro s; exact ⟨(s, e), by rw [at_one a s e h]; rfl, rfl⟩
  | both l t _ ih =>
    intro s
    obtain ⟨x, hx, h1⟩ := ih (s + (text l).length + t.length)
    refine ⟨x, by rw [at_both, List.getLast?_append, hx]; rfl, ?_⟩
    rw [h1, text_both]; simp only [List.length_append]; omega

theorem at_ne_nil (a : Bool) (s : Nat) (e : Expr) : operandsAt a s e ≠ [] := by
  intro h
  have := operandsAt_snd a s e
  rw [h] at this
  exact operands_ne_nil a e this.symm

theorem last_places (a : Bool) {e c e' : Expr} {pre run : List Expr} (h : ReplacedLast (opOf a) e pre run c e') :
    TailOpen (opOf a) e ∧ ∃ before mid, text e = before ++ mid ∧ text e' = before ++ text c ∧
    ∀ s, ∃ pp rr, operandsAt a s e = pp ++ rr ∧ pp.map (·.2) = pre ∧ rr.map (·.2) = run ∧ ∃ x, rr.head? = some x ∧ x.1 = s + before.length := by
  induction h with
  | @all e es c hes hh ht =>
    refine ⟨ht, [], text e, rfl, rfl, fun s => ?_⟩
    obtain ⟨x, hx, h1⟩ := headOpen_start a e hh s
    exact ⟨[], operandsAt a s e, rfl, rfl, by rw [operandsAt_snd, operands_unique a e es hes], x, hx, by simpa using h1⟩
  | @right l r c r' ls pre run t hl hr ih =>
    obtain ⟨ht, before, mid, h1, h2, h3⟩ := ih
    refine ⟨.both l t ht, text l ++ t ++ before, mid, by rw [text_both, h1]; simp, by rw [text_both, h2]; simp, fun s => ?_⟩
    obtain ⟨pp, rr, g1, g2, g3, x, g4, g5⟩ := h3 (s + (text l).length + t.length)
    refine ⟨operandsAt a s l ++ pp, rr, by rw [at_both, g1]; simp, ?_, g3, x, g4, by rw [g5]; simp only [List.length_append]; omega⟩
    rw [List.map_append, operandsAt_snd, operands_unique a l ls hl, g2]
  | @more l r c l' rs pre run t hl hr htr ih =>
    obtain ⟨ht, before, mid, h1, h2, h3⟩ := ih
    refine ⟨.both l t htr, before, mid ++ t ++ text r, by rw [text_both, h1]; simp, h2, fun s => ?_⟩
    obtain ⟨pp, rr, g1, g2, g3, x, g4, g5⟩ := h3 s
    refine ⟨pp, rr ++ operandsAt a (s + (text l).length + t.length) r, by rw [at_both, g1]; simp, g2, ?_, x, by rw [List.head?_append, g4]; rfl, g5⟩
    rw [List.map_append, operandsAt_snd, operands_unique a r rs hr, g3]

theorem replaced_places (a : Bool) {e c e' : Expr} {pre run post : List Expr} (h : Replaced (opOf a) e pre run post c e') :
    ∃ before mid after, text e = before ++ mid ++ after ∧ text e' = before ++ text c ++ after ∧
    ∀ s, ∃ pp rr qq, operandsAt a s e = pp ++ rr ++ qq ∧ pp.map (·.2) = pre ∧ rr.map (·.2) = run ∧ qq.map (·.2) = post ∧
      (∃ x, rr.head? = some x ∧ x.1 = s + before.length) ∧ ∃ y, rr.getLast? = some y ∧ y.1 + (text y.2).length = s + (before ++ mid).length := by
  induction h with
  | @last e c e' pre run h =>
    obtain ⟨ht, before, mid, h1, h2, h3⟩ := last_places a h
    refine ⟨before, mid, [], by rw [h1]; simp, by rw [h2]; simp, fun s => ?_⟩
    obtain ⟨pp, rr, g1, g2, g3, x, g4, g5⟩ := h3 s
    obtain ⟨y, hy, hy'⟩ := tailOpen_end a e ht s
    refine ⟨pp, rr, [], by rw [g1]; simp, g2, g3, rfl, ⟨x, g4, g5⟩, y, ?_, by rw [hy', h1]⟩
    rw [g1, List.getLast?_append] at hy
    cases hr : rr.getLast? with
    | none => rw [List.getLast?_eq_none_iff.1 hr] at g4; cases g4
    | some z => rw [hr] at hy; exact hy
  | @paren e c e' pre run post h hlen ih =>
    obtain ⟨before, mid, after, h1, h2, h3⟩ := ih
    refine ⟨"(".toList ++ before, mid, after ++ ")".toList, by rw [text_parens, h1]; simp, by rw [text_parens, h2]; simp, fun s => ?_⟩
    obtain ⟨pp, rr, qq, g1, g2, g3, g4, ⟨x, g5, g6⟩, y, g7, g8⟩ := h3 (s + 1)
    have hn : 2 ≤ (operands a e).length := by
      rw [← operandsAt_snd a (s + 1) e, g1, List.map_append, List.map_append, g2, g3, g4]; exact hlen
    refine ⟨pp, rr, qq, by rw [at_paren a s e hn, g1], g2, g3, g4, ⟨x, g5, ?_⟩, y, g7, ?_⟩
    · rw [g6]; simp only [List.length_append]; simp; omega
    · rw [g8]; simp only [List.length_append]; simp; omega
  | @left l r c l' rs pre run post t h hr ih =>
    obtain ⟨before, mid, after, h1, h2, h3⟩ := ih
    refine ⟨before, mid, after ++ t ++ text r, by rw [text_both, h1]; simp, by rw [text_both, h2]; simp, fun s => ?_⟩
    obtain ⟨pp, rr, qq, g1, g2, g3, g4, g5, g6⟩ := h3 s
    refine ⟨pp, rr, qq ++ operandsAt a (s + (text l).length + t.length) r, by rw [at_both, g1]; simp, g2, g3, ?_, g5, g6⟩
    rw [List.map_append, operandsAt_snd, operands_unique a r rs hr, g4]
  | @right l r c r' ls pre run post t hl h ih =>
    obtain ⟨before, mid, after, h1, h2, h3⟩ := ih
    refine ⟨text l ++ t ++ before, mid, after, by rw [text_both, h1]; simp, by rw [text_both, h2]; simp, fun s => ?_⟩
    obtain ⟨pp, rr, qq, g1, g2, g3, g4, ⟨x, g5, g6⟩, y, g7, g8⟩ := h3 (s + (text l).length + t.length)
    refine ⟨operandsAt a s l ++ pp, rr, qq, by rw [at_both, g1]; simp, ?_, g3, g4, ⟨x, g5, ?_⟩, y, g7, ?_⟩
    · rw [List.map_append, operandsAt_snd, operands_unique a l ls hl, g2]
    · rw [g6]; simp only [List.length_append]; omega
    · rw [g8]; simp only [List.length_append]; omega

/-- **C119** If a chain's operands can be replaced by an expression in the tree, then replacing the range gives the text of that tree: nothing before, behind or around the
operands is lost, and the parentheses fit. (`i` operands are before the chain; `k` of them, at its beginning, are kept.) -/
theorem replaced_text (a : Bool) {e c e' : Expr} {pre kept run post : List Expr} (h : Replaced (opOf a) e (pre ++ kept) run post c e') (hpart : kept ≠ [] ∨ (kept ++ run).length < (operands a e).length) :
    ∃ range, replacedRange a e pre.length (kept ++ run).length kept.length = some range ∧ replaceText (text e) range (text c) = text e' := by
  obtain ⟨before, mid, after, h1, h2, h3⟩ := replaced_places a h
  obtain ⟨pp, rr, qq, g1, g2, g3, g4, ⟨x, g5, g6⟩, y, g7, g8⟩ := h3 0
  have hpp : pp.length = pre.length + kept.length := by rw [← List.length_map (f := fun x : Nat × Expr => x.2), g2, List.length_append]
  have hrr : rr.length = run.length := by rw [← List.length_map (f := fun x : Nat × Expr => x.2), g3]
  refine ⟨(before.length, (before ++ mid).length), ?_, ?_⟩
  · unfold replacedRange
    have hno : (kept.length == 0 && (kept ++ run).length == (operandsAt a 0 e).length) = false := by
      rw [Bool.and_eq_false_imp]
      intro hk
      rw [operandsAt_length]
      rcases hpart with h | h
      · exact absurd (List.length_eq_zero_iff.1 (by simpa using hk)) h
      · exact beq_eq_false_iff_ne.2 (Nat.ne_of_lt h)
    simp only [hno, Bool.false_eq_true, if_false]
    have e1 : (operandsAt a 0 e)[pre.length + kept.length]? = some x := by
      rw [g1, List.append_assoc, ← hpp, List.getElem?_append_right (Nat.le_refl _), Nat.sub_self, ← List.head?_eq_getElem?, List.head?_append, g5]; rfl
    have hne : 1 ≤ rr.length := by cases rr with | nil => cases g5 | cons _ _ => simp
    have e2 : (operandsAt a 0 e)[pre.length + (kept ++ run).length - 1]? = some y := by
      have : pre.length + (kept ++ run).length - 1 = pp.length + (rr.length - 1) := by rw [List.length_append]; omega
      rw [g1, this, List.append_assoc, List.getElem?_append_right (by omega), Nat.add_sub_cancel_left, List.getElem?_append_left (by omega), ← List.getLast?_eq_getElem?, g7]
    rw [e1, e2]
    simp only [g6, g8, Nat.zero_add]
  · unfold replaceText
    rw [h1, h2, List.drop_left' rfl, List.append_assoc before, List.take_left' rfl]

/-- **C119** If the chain is all of the expression, all of it is replaced. -/
theorem whole_text (a : Bool) (e : Expr) (code : Text) :
    ∃ range, replacedRange a e 0 (operands a e).length 0 = some range ∧ replaceText (text e) range code = code := by
  refine ⟨(0, (text e).length), ?_, ?_⟩
  · unfold replacedRange
    simp [operandsAt_length]
  · unfold replaceText; simp

/-! ### The value -/

theorem joined_append (W : World V) (a : Bool) (xs ys : List Expr) (hx : xs ≠ []) (hy : ys ≠ []) :
    W.joined a (xs ++ ys) = (W.joined a xs).bind fun v => if W.truthy v = a then W.joined a ys else some v := by
  cases a with
  | true =>
    simp only [World.joined, if_true]
    rw [conjunction_append W xs ys hx hy]
    cases W.conjunction xs <;> rfl
  | false =>
    simp only [World.joined, Bool.false_eq_true, if_false]
    rw [disjunction_append W xs ys hx hy]
    cases W.disjunction xs with
    | none => rfl
    | some v => simp only [Option.bind_some]; cases W.truthy v <;> simp

theorem value_both (W : World V) (a : Bool) (l : Expr) (t : Text) (r : Expr) :
    W.value (.binary l (opOf a) t r) = (W.value l).bind fun v => if W.truthy v = a then W.value r else some v := by
  cases a with
  | true => show W.value (.binary l .and t r) = _; rw [value_and]; cases W.value l <;> rfl
  | false =>
    show W.value (.binary l .or t r) = _
    rw [value_or]
    cases W.value l with
    | none => rfl
    | some v => simp only [Option.bind_some]; cases W.truthy v <;> simp

theorem joined_one (W : World V) (a : Bool) (e : Expr) : W.joined a [e] = W.value e := by cases a <;> rfl

theorem value_operands (W : World V) (a : Bool) (e : Expr) (es : List Expr) (h : Operands (opOf a) e es) : W.value e = W.joined a es := by
  rw [operands_value W a e, operands_unique a e es h]; rfl

theorem last_value (W : World V) (a : Bool) {e c e' : Expr} {pre run : List Expr} (h : ReplacedLast (opOf a) e pre run c e') :
    run ≠ [] ∧ Operands (opOf a) e (pre ++ run) ∧ W.value e' = W.joined a (pre ++ [c]) := by
  induction h with
  | all c hes => exact ⟨operands_length hes, hes, (joined_one W a c).symm⟩
  | right t hl hr ih =>
    obtain ⟨h0, h1, h2⟩ := ih
    refine ⟨h0, by rw [List.append_assoc]; exact .both t hl h1, ?_⟩
    rw [value_both, value_operands W a _ _ hl, h2, List.append_assoc, joined_append W a _ _ (operands_length hl) (by simp)]
  | more t hl hr htr ih =>
    obtain ⟨h0, h1, h2⟩ := ih
    exact ⟨by simp [h0], by rw [← List.append_assoc]; exact .both t h1 hr, h2⟩

/-- **C119** The operands are those before the chain, the chain and those after it; the new expression's value is that of the first, the replacement and the last, joined. -/
theorem replaced_value (W : World V) (a : Bool) {e c e' : Expr} {pre run post : List Expr} (h : Replaced (opOf a) e pre run post c e') :
    run ≠ [] ∧ Operands (opOf a) e (pre ++ run ++ post) ∧ W.value e' = W.joined a (pre ++ [c] ++ post) := by
  induction h with
  | last h =>
    obtain ⟨h0, h1, h2⟩ := last_value W a h
    exact ⟨h0, by simpa using h1, by simpa using h2⟩
  | paren _ hlen ih =>
    obtain ⟨h0, h1, h2⟩ := ih
    exact ⟨h0, .paren h1 hlen, by rw [value_paren, h2]⟩
  | @left l r c l' rs pre run post t _ hr ih =>
    obtain ⟨h0, h1, h2⟩ := ih
    refine ⟨h0, by rw [← List.append_assoc]; exact .both t h1 hr, ?_⟩
    rw [value_both, h2, value_operands W a _ _ hr, ← List.append_assoc, joined_append W a _ _ (by simp) (operands_length hr)]
  | @right l r c r' ls pre run post t hl _ ih =>
    obtain ⟨h0, h1, h2⟩ := ih
    refine ⟨h0, ?_, ?_⟩
    · have := Operands.both t hl h1
      simpa [List.append_assoc] using this
    · rw [value_both, value_operands W a _ _ hl, h2]
      have : ls ++ pre ++ [c] ++ post = ls ++ (pre ++ [c] ++ post) := by simp
      rw [this, joined_append W a _ _ (operands_length hl) (by simp)]

theorem joined_swap (W : World V) (a : Bool) (pre run new post : List Expr) (hr : run ≠ []) (hn : new ≠ [])
    (halike : ∀ v, W.joined a run = some v → ∃ w, W.joined a new = some w ∧ W.Alike a v w) (r : V) (h : W.joined a (pre ++ run ++ post) = some r) :
    ∃ r', W.joined a (pre ++ new ++ post) = some r' ∧ W.Alike a r r' := by
  have tail : ∀ r, W.joined a (run ++ post) = some r → ∃ r', W.joined a (new ++ post) = some r' ∧ W.Alike a r r' := by
    intro r h
    by_cases hp : post = []
    · subst hp; simp only [List.append_nil] at h ⊢; exact halike r h
    · rw [joined_append W a _ _ hr hp, Option.bind_eq_some_iff] at h
      obtain ⟨v, hv, h⟩ := h
      obtain ⟨w, hw, hvw⟩ := halike v hv
      rw [joined_append W a _ _ hn hp, hw, Option.bind_some]
      rcases hvw with rfl | ⟨h1, h2⟩
      · exact ⟨r, h, .inl rfl⟩
      · rw [if_neg (by rw [h1]; cases a <;> decide)] at h
        cases h
        rw [if_neg (by rw [h2]; cases a <;> decide)]
        exact ⟨w, rfl, .inr ⟨h1, h2⟩⟩
  rw [List.append_assoc] at h ⊢
  by_cases hp : pre = []
  · subst hp; exact tail r h
  · rw [joined_append W a _ _ hp (by simp [hr]), Option.bind_eq_some_iff] at h
    obtain ⟨v, hv, h⟩ := h
    rw [joined_append W a _ _ hp (by simp [hn]), hv, Option.bind_some]
    by_cases ht : W.truthy v = a
    · rw [if_pos ht] at h ⊢; exact tail r h
    · rw [if_neg ht] at h ⊢; exact ⟨r, h, .inl rfl⟩

/-- **C119** If the new text's expression has the chain's value, or both are falsy (truthy, for OR), then so it is for the whole expression: rewriting a part of it is as safe as
rewriting all. -/
theorem part_alike (W : World V) (a : Bool) {e c e' : Expr} {pre run post : List Expr} (h : Replaced (opOf a) e pre run post c e')
    (halike : ∀ v, W.joined a run = some v → ∃ w, W.value c = some w ∧ W.Alike a v w) (r : V) (hr : W.value e = some r) : ∃ r', W.value e' = some r' ∧ W.Alike a r r' := by
  obtain ⟨h0, h1, h2⟩ := replaced_value W a h
  rw [h2]
  rw [value_operands W a e _ h1] at hr
  exact joined_swap W a pre run [c] post h0 (by simp) (by simpa only [joined_one] using halike) r hr

/-- **C119** The same if a guard at the chain's beginning is kept: it suffices that the new text's expression is right where the guard lets through. -/
theorem kept_alike (W : World V) (a : Bool) {e c e' g : Expr} {pre run post : List Expr} (h : Replaced (opOf a) e (pre ++ [g]) run post c e')
    (halike : ∀ u, W.value g = some u → W.truthy u = a → ∀ v, W.joined a (g :: run) = some v → ∃ w, W.value c = some w ∧ W.Alike a v w)
    (r : V) (hr : W.value e = some r) : ∃ r', W.value e' = some r' ∧ W.Alike a r r' := by
  obtain ⟨h0, h1, h2⟩ := replaced_value W a h
  rw [h2]
  rw [value_operands W a e _ h1] at hr
  have e1 : pre ++ [g] ++ run ++ post = pre ++ (g :: run) ++ post := by simp
  have e2 : pre ++ [g] ++ [c] ++ post = pre ++ [g, c] ++ post := by simp
  rw [e1] at hr; rw [e2]
  refine joined_swap W a pre (g :: run) [g, c] post (by simp) (by simp) ?_ r hr
  intro v hv
  have hg : g :: run = [g] ++ run := rfl
  have hc : [g, c] = [g] ++ [c] := rfl
  have hv0 := hv
  rw [hg, joined_append W a _ _ (by simp) h0, joined_one, Option.bind_eq_some_iff] at hv
  obtain ⟨u, hu, hv⟩ := hv
  rw [hc, joined_append W a _ _ (by simp) (by simp), joined_one, joined_one, hu, Option.bind_some]
  by_cases ht : W.truthy u = a
  · rw [if_pos ht]
    exact halike u hu ht v hv0
  · rw [if_neg ht] at hv ⊢; exact ⟨v, hv, .inl rfl⟩

/-! ### Without parentheses around operands -/

theorem spine_operands {o : Op} {e : Expr} {es : List Expr} (h : Spine o e es) : Operands o e es ∧ HeadOpen o e ∧ TailOpen o e := by
  induction h with
  | one e h => exact ⟨.one e h, .one e h, .one e h⟩
  | more t r h _ ih => exact ⟨.both t ih.1 (.one r h), .both t r ih.2.1, .both _ t (.one r h)⟩

theorem spine_last {o : Op} {e : Expr} {es : List Expr} (h : Spine o e es) (c : Expr) : ∀ pre run, es = pre ++ run → run ≠ [] → ∃ e', ReplacedLast o e pre run c e' := by
  induction h with
  | one e h =>
    intro pre run he hr
    cases pre with
    | nil => cases he; exact ⟨c, .all c (.one e h) (.one e h) (.one e h)⟩
    | cons p pre =>
      simp only [List.cons_append, List.cons.injEq] at he
      exact absurd (List.append_eq_nil_iff.1 he.2.symm).2 hr
  | @more l ls t r h hl ih =>
    intro pre run he hr
    have hs := spine_operands hl
    obtain ⟨run', x, rfl⟩ : ∃ run' x, run = run' ++ [x] := by
      rcases List.eq_nil_or_concat run with rfl | ⟨a, b, rfl⟩
      · exact absurd rfl hr
      · exact ⟨a, b, by simp⟩
    rw [← List.append_assoc] at he
    obtain ⟨e1, e2⟩ := List.append_inj' he rfl
    cases e2
    by_cases hr' : run' = []
    · subst hr'
      simp only [List.append_nil] at e1
      subst e1
      have := ReplacedLast.right t hs.1 (ReplacedLast.all c (.one r h) (.one r h) (.one r h))
      exact ⟨_, by simpa using this⟩
    · obtain ⟨l', hl'⟩ := ih pre run' e1 hr'
      exact ⟨l', .more t hl' (.one r h) (.one r h)⟩

/-- **C119** Without parentheses around operands, any operands that follow each other can be replaced. -/
theorem spine_replaced {o : Op} {e : Expr} {es : List Expr} (h : Spine o e es) (c : Expr) : ∀ pre run post, es = pre ++ run ++ post → run ≠ [] → ∃ e', Replaced o e pre run post c e' := by
  induction h with
  | one e h =>
    intro pre run post he hr
    obtain ⟨rfl⟩ : post = [] := by
      have := congrArg List.length he
      simp only [List.length_append, List.length_cons, List.length_nil] at this
      have := List.length_pos_iff.2 hr
      exact List.length_eq_zero_iff.1 (by omega)
    obtain ⟨e', he'⟩ := spine_last (Spine.one e h) c pre run (by simpa using he) hr
    exact ⟨e', .last he'⟩
  | @more l ls t r h hl ih =>
    intro pre run post he hr
    rcases List.eq_nil_or_concat post with rfl | ⟨post', x, rfl⟩
    · obtain ⟨e', he'⟩ := spine_last (Spine.more t r h hl) c pre run (by simpa using he) hr
      exact ⟨e', .last he'⟩
    · simp only [List.concat_eq_append] at he
      rw [← List.append_assoc] at he
      obtain ⟨e1, e2⟩ := List.append_inj' he rfl
      cases e2
      obtain ⟨l', hl'⟩ := ih pre run post' e1 hr
      exact ⟨_, by rw [List.concat_eq_append]; exact .left t hl' (.one r h)⟩

theorem part_rewritten (W : World V) (a : Bool) (e : Expr) (pre run post : List Expr) (hs : Spine (opOf a) e (pre ++ run ++ post)) (hrun : run ≠ []) (hpart : pre ≠ [] ∨ post ≠ []) (c : Expr)
    (hc : ∀ v, W.joined a run = some v → ∃ w, W.value c = some w ∧ W.Alike a v w) :
    ∃ range e', replacedRange a e pre.length run.length 0 = some range ∧ replaceText (text e) range (text c) = text e' ∧
      ∀ r, W.value e = some r → ∃ r', W.value e' = some r' ∧ W.Alike a r r' := by
  obtain ⟨e', he'⟩ := spine_replaced hs c pre run post rfl hrun
  have h' : Replaced (opOf a) e (pre ++ []) run post c e' := by simpa using he'
  obtain ⟨range, h1, h2⟩ := replaced_text a h' (.inr (by
    rw [operands_unique a e _ (spine_operands hs).1]
    simp only [List.length_append, List.length_nil, Nat.zero_add]
    rcases hpart with h | h <;> have := List.length_pos_iff.2 h <;> omega))
  exact ⟨range, e', by simpa using h1, h2, fun r hr => part_alike W a he' hc r hr⟩

/-- **C119** So a reported AND chain that is a part of an expression without parentheses around operands is rewritten in its place, and the expression keeps its value or both are
falsy (the hypotheses on the chain are those of C114's `and_meaning`). -/
theorem and_part (W : World V) (hW : W.Lawful) (e : Expr) (pre gs : List Expr) (l : Expr) (post : List Expr) (hs : Spine .and e (pre ++ (gs ++ [l]) ++ post)) (hpart : pre ≠ [] ∨ post ≠ [])
    (hne : gs ≠ []) (hlink : Linked (parsed gs l)) (hk : ∀ g ∈ gs, Guard (parse true g))
    (hl : (parse true l).kind = .plain) (hend : ending (parsed gs l).reverse = .plain) (hlen : links false l ≠ []) (hnb : NoBang l)
    (hw : ∀ g ∈ gs, WrittenAlike (parse true g).target l) (hcalm : Calm W l)
    (hplain : ∀ g ∈ gs, (parse true g).kind = .plain → ∀ v, W.value g = some v → W.truthy v = true ∨ W.Nullish v)
    (between code : Text) (hcode : andCode between (parsed gs l) = some code) :
    ∃ range e', replacedRange true e pre.length (gs ++ [l]).length 0 = some range ∧ replaceText (text e) range code = text e' ∧
      ∀ r, W.value e = some r → ∃ r', W.value e' = some r' ∧ (r' = r ∨ (W.truthy r = false ∧ W.truthy r' = false)) := by
  obtain ⟨c, h1, _, h3⟩ := and_meaning W hW gs l hne hlink hk hl hend hlen hnb hw hcalm hplain between code hcode
  obtain ⟨range, e', g1, g2, g3⟩ := part_rewritten W true e pre (gs ++ [l]) post hs (by simp) hpart c (by
    intro v hv
    rcases h3 v hv with h | ⟨hf, y, hy, hv'⟩
    · exact ⟨v, h, .inl rfl⟩
    · refine ⟨y, hv', .inr ⟨hf, ?_⟩⟩
      rcases hy with rfl | rfl
      · exact W.undef_falsy
      · exact W.null_falsy)
  refine ⟨range, e', g1, by rw [h1]; exact g2, fun r hr => ?_⟩
  obtain ⟨r', hr', ha⟩ := g3 r hr
  rcases ha with rfl | ⟨h, h'⟩
  · exact ⟨_, hr', .inl rfl⟩
  · exact ⟨r', hr', .inr ⟨h, h'⟩⟩

/-- **C119** The same for a reported OR chain that ends in a negation (`or_meaning`): the expression keeps its value or both are truthy. -/
theorem or_part (W : World V) (hW : W.Lawful) (O : Options) (e : Expr) (pre gs : List Expr) (l : Expr) (post : List Expr) (hs : Spine .or e (pre ++ (gs ++ [l]) ++ post)) (hpart : pre ≠ [] ∨ post ≠ [])
    (hne : gs ≠ []) (hlink : Linked (orParsed gs l)) (hk : ∀ g ∈ gs, OrGuard (parse false g))
    (hl : (parse false l).kind = .not) (hb : BangedName (parse false l).expr) (hmarks : ∀ g ∈ gs, KeepsMarks (parse false g).expr (parse false l).expr)
    (hcalm : Calm W (parse false l).expr)
    (hplain : ∀ g ∈ gs, (parse false g).kind = .not → ∀ v, W.value (parse false g).expr = some v → W.truthy v = true ∨ W.Nullish v)
    (between code : Text) (hcode : orCode O between (orParsed gs l) = some code) :
    ∃ range e', replacedRange false e pre.length (gs ++ [l]).length 0 = some range ∧ replaceText (text e) range code = text e' ∧
      ∀ r, W.value e = some r → ∃ r', W.value e' = some r' ∧ (r' = r ∨ (W.truthy r = true ∧ W.truthy r' = true)) := by
  obtain ⟨c, h1, _, h3⟩ := or_meaning W hW O gs l hne hlink hk hl hb hmarks hcalm hplain between code hcode
  obtain ⟨range, e', g1, g2, g3⟩ := part_rewritten W false e pre (gs ++ [l]) post hs (by simp) hpart c (by
    intro v hv
    rcases h3 v hv with h | ⟨hf, y, hy, hv'⟩
    · exact ⟨v, h, .inl rfl⟩
    · exact ⟨y, hv', .inr ⟨hf, hy⟩⟩)
  refine ⟨range, e', g1, by rw [h1]; exact g2, fun r hr => ?_⟩
  obtain ⟨r', hr', ha⟩ := g3 r hr
  rcases ha with rfl | ⟨h, h'⟩
  · exact ⟨_, hr', .inl rfl⟩
  · exact ⟨r', hr', .inr ⟨h, h'⟩⟩

/-! ### Cases -/

/-- `x && (x.a && y)` -/
def sampleNested : Expr := .binary (sampleVar "x") .and " && ".toList (.paren (.binary (sampleAccess "x" "a") .and " && ".toList (sampleVar "y")))

/-- **C119** (a finding) With parentheses around operands the range can begin outside and end inside them: in `x && (x.a && y)` the chain `x`, `x.a` is replaced by `x?.a`, which
leaves `x?.a && y)`. -/
theorem range_broken : buildAnd {} sampleMaybe ((operands true sampleNested).map (parse true)) = [parsed [sampleVar "x"] (sampleAccess "x" "a")] ∧
    reportsAnd {} sampleMaybe (parsed [sampleVar "x"] (sampleAccess "x" "a")) = true ∧ andSuggests {} sampleMaybe (parsed [sampleVar "x"] (sampleAccess "x" "a")) = false ∧
    (replacedRange true sampleNested 0 2 0).map (fun range => replaceText (text sampleNested) range "x?.a".toList) = some "x?.a && y)".toList := by
  refine ⟨by rfl, by decide +kernel, by decide +kernel, by decide +kernel⟩

/-- `y && x && x.a && z` -/
def sampleSpine : Expr := .binary (.binary (.binary (sampleVar "y") .and " && ".toList (sampleVar "x")) .and " && ".toList (sampleAccess "x" "a")) .and " && ".toList (sampleVar "z")
theorem sampleSpine_spine : Spine .and sampleSpine ([sampleVar "y"] ++ [sampleVar "x"] ++ [sampleAccess "x" "a"] ++ [sampleVar "z"]) :=
  .more _ (sampleVar "z") (fun _ _ _ h => nomatch h) (.more _ (sampleAccess "x" "a") (fun _ _ _ h => nomatch h) (.more _ (sampleVar "x") (fun _ _ _ h => nomatch h)
    (.one (sampleVar "y") (fun _ _ _ h => nomatch h))))
example : Spine .and sampleSpine ([sampleVar "y"] ++ ([sampleVar "x"] ++ [sampleAccess "x" "a"]) ++ [sampleVar "z"]) := sampleSpine_spine
example : (replacedRange true sampleSpine 1 2 0).map (fun range => replaceText (text sampleSpine) range "x?.a".toList) = some "y && x?.a && z".toList := by decide +kernel
/-- inside parentheses, and up to them -/
example : (replacedRange true (.binary (sampleVar "y") .and " && ".toList (.paren sampleSpine)) 2 3 0).map
    (fun range => replaceText (text (.binary (sampleVar "y") .and " && ".toList (.paren sampleSpine))) range "x?.a.b".toList) = some "y && (y && x?.a.b)".toList := by decide +kernel
example (c : Expr) : ∃ e', Replaced .and (.binary (sampleVar "y") .and " && ".toList (.paren sampleSpine)) [sampleVar "y", sampleVar "y"] [sampleVar "x", sampleAccess "x" "a"] [sampleVar "z"] c e' := by
  obtain ⟨e', h⟩ := spine_replaced (o := .and) (e := sampleSpine) sampleSpine_spine c [sampleVar "y"] [sampleVar "x", sampleAccess "x" "a"]
    [sampleVar "z"] rfl (by simp)
  exact ⟨_, .right (ls := [sampleVar "y"]) _ (.one (sampleVar "y") (fun _ _ _ h => nomatch h)) (.paren h (by simp))⟩
/-- a kept `typeof` -/
example : keptGuards true true (parsed [sampleTypeof] (sampleAccess "u" "a")) = 1 ∧ keptGuards true false (parsed [sampleTypeof] (sampleAccess "u" "a")) = 0 ∧
    (replacedRange true (.binary sampleTypeof .and " && ".toList (sampleAccess "u" "a")) 0 2 1).map
      (fun range => replaceText (text (.binary sampleTypeof .and " && ".toList (sampleAccess "u" "a"))) range "u?.a".toList) = some "typeof u !== 'undefined' && u?.a".toList := by
  decide +kernel

/-- **C119** A guard is kept in front just if it is a `typeof` check at the beginning of an AND chain, of a variable that is not declared, and there is another kind of check. -/
theorem kept_iff (isAnd undeclared : Bool) (chain : List Operand) :
    (keptGuards isAnd undeclared chain = 0 ∨ keptGuards isAnd undeclared chain = 1) ∧
    (keptGuards isAnd undeclared chain = 1 ↔ isAnd = true ∧ undeclared = true ∧ ∃ first rest, chain = first :: rest ∧ first.kind = .typeof ∧ ∃ x ∈ rest, x.kind ≠ .typeof) := by
  match chain with
  | [] => simp [keptGuards]
  | [x] => simp [keptGuards]
  | first :: second :: rest =>
    rw [show keptGuards isAnd undeclared (first :: second :: rest) =
      if (isAnd && first.kind == .typeof && (second :: rest).any (fun x => x.kind != .typeof) && undeclared) = true then 1 else 0 from rfl]
    have hc : (isAnd && first.kind == .typeof && (second :: rest).any (fun x => x.kind != .typeof) && undeclared) = true ↔ isAnd = true ∧ undeclared = true ∧
        ∃ first' rest', first :: second :: rest = first' :: rest' ∧ first'.kind = .typeof ∧ ∃ x ∈ rest', x.kind ≠ .typeof := by
      simp only [Bool.and_eq_true, beq_iff_eq, List.any_eq_true, bne_iff_ne]
      constructor
      · rintro ⟨⟨⟨h1, h2⟩, h3⟩, h4⟩; exact ⟨h1, h4, first, second :: rest, rfl, h2, h3⟩
      · rintro ⟨h1, h4, f, r, he, h2, h3⟩; cases he; exact ⟨⟨⟨h1, h2⟩, h3⟩, h4⟩
    by_cases h : (isAnd && first.kind == .typeof && (second :: rest).any (fun x => x.kind != .typeof) && undeclared) = true
    · rw [if_pos h]; exact ⟨.inr rfl, fun _ => hc.1 h, fun _ => rfl⟩
    · rw [if_neg h]; exact ⟨.inl rfl, nofun, fun h' => absurd (hc.2 h') h⟩

example : keptGuards true true (parsed [.binary (.typeof (sampleVar "x")) .sne " !== ".toList (.literal 0 .string "undefined".toList)] (sampleAccess "x" "a")) = 1 := by decide +kernel

end Tsgolint.OptionalChain
