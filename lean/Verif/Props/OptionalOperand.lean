import Verif.Spec.OptionalOperand
import Verif.Props.OptionalExpr

/-!
# C111: the operands of `&&` and `||` are what they are taken for
-/

namespace Tsgolint.OptionalChain

variable {V : Type}

open Expr

/-! ### Collecting the operands -/

theorem operands_ne_nil (a : Bool) (e : Expr) : operands a e ≠ [] := by
  fun_induction operands a e <;> simp_all

theorem operands_paren (a : Bool) (e : Expr) : (operands a (paren e) = [paren e] ∧ (operands a e).length = 1) ∨ (operands a (paren e) = operands a e ∧ 2 ≤ (operands a e).length) := by
  rw [operands]
  cases h : operands a e with
  | nil => exact absurd h (operands_ne_nil a e)
  | cons x xs => cases xs <;> simp

def opOf (a : Bool) : Op := if a then .and else .or

theorem operands_skip (a : Bool) (e : Expr) (h : 2 ≤ (operands a e).length) : ∃ l t r, e.skip = .binary l (opOf a) t r := by
  fun_induction operands a e <;> simp_all [skip, opOf]

theorem skip_operands (a : Bool) (e l : Expr) (t : Text) (r : Expr) (h : e.skip = .binary l (opOf a) t r) : 2 ≤ (operands a e).length := by
  have pos : ∀ x, 1 ≤ (operands a x).length := fun x => List.length_pos_iff.2 (operands_ne_nil a x)
  have two : ∀ x y, 2 ≤ (operands a x ++ operands a y).length := by
    intro x y; have := pos x; have := pos y; simp only [List.length_append]; omega
  fun_induction operands a e with
  | case1 e x h' ih => have := ih h; rw [h'] at this; simp at this
  | case2 e h' ih => exact ih h
  | case3 t' l' r' ha => exact two _ _
  | case4 t' l' r' ha => cases a <;> simp [skip, opOf] at h ha
  | case5 t' l' r' ha => cases a <;> simp [skip, opOf] at h ha
  | case6 t' l' r' ha => exact two _ _
  | case7 e h1 h2 h3 =>
    cases e with
    | paren e => exact absurd rfl (h1 e)
    | binary l' o' t' r' =>
      cases a
      · simp only [skip, opOf, Expr.binary.injEq] at h; obtain ⟨_, rfl, _⟩ := h; exact absurd rfl (h3 _ _ _)
      · simp only [skip, opOf, Expr.binary.injEq] at h; obtain ⟨_, rfl, _⟩ := h; exact absurd rfl (h2 _ _ _)
    | _ => simp [skip] at h

/-- **C111** The operands are collected from the whole expression, in order -/
theorem operands_spec (a : Bool) : ∀ e : Expr, Operands (if a then .and else .or) e (operands a e) := by
  have hop : ∀ a, (if a = true then Op.and else Op.or) = opOf a := fun _ => rfl
  rw [hop]
  have hone : ∀ e, (operands a e).length = 1 → ∀ l t r, e.skip ≠ .binary l (opOf a) t r := by
    intro e he l t r h; have := skip_operands a e l t r h; omega
  intro e
  fun_induction operands a e with
  | case1 e x h ih =>
    refine .one _ fun l t r => ?_
    rw [skip]; exact hone e (by rw [h]; rfl) l t r
  | case2 e h ih =>
    refine .paren ih ?_
    cases hx : operands a e with
    | nil => exact absurd hx (operands_ne_nil a e)
    | cons x xs => cases xs with
      | nil => exact absurd hx (h x)
      | cons y ys => simp
  | case3 t' l' r' ha ih1 ih2 => subst ha; exact .both _ ih1 ih2
  | case4 t' l' r' ha => refine .one _ fun l t r => ?_; cases a <;> simp_all [skip, opOf]
  | case5 t' l' r' ha => refine .one _ fun l t r => ?_; cases a <;> simp_all [skip, opOf]
  | case6 t' l' r' ha ih1 ih2 => cases a; exact .both _ ih1 ih2; exact absurd rfl ha
  | case7 e h1 h2 h3 =>
    refine .one _ (hone e ?_)
    rw [operands] <;> simp_all

theorem operands_length {o : Op} {e : Expr} {es : List Expr} (h : Operands o e es) : es ≠ [] := by
  induction h with
  | both _ _ _ ih _ => simp [ih]
  | paren _ _ ih => exact ih
  | one => simp

theorem conjunction_append (W : World V) : ∀ (xs ys : List Expr), xs ≠ [] → ys ≠ [] →
    W.conjunction (xs ++ ys) = match W.conjunction xs with
      | none => none
      | some v => if W.truthy v = true then W.conjunction ys else some v
  | [x], y :: ys, _, _ => by simp only [List.cons_append, List.nil_append, World.conjunction]; cases W.value x <;> rfl
  | x :: x' :: xs, ys, _, hy => by
    simp only [List.cons_append, World.conjunction]
    have ih := conjunction_append W (x' :: xs) ys (by simp) hy
    simp only [List.cons_append] at ih
    cases hx : W.value x with
    | none => rfl
    | some v =>
      simp only
      cases hv : W.truthy v with
      | false => simp [hv]
      | true => simp only [if_true]; exact ih

theorem disjunction_append (W : World V) : ∀ (xs ys : List Expr), xs ≠ [] → ys ≠ [] →
    W.disjunction (xs ++ ys) = match W.disjunction xs with
      | none => none
      | some v => if W.truthy v = true then some v else W.disjunction ys
  | [x], y :: ys, _, _ => by simp only [List.cons_append, List.nil_append, World.disjunction]; cases W.value x <;> rfl
  | x :: x' :: xs, ys, _, hy => by
    simp only [List.cons_append, World.disjunction]
    have ih := disjunction_append W (x' :: xs) ys (by simp) hy
    simp only [List.cons_append] at ih
    cases hx : W.value x with
    | none => rfl
    | some v =>
      simp only
      cases hv : W.truthy v with
      | true => simp [hv]
      | false => simpa using ih

theorem value_paren (W : World V) (e : Expr) : W.value (.paren e) = W.value e := by
  rw [World.value, World.eval, Res.value_close]; rfl

theorem value_and (W : World V) (l r : Expr) (t : Text) : W.value (.binary l .and t r) = match W.value l with
    | none => none
    | some v => if W.truthy v = true then W.value r else some v := by
  simp only [World.value, World.eval]
  cases (W.eval l).value W with
  | none => rfl
  | some v =>
    cases hv : W.truthy v with
    | false => simp [Res.after, World.Decides, hv, Res.value]
    | true =>
      cases (W.eval r).value W <;> simp [Res.after, World.Decides, hv, Res.value]

theorem value_or (W : World V) (l r : Expr) (t : Text) : W.value (.binary l .or t r) = match W.value l with
    | none => none
    | some v => if W.truthy v = true then some v else W.value r := by
  simp only [World.value, World.eval]
  cases (W.eval l).value W with
  | none => rfl
  | some v =>
    cases hv : W.truthy v with
    | true => simp [Res.after, World.Decides, hv, Res.value]
    | false =>
      cases (W.eval r).value W <;> simp [Res.after, World.Decides, hv, Res.value]

/-- **C111** The expression's value is the operands' conjunction, or disjunction -/
theorem operands_value (W : World V) (a : Bool) (e : Expr) :
    W.value e = if a then W.conjunction (operands a e) else W.disjunction (operands a e) := by
  have h := operands_spec a e
  generalize operands a e = es at h
  cases a with
  | true =>
    simp only [if_true] at h ⊢
    induction h with
    | both t hl hr ihl ihr =>
      rw [conjunction_append W _ _ (operands_length hl) (operands_length hr), value_and, ihl, ihr]
    | paren _ _ ih => rw [value_paren]; exact ih
    | one => rfl
  | false =>
    simp only [Bool.false_eq_true, if_false] at h ⊢
    induction h with
    | both t hl hr ihl ihr =>
      rw [disjunction_append W _ _ (operands_length hl) (operands_length hr), value_or, ihl, ihr]
    | paren _ _ ih => rw [value_paren]; exact ih
    | one => rfl

/-! ### What an operand says -/

theorem value_unwrap (W : World V) (e : Expr) : W.value e.unwrap = W.value e := by
  simp only [World.value]
  rw [← Res.value_close, eval_unwrap, Res.value_close]

theorem value_skip (W : World V) : ∀ e : Expr, W.value e.skip = W.value e
  | .paren e => by rw [Expr.skip, value_paren]; exact value_skip W e
  | .ident _ _ | .keyword _ _ | .literal _ _ _ | .prop _ _ _ | .elem _ _ _ | .call _ _ _ _ | .nonNull _ | .asType _ _ | .assertion _ _
  | .binary _ _ _ _ | .unary _ _ | .typeof _ | .template _ _ _ | .await _ | .metaProp _ _ _ | .other _ _ _ => rfl

/-- operators that evaluate both sides -/
def Op.eager (o : Op) : Prop := o ≠ .and ∧ o ≠ .or ∧ o ≠ .nullish

theorem value_binary (W : World V) (l r : Expr) (o : Op) (t : Text) (ho : o.eager) (x : V) :
    W.value (.binary l o t r) = some x ↔ ∃ a b, W.value l = some a ∧ W.value r = some b ∧ W.op o a b = some x := by
  obtain ⟨h1, h2, h3⟩ := ho
  simp only [World.value, World.eval]
  cases (W.eval l).value W with
  | none => simp [Res.after, Res.value]
  | some a =>
    simp only [Res.after, World.Decides, h1, h2, h3, false_and, or_false, if_false]
    cases (W.eval r).value W with
    | none => simp [Res.value]
    | some b =>
      simp only [Option.some.injEq, exists_eq_left']
      cases hy : W.op o a b <;> simp [Res.value, hy]

theorem nullLit_value (W : World V) (e : Expr) (h : e.isNullLit = true) : W.value e = some W.null := by
  cases e with
  | keyword p k => cases k <;> simp [isNullLit] at h; simp [World.value, World.eval, Res.value, W.keyword_null]
  | _ => simp [isNullLit] at h

theorem undefLit_value (W : World V) (hW : W.Lawful) (e : Expr) (h : e.isUndefLit = true) : W.value e = some W.undef := by
  cases e with
  | ident p n =>
    simp only [isUndefLit, isUndefName, beq_iff_eq] at h
    subst h
    simp only [World.value, World.eval, hW.undefined, Res.after, Res.value]
  | other p k t => cases k <;> simp [isUndefLit, isUndefName] at h; simp [World.value, World.eval, hW.voids, Res.after, Res.value]
  | _ => simp [isUndefLit, isUndefName] at h

/-- the two sides of a comparison, whichever way round -/
theorem sides_spec {l r x v : Expr} (h : sides l r = some (x, v)) : (x = l.skip ∧ v = r) ∨ (x = r.skip ∧ v = l) := by
  unfold sides at h
  split at h
  · cases h; exact .inl ⟨rfl, rfl⟩
  · split at h
    · cases h; exact .inr ⟨rfl, rfl⟩
    · cases h

/-- the operators that do not care which way round -/
structure Symmetric (W : World V) (o : Op) (P : V → V → Prop) (Q : V → V → Prop) : Prop where
  left : ∀ a b x, P a b → W.op o a b = some x → (W.truthy x = true ↔ Q a b)
  right : ∀ a b x, P a b → W.op o b a = some x → (W.truthy x = true ↔ Q a b)

theorem sided (W : World V) {o : Op} {P Q : V → V → Prop} (S : Symmetric W o P Q) (ho : o.eager) {l r x v : Expr} {t : Text} {res b : V}
    (h : sides l r = some (x, v)) (hr : W.value (.binary l o t r) = some res) (hv : W.value v = some b) (hP : ∀ a, W.value x = some a → P a b) :
    ∃ a, W.value x = some a ∧ (W.truthy res = true ↔ Q a b) := by
  obtain ⟨a', b', h1, h2, h3⟩ := (value_binary W l r o t ho res).1 hr
  rcases sides_spec h with ⟨rfl, rfl⟩ | ⟨rfl, rfl⟩
  · rw [value_skip] at hP ⊢
    rw [h2] at hv; cases hv
    exact ⟨a', h1, S.left _ _ _ (hP _ h1) h3⟩
  · rw [value_skip] at hP ⊢
    rw [h1] at hv; cases hv
    exact ⟨b', h2, S.right _ _ _ (hP _ h2) h3⟩

theorem symm_seq (W : World V) (hW : W.Lawful) : Symmetric W .seq (fun a b => W.Nullish b ∨ (W.Textual a ∧ W.Textual b)) (fun a b => a = b) where
  left a b x h hx := by
    obtain ⟨r, h1, h2⟩ := hW.seq a b (h.elim (.inr ∘ .inl) (.inr ∘ .inr))
    rw [h1] at hx; cases hx; exact h2
  right a b x h hx := by
    obtain ⟨r, h1, h2⟩ := hW.seq b a (h.elim .inl (fun h => .inr (.inr ⟨h.2, h.1⟩)))
    rw [h1] at hx; cases hx; rw [h2]; exact eq_comm

theorem symm_sne (W : World V) (hW : W.Lawful) : Symmetric W .sne (fun a b => W.Nullish b ∨ (W.Textual a ∧ W.Textual b)) (fun a b => a ≠ b) where
  left a b x h hx := by
    obtain ⟨r, h1, h2⟩ := hW.sne a b (h.elim (.inr ∘ .inl) (.inr ∘ .inr))
    rw [h1] at hx; cases hx; exact h2
  right a b x h hx := by
    obtain ⟨r, h1, h2⟩ := hW.sne b a (h.elim .inl (fun h => .inr (.inr ⟨h.2, h.1⟩)))
    rw [h1] at hx; cases hx; rw [h2]; exact ne_comm

theorem symm_eq (W : World V) (hW : W.Lawful) : Symmetric W .eq (fun _ b => W.Nullish b) (fun a _ => W.Nullish a) where
  left a b x h hx := by
    obtain ⟨r, h1, h2⟩ := hW.eq a b (.inr h)
    rw [h1] at hx; cases hx; rw [h2]; simp [h]
  right a b x h hx := by
    obtain ⟨r, h1, h2⟩ := hW.eq b a (.inl h)
    rw [h1] at hx; cases hx; rw [h2]; simp [h]

theorem symm_ne (W : World V) (hW : W.Lawful) : Symmetric W .ne (fun _ b => W.Nullish b) (fun a _ => ¬ W.Nullish a) where
  left a b x h hx := by
    obtain ⟨r, h1, h2⟩ := hW.ne a b (.inr h)
    rw [h1] at hx; cases hx; rw [h2]; simp [h]
  right a b x h hx := by
    obtain ⟨r, h1, h2⟩ := hW.ne b a (.inl h)
    rw [h1] at hx; cases hx; rw [h2]; simp [h]

theorem symm_textEq (W : World V) (hW : W.Lawful) : Symmetric W .eq (fun a b => W.Textual a ∧ W.Textual b) (fun a b => a = b) where
  left a b x h hx := by
    obtain ⟨r, h1, h2⟩ := hW.textEq a b h.1 h.2
    rw [h1] at hx; cases hx; exact h2
  right a b x h hx := by
    obtain ⟨r, h1, h2⟩ := hW.textEq b a h.2 h.1
    rw [h1] at hx; cases hx; rw [h2]; exact eq_comm

theorem symm_textNe (W : World V) (hW : W.Lawful) : Symmetric W .ne (fun a b => W.Textual a ∧ W.Textual b) (fun a b => a ≠ b) where
  left a b x h hx := by
    obtain ⟨r, h1, h2⟩ := hW.textNe a b h.1 h.2
    rw [h1] at hx; cases hx; exact h2
  right a b x h hx := by
    obtain ⟨r, h1, h2⟩ := hW.textNe b a h.2 h.1
    rw [h1] at hx; cases hx; rw [h2]; exact ne_comm

/-- what an operand's value means for that of its expression -/
def Tells (W : World V) (isAnd : Bool) (x : Operand) (res : V) : Prop :=
  (∃ a, W.value x.expr = some a ∧ (W.truthy res = true ↔ Says W isAnd x.kind a)) ∨
  (x.kind = .typeof ∧ Expr.unresolvable W x.expr ∧ W.truthy res = !isAnd)

theorem nullish_null (W : World V) : W.Nullish W.null := .inr rfl
theorem nullish_undef (W : World V) : W.Nullish W.undef := .inl rfl

theorem eager_of {o : Op} (h : o = .seq ∨ o = .sne ∨ o = .eq ∨ o = .ne) : o.eager := by
  rcases h with rfl | rfl | rfl | rfl <;> simp [Op.eager]

theorem andCheck_tells (W : World V) (hW : W.Lawful) {l r x v : Expr} {o : Op} {t : Text} {res : V} {k : Kind}
    (h : sides l r = some (x, v)) (hr : W.value (.binary l o t r) = some res) (hk : andCheck o x v = some k) :
    ∃ a, W.value x = some a ∧ (W.truthy res = true ↔ Says W true k a) := by
  unfold andCheck at hk
  split at hk
  · split at hk
    · rename_i hv; cases hk
      exact sided W (symm_sne W hW) (eager_of (by simp)) h hr (nullLit_value W _ hv) fun _ _ => .inl (nullish_null W)
    · split at hk
      · rename_i hv; cases hk
        exact sided W (symm_sne W hW) (eager_of (by simp)) h hr (undefLit_value W hW _ hv) fun _ _ => .inl (nullish_undef W)
      · cases hk
  · split at hk
    · rename_i hv; cases hk
      rw [Bool.or_eq_true] at hv
      rcases hv with hv | hv
      · exact sided W (symm_ne W hW) (eager_of (by simp)) h hr (nullLit_value W _ hv) fun _ _ => nullish_null W
      · exact sided W (symm_ne W hW) (eager_of (by simp)) h hr (undefLit_value W hW _ hv) fun _ _ => nullish_undef W
    · cases hk
  · split at hk
    · rename_i hv; cases hk
      rw [Bool.and_eq_true] at hv
      exact sided W (symm_seq W hW) (eager_of (by simp)) h hr (nullLit_value W _ hv.1) fun _ _ => .inl (nullish_null W)
    · split at hk
      · rename_i hv; cases hk
        rw [Bool.and_eq_true] at hv
        exact sided W (symm_seq W hW) (eager_of (by simp)) h hr (undefLit_value W hW _ hv.1) fun _ _ => .inl (nullish_undef W)
      · cases hk
  · split at hk
    · rename_i hv; cases hk
      rw [Bool.and_eq_true, Bool.or_eq_true] at hv
      rcases hv.1 with hv | hv
      · exact sided W (symm_eq W hW) (eager_of (by simp)) h hr (nullLit_value W _ hv) fun _ _ => nullish_null W
      · exact sided W (symm_eq W hW) (eager_of (by simp)) h hr (undefLit_value W hW _ hv) fun _ _ => nullish_undef W
    · cases hk
  · cases hk

theorem orCheck_tells (W : World V) (hW : W.Lawful) {l r x v : Expr} {o : Op} {t : Text} {res : V} {k : Kind}
    (h : sides l r = some (x, v)) (hr : W.value (.binary l o t r) = some res) (hk : orCheck o x v = some k) (hc : k ≠ .comparison) :
    ∃ a, W.value x = some a ∧ (W.truthy res = true ↔ Says W false k a) := by
  unfold orCheck at hk
  split at hk
  · cases hk; exact absurd rfl hc
  split at hk
  · cases hk
  split at hk
  · split at hk
    · rename_i hv; cases hk
      exact sided W (symm_seq W hW) (eager_of (by simp)) h hr (nullLit_value W _ hv) fun _ _ => .inl (nullish_null W)
    · split at hk
      · rename_i hv; cases hk
        exact sided W (symm_seq W hW) (eager_of (by simp)) h hr (undefLit_value W hW _ hv) fun _ _ => .inl (nullish_undef W)
      · cases hk
  · split at hk
    · rename_i hv; cases hk
      rw [Bool.or_eq_true] at hv
      rcases hv with hv | hv
      · exact sided W (symm_eq W hW) (eager_of (by simp)) h hr (nullLit_value W _ hv) fun _ _ => nullish_null W
      · exact sided W (symm_eq W hW) (eager_of (by simp)) h hr (undefLit_value W hW _ hv) fun _ _ => nullish_undef W
    · cases hk
  · cases hk

theorem typeofCheck_spec {a : Bool} {o : Op} {x v e : Expr} (h : typeofCheck a o x v = some e) :
    x = .typeof e ∧ (∃ p, v = .literal p .string "undefined".toList) ∧ (if a = true then o = .sne ∨ o = .ne else o = .seq ∨ o = .eq) := by
  unfold typeofCheck at h
  split at h
  · split at h
    · rename_i ht
      simp only [beq_iff_eq] at ht
      subst ht
      cases a
      · simp only [Bool.and_false, Bool.false_eq_true, if_false, Bool.not_false, Bool.and_true] at h ⊢
        split at h
        · rename_i ho; cases h
          refine ⟨rfl, ⟨_, rfl⟩, ?_⟩
          simpa using ho
        · cases h
      · simp only [Bool.and_true, Bool.not_true, Bool.and_false, Bool.false_eq_true, if_false, if_true] at h ⊢
        split at h
        · rename_i ho; cases h
          refine ⟨rfl, ⟨_, rfl⟩, ?_⟩
          simpa using ho
        · cases h
    · cases h
  · cases h

theorem typeof_value (W : World V) (hW : W.Lawful) (e : Expr) (a : V) (h : W.value (.typeof e) = some a) :
    (Expr.unresolvable W e ∧ a = W.undefText) ∨ ∃ b, W.value e = some b ∧ a = W.typeof b := by
  simp only [World.value, World.eval] at h
  split at h
  · rename_i hu
    simp only [Res.value, Option.some.injEq] at h
    exact .inl ⟨hu, h.symm⟩
  · cases hv : (W.eval e).value W with
    | none => rw [hv] at h; simp [Res.after, Res.value] at h
    | some b =>
      rw [hv] at h
      simp only [Res.after, Res.value, Option.some.injEq] at h
      exact .inr ⟨b, hv, h.symm⟩

theorem typeofCheck_tells (W : World V) (hW : W.Lawful) {l r x v e : Expr} {o : Op} {t : Text} {res : V} {isAnd : Bool}
    (h : sides l r = some (x, v)) (hr : W.value (.binary l o t r) = some res) (hk : typeofCheck isAnd o x v = some e) (node : Expr) :
    Tells W isAnd ⟨.typeof, node, e⟩ res := by
  obtain ⟨rfl, ⟨p, rfl⟩, ho⟩ := typeofCheck_spec hk
  have hv : W.value (.literal p .string "undefined".toList) = some W.undefText := by
    simp only [World.value, World.eval, Res.value, hW.undefText]
  have htext : ∀ a, W.value (.typeof e) = some a → W.Textual a := by
    intro a ha
    rcases typeof_value W hW e a ha with ⟨_, rfl⟩ | ⟨b, _, rfl⟩
    · exact .inl rfl
    · exact .inr ⟨b, rfl⟩
  have hu : W.Textual W.undefText := .inl rfl
  cases isAnd with
  | true =>
    have key : ∃ a, W.value (.typeof e) = some a ∧ (W.truthy res = true ↔ a ≠ W.undefText) := by
      simp only [if_true] at ho
      rcases ho with rfl | rfl
      · exact sided W (symm_sne W hW) (eager_of (by simp)) h hr hv fun a ha => .inr ⟨htext a ha, hu⟩
      · exact sided W (symm_textNe W hW) (eager_of (by simp)) h hr hv fun a ha => ⟨htext a ha, hu⟩
    obtain ⟨a, ha, hres⟩ := key
    rcases typeof_value W hW e a ha with ⟨hun, rfl⟩ | ⟨b, hb, rfl⟩
    · refine .inr ⟨rfl, hun, ?_⟩
      simpa using hres
    · exact .inl ⟨b, hb, by rw [hres, ne_eq, hW.typeof]; rfl⟩
  | false =>
    have key : ∃ a, W.value (.typeof e) = some a ∧ (W.truthy res = true ↔ a = W.undefText) := by
      simp only [Bool.false_eq_true, if_false] at ho
      rcases ho with rfl | rfl
      · exact sided W (symm_seq W hW) (eager_of (by simp)) h hr hv fun a ha => .inr ⟨htext a ha, hu⟩
      · exact sided W (symm_textEq W hW) (eager_of (by simp)) h hr hv fun a ha => ⟨htext a ha, hu⟩
    obtain ⟨a, ha, hres⟩ := key
    rcases typeof_value W hW e a ha with ⟨hun, rfl⟩ | ⟨b, hb, rfl⟩
    · refine .inr ⟨rfl, hun, ?_⟩
      simpa using hres
    · exact .inl ⟨b, hb, by rw [hres, hW.typeof]; rfl⟩

theorem value_not (W : World V) (hW : W.Lawful) (e : Expr) (res : V) (h : W.value (.unary .not e) = some res) :
    ∃ a, W.value e = some a ∧ (W.truthy res = true ↔ W.truthy a = false) := by
  simp only [World.value, World.eval] at h ⊢
  cases hv : (W.eval e).value W with
  | none => rw [hv] at h; simp [Res.after, Res.value] at h
  | some a =>
    obtain ⟨r, h1, h2⟩ := hW.not a
    rw [hv] at h
    simp only [Res.after, h1, Res.value, Option.some.injEq] at h
    subst h
    exact ⟨a, rfl, h2⟩

/-- **C111** An operand that is neither a comparison nor invalid says of its expression's value what its kind says (a `typeof` also says it of a variable that
is not there) -/
theorem operand_tells (W : World V) (hW : W.Lawful) (isAnd : Bool) (e : Expr) (res : V) (he : W.value e = some res)
    (hk : (parse isAnd e).kind ≠ .comparison) (hi : (parse isAnd e).kind ≠ .invalid) : Tells W isAnd (parse isAnd e) res := by
  rw [← value_unwrap] at he
  unfold parse at hk hi ⊢
  split at hi
  · exact absurd rfl hi
  rename_i h1
  rw [if_neg h1] at hk ⊢
  split at hi
  · exact absurd rfl hi
  rename_i h2
  rw [if_neg h2] at hk ⊢
  cases hu : e.unwrap with
  | binary l o t r =>
    rw [hu] at hk hi he
    simp only at hk hi ⊢
    unfold parseBinary at hk hi ⊢
    cases hn : nullishOperand isAnd l o r with
    | none =>
      rw [hn] at hk hi
      simp only at hk hi
      cases ho : otherComparison l o r with
      | none => rw [ho] at hi; exact absurd rfl hi
      | some x => rw [ho] at hk; exact absurd rfl hk
    | some kx =>
      obtain ⟨k, x⟩ := kx
      rw [hn] at hk hi
      simp only at hk hi ⊢
      unfold nullishOperand at hn
      cases hs : sides l r with
      | none => rw [hs] at hn; cases hn
      | some xv =>
        obtain ⟨x', v⟩ := xv
        rw [hs] at hn
        simp only at hn
        cases ht : typeofCheck isAnd o x' v with
        | some e' =>
          rw [ht] at hn; cases hn
          exact typeofCheck_tells W hW hs he ht _
        | none =>
          rw [ht] at hn
          simp only at hn
          cases isAnd with
          | true =>
            simp only [if_true] at hn
            cases hc : andCheck o x' v with
            | none => rw [hc] at hn; cases hn
            | some k' =>
              rw [hc] at hn; cases hn
              exact .inl (andCheck_tells W hW hs he hc)
          | false =>
            simp only [Bool.false_eq_true, if_false] at hn
            cases hc : orCheck o x' v with
            | none => rw [hc] at hn; cases hn
            | some k' =>
              rw [hc] at hn; cases hn
              exact .inl (orCheck_tells W hW hs he hc hk)
  | unary o x =>
    rw [hu] at hk hi he
    cases o with
    | not =>
      simp only at hk hi ⊢
      unfold parseNot at hk hi ⊢
      split at hi
      · exact absurd rfl hi
      rename_i h3
      rw [if_neg h3]
      obtain ⟨a, ha, hres⟩ := value_not W hW x res he
      cases isAnd
      · exact .inl ⟨a, ha, hres⟩
      · exact .inl ⟨a, ha, hres⟩
    | _ => exact .inl ⟨res, he, Iff.rfl⟩
  | _ => rw [hu] at he; exact .inl ⟨res, he, Iff.rfl⟩

/-! ### Which operand is taken for what -/

/-- comparisons that can only be made with a value at either end -/
def Comparing (l : Expr) (o : Op) (r x : Expr) : Prop :=
  relational o = false ∧ ((x = l.skip ∧ l.skip.isAccess = true ∧ r.skip.isAccess = false) ∨ (x = r.skip ∧ r.skip.isAccess = true ∧ l.skip.isAccess = false))

theorem otherComparison_iff (l : Expr) (o : Op) (r x : Expr) : otherComparison l o r = some x ↔ Comparing l o r x := by
  unfold otherComparison Comparing
  cases relational o <;> cases l.skip.isAccess <;> cases r.skip.isAccess <;> simp [eq_comm]

theorem andCheck_kinds {o : Op} {x v : Expr} {k : Kind} (h : andCheck o x v = some k) : k ∈ [.notNull, .notUndef, .notBoth, .isNull, .isUndef, .isBoth] := by
  unfold andCheck at h
  cases hn : isNullLit v <;> cases hu : isUndefLit v <;> cases hs : simple x <;> cases o <;> simp [hn, hu, hs] at h <;> subst h <;> simp

theorem orCheck_kinds {o : Op} {x v : Expr} {k : Kind} (h : orCheck o x v = some k) : k ∈ [.comparison, .notNull, .notUndef, .notBoth] := by
  unfold orCheck at h
  cases hn : isNullLit v <;> cases hu : isUndefLit v <;> cases hs : isAccess x <;> cases o <;> simp [hn, hu, hs] at h <;> subst h <;> simp

theorem nullishOperand_kinds {a : Bool} {l r x : Expr} {o : Op} {k : Kind} (h : nullishOperand a l o r = some (k, x)) :
    k = .typeof ∨ (a = true ∧ k ∈ [.notNull, .notUndef, .notBoth, .isNull, .isUndef, .isBoth]) ∨ (a = false ∧ k ∈ [.comparison, .notNull, .notUndef, .notBoth]) := by
  unfold nullishOperand at h
  cases hs : sides l r with
  | none => rw [hs] at h; cases h
  | some xv =>
    obtain ⟨x', v⟩ := xv
    rw [hs] at h
    simp only at h
    cases ht : typeofCheck a o x' v with
    | some e' => rw [ht] at h; cases h; exact .inl rfl
    | none =>
      rw [ht] at h
      simp only at h
      cases a with
      | true =>
        simp only [if_true] at h
        cases hc : andCheck o x' v with
        | none => rw [hc] at h; cases h
        | some k' => rw [hc] at h; cases h; exact .inr (.inl ⟨rfl, andCheck_kinds hc⟩)
      | false =>
        simp only [Bool.false_eq_true, if_false] at h
        cases hc : orCheck o x' v with
        | none => rw [hc] at h; cases h
        | some k' => rw [hc] at h; cases h; exact .inr (.inr ⟨rfl, orCheck_kinds hc⟩)

theorem parseBinary_kinds (a : Bool) (node l : Expr) (o : Op) (r : Expr) :
    (parseBinary a node l o r).kind ≠ .plain ∧ (parseBinary a node l o r).kind ≠ .not ∧ (parseBinary a node l o r).kind ≠ .negated ∧
    (a = false → (parseBinary a node l o r).kind ∉ [.isNull, .isUndef, .isBoth]) := by
  unfold parseBinary
  cases hn : nullishOperand a l o r with
  | none => cases otherComparison l o r <;> simp
  | some kx =>
    obtain ⟨k, x⟩ := kx
    rcases nullishOperand_kinds hn with rfl | ⟨rfl, h⟩ | ⟨rfl, h⟩
    · simp
    · simp only [List.mem_cons, List.not_mem_nil, or_false] at h; rcases h with rfl | rfl | rfl | rfl | rfl | rfl <;> simp
    · simp only [List.mem_cons, List.not_mem_nil, or_false] at h; rcases h with rfl | rfl | rfl | rfl <;> simp

/-- expressions at which operands are not looked at further -/
def Skipped (e : Expr) : Prop := e.unwrap.isThis = true ∨ e.unwrap.innermost.isLogical = true

theorem parse_skipped (a : Bool) (e : Expr) (h : Skipped e) : parse a e = ⟨.invalid, e, e⟩ := by
  unfold parse
  rcases h with h | h
  · rw [if_pos h]
  · split
    · rfl
    · first | rfl | rw [if_pos h]

theorem parse_node (a : Bool) (e : Expr) : (parse a e).node = e := by
  unfold parse parseBinary parseNot
  split
  · rfl
  split
  · rfl
  split
  · split
    · rfl
    · split <;> rfl
  · split
    · rfl
    · split <;> rfl
  · rfl

/-- **C111** In an OR chain `x === null`, `x === undefined` and `x == null` are never `StrictEqualNull`, `StrictEqualUndef`, `EqualNull`: the code for these
kinds in OR chains is never reached -/
theorem or_kinds (e : Expr) : (parse false e).kind ∉ [.isNull, .isUndef, .isBoth, .negated] := by
  unfold parse
  split
  · simp
  split
  · simp
  split
  · rename_i l o t r _
    have h := parseBinary_kinds false e l o r
    simp only [List.mem_cons, List.not_mem_nil, or_false] at h ⊢
    have := h.2.2.2 trivial
    intro hk
    rcases hk with hk | hk | hk | hk
    · exact this (.inl hk)
    · exact this (.inr (.inl hk))
    · exact this (.inr (.inr hk))
    · exact h.2.2.1 hk
  · unfold parseNot; split <;> simp
  · simp

/-- **C111** What is neither `this`, made of a logical expression, a binary expression nor a negation is tested for truth -/
theorem plain_iff (a : Bool) (e : Expr) : (parse a e).kind = .plain ↔
    ¬ Skipped e ∧ (∀ l o t r, e.unwrap ≠ .binary l o t r) ∧ ∀ x, e.unwrap ≠ .unary .not x := by
  by_cases hs : Skipped e
  · rw [parse_skipped a e hs]; simp [hs]
  · unfold parse
    rw [if_neg (fun h => hs (.inl h)), if_neg (fun h => hs (.inr h))]
    simp only [hs, not_false_eq_true, true_and]
    split
    · rename_i l o t r hu
      simp only [(parseBinary_kinds a e l o r).1, false_iff, not_and, hu]
      intro h; exact absurd rfl (h l o t r)
    · rename_i x hu
      simp only [hu, parseNot]
      constructor
      · intro h; split at h
        · cases h
        · split at h <;> cases h
      · rintro ⟨_, h⟩; exact absurd rfl (h x)
    · rename_i h1 h2
      simp only [true_iff]
      exact ⟨fun l o t r hu => h1 l o t r hu, fun x hu => h2 x hu⟩

/-- **C111** A tested expression is the operand itself -/
theorem plain_expr (a : Bool) (e : Expr) (h : (parse a e).kind = .plain) : (parse a e).expr = e.unwrap := by
  obtain ⟨hs, h1, h2⟩ := (plain_iff a e).1 h
  unfold parse
  rw [if_neg (fun h => hs (.inl h)), if_neg (fun h => hs (.inr h))]
  split
  · rename_i l o t r hu; exact absurd hu (h1 l o t r)
  · rename_i x hu; exact absurd hu (h2 x)
  · rfl

/-- **C111** A negation is `!` of anything but `this`; in an OR chain it is one of the guards, in an AND chain it ends the chain -/
theorem not_iff (a : Bool) (e x : Expr) : parse a e = ⟨if a then .negated else .not, e, x⟩ ↔ e.unwrap = .unary .not x ∧ x.isThis = false := by
  by_cases hs : Skipped e
  · rw [parse_skipped a e hs]
    constructor
    · intro h; cases a <;> cases h
    · rintro ⟨hu, hx⟩
      rcases hs with h | h <;> rw [hu] at h <;> cases h
  · unfold parse
    rw [if_neg (fun h => hs (.inl h)), if_neg (fun h => hs (.inr h))]
    split
    · rename_i l o t r hu
      simp only [hu, reduceCtorEq, false_and, iff_false]
      intro h
      have := parseBinary_kinds a e l o r
      rw [h] at this
      cases a
      · exact this.2.1 rfl
      · exact this.2.2.1 rfl
    · rename_i y hu
      simp only [hu, Expr.unary.injEq, true_and, parseNot]
      split
      · rename_i hy
        constructor
        · intro h; cases a <;> cases h
        · rintro ⟨rfl, h⟩; rw [hy] at h; cases h
      · rename_i hy
        cases a <;> simp only [Bool.false_eq_true, if_false, if_true, Operand.mk.injEq, true_and] <;>
        · constructor
          · rintro rfl; exact ⟨rfl, by simpa using hy⟩
          · exact fun h => h.1
    · rename_i h1 h2
      constructor
      · intro h; cases a <;> cases h
      · rintro ⟨hu, _⟩; exact absurd hu (h2 x)

/-- **C111** A comparison has an access on exactly one side, that is what is compared, and its operator is not relational; or, in an OR chain, the other side is
null or undefined (and the operator any) -/
theorem comparison_shape (a : Bool) (e : Expr) (h : (parse a e).kind = .comparison) : ∃ l o t r, e.unwrap = .binary l o t r ∧
    (Comparing l o r (parse a e).expr ∨ (a = false ∧ (parse a e).expr.isAccess = true ∧
      (((parse a e).expr = l.skip ∧ r.isNullishLit = true) ∨ ((parse a e).expr = r.skip ∧ l.isNullishLit = true)))) := by
  by_cases hs : Skipped e
  · rw [parse_skipped a e hs] at h; cases h
  · unfold parse at h ⊢
    rw [if_neg (fun h => hs (.inl h)), if_neg (fun h => hs (.inr h))] at h ⊢
    split at h
    · rename_i l o t r hu
      refine ⟨l, o, t, r, hu, ?_⟩
      try rw [hu]
      try simp only
      unfold parseBinary at h ⊢
      cases hn : nullishOperand a l o r with
      | none =>
        rw [hn] at h
        simp only at h
        cases ho : otherComparison l o r with
        | none => rw [ho] at h; cases h
        | some x => exact .inl ((otherComparison_iff l o r x).1 ho)
      | some kx =>
        obtain ⟨k, x⟩ := kx
        rw [hn] at h
        simp only at h ⊢
        subst h
        rcases nullishOperand_kinds hn with h | ⟨rfl, h⟩ | ⟨rfl, _⟩
        · cases h
        · simp at h
        · right
          refine ⟨rfl, ?_⟩
          unfold nullishOperand at hn
          cases hsd : sides l r with
          | none => rw [hsd] at hn; cases hn
          | some xv =>
            obtain ⟨x', v⟩ := xv
            rw [hsd] at hn
            simp only [Bool.false_eq_true, if_false] at hn
            cases ht : typeofCheck false o x' v with
            | some e' => rw [ht] at hn; cases hn
            | none =>
              rw [ht] at hn
              simp only at hn
              cases hc : orCheck o x' v with
              | none => rw [hc] at hn; cases hn
              | some k' =>
                rw [hc] at hn
                cases hn
                have hacc : x.isAccess = true ∧ v.isNullishLit = true := by
                  unfold orCheck at hc
                  unfold isNullishLit
                  cases h1 : isNullLit v <;> cases h2 : isUndefLit v <;> cases h3 : isAccess x <;> cases o <;> simp_all
                refine ⟨hacc.1, ?_⟩
                rcases sides_spec hsd with ⟨rfl, rfl⟩ | ⟨rfl, rfl⟩
                · exact .inl ⟨rfl, hacc.2⟩
                · exact .inr ⟨rfl, hacc.2⟩
    · unfold parseNot at h
      split at h
      · cases h
      · split at h <;> cases h
    · cases h

/-! ### Safe comparisons -/

/-- the operators that the tests are about -/
def Equality (o : Op) : Prop := o = .seq ∨ o = .sne ∨ o = .eq ∨ o = .ne

theorem alwaysNullish_has (W : World V) {t : List Part} {v : V} (h : Info.alwaysNullish t = true) (hv : W.HasType t v) : W.Nullish v := by
  unfold Info.alwaysNullish at h
  rw [Bool.and_eq_true, List.all_eq_true] at h
  obtain ⟨p, hp, hv⟩ := hv
  have := h.2 p hp
  cases p <;> simp at this
  · exact .inr hv
  · exact .inl hv
  · exact .inl hv

theorem alwaysUndef_has (W : World V) {t : List Part} {v : V} (h : Info.alwaysUndef t = true) (hv : W.HasType t v) : v = W.undef := by
  unfold Info.alwaysUndef at h
  rw [Bool.and_eq_true, List.all_eq_true] at h
  obtain ⟨p, hp, hv⟩ := hv
  have := h.2 p hp
  cases p <;> simp at this
  · exact hv
  · exact hv

theorem canBeNullish_has (W : World V) {t : List Part} {v : V} (h : Info.canBeNullish t = false) (hp : Part.param ∉ t) (hv : W.HasType t v) : ¬ W.Nullish v := by
  obtain ⟨p, hpt, hv⟩ := hv
  simp only [Info.canBeNullish, Info.hasNull, Info.hasUndef, Info.hasVoid, Info.hasAny, Info.hasUnknown, Bool.or_eq_false_iff, List.contains_eq_mem,
    decide_eq_false_iff_not] at h
  obtain ⟨⟨⟨⟨⟨_, h1⟩, h2⟩, h3⟩, h4⟩, h5⟩ := h
  cases p <;> first | exact absurd hpt (by assumption) | exact hv

theorem canBeUndef_has (W : World V) (hW : W.Lawful) {t : List Part} {v : V} (h : Info.canBeUndef t = false) (hp : Part.param ∉ t) (hv : W.HasType t v) : v ≠ W.undef := by
  obtain ⟨p, hpt, hv⟩ := hv
  simp only [Info.canBeUndef, Info.hasUndef, Info.hasVoid, Info.hasAny, Info.hasUnknown, Bool.or_eq_false_iff, List.contains_eq_mem,
    decide_eq_false_iff_not] at h
  obtain ⟨⟨⟨⟨_, h2⟩, h3⟩, h4⟩, h5⟩ := h
  cases p <;> first | exact absurd hpt (by assumption) | (intro hu; exact hv (.inl hu)) | (intro hu; subst hu; exact hW.distinct hv.symm)

/-- **C111** At the end of an AND chain a comparison counts as safe only if it is false for undefined, whatever value of its type is on the other side (type
parameters aside): the chain that stops early, and the comparison of undefined, are both falsy -/
theorem trailing_safe (W : World V) (hW : W.Lawful) (o : Op) (ho : Equality o) (t : List Part) (hp : Part.param ∉ t) (h : trailingSafe o t = true)
    (v : V) (hv : W.HasType t v) : ∃ x, W.op o W.undef v = some x ∧ W.truthy x = false := by
  have hu := nullish_undef W
  rcases ho with rfl | rfl | rfl | rfl
  · obtain ⟨x, h1, h2⟩ := hW.seq W.undef v (.inl hu)
    have := canBeUndef_has W hW (by simpa [trailingSafe] using h) hp hv
    exact ⟨x, h1, by rw [← Bool.not_eq_true, h2]; exact fun h => this h.symm⟩
  · obtain ⟨x, h1, h2⟩ := hW.sne W.undef v (.inl hu)
    have := alwaysUndef_has W (by simpa [trailingSafe] using h) hv
    exact ⟨x, h1, by rw [← Bool.not_eq_true, h2]; exact fun h => h this.symm⟩
  · obtain ⟨x, h1, h2⟩ := hW.eq W.undef v (.inl hu)
    have := canBeNullish_has W (by simpa [trailingSafe] using h) hp hv
    exact ⟨x, h1, by rw [← Bool.not_eq_true, h2]; exact fun h => this h.2⟩
  · obtain ⟨x, h1, h2⟩ := hW.ne W.undef v (.inl hu)
    have := alwaysNullish_has W (by simpa [trailingSafe] using h) hv
    exact ⟨x, h1, by rw [← Bool.not_eq_true, h2]; exact fun h => h ⟨hu, this⟩⟩

/-- **C111** A comparison of order is never taken to be safe, whatever the types -/
theorem trailing_order (o : Op) (t : List Part) (h : o = .lt ∨ o = .gt ∨ o = .le ∨ o = .ge) : trailingSafe o t = false := by
  rcases h with rfl | rfl | rfl | rfl <;> rfl
example : trailingSafe .seq [] = trailingSafe .le [] := by decide

/-- every part of a type has values, some that are not nullish if there can be any -/
def World.Inhabited (W : World V) : Prop := ∃ v, ¬ W.Nullish v

/-- **C111** And a comparison with a value of known type that is not safe is true for undefined and some value of the type -/
theorem trailing_unsafe (W : World V) (hW : W.Lawful) (hI : W.Inhabited) (o : Op) (ho : Equality o) (t : List Part) (ht : t ≠ []) (h : trailingSafe o t = false) :
    ∃ v x, W.HasType t v ∧ W.op o W.undef v = some x ∧ W.truthy x = true := by
  have hu := nullish_undef W
  obtain ⟨w, hw⟩ := hI
  have hwn : w ≠ W.undef := fun h => hw (.inl h)
  have hemp : t.isEmpty = false := by cases t <;> simp at ht ⊢
  have any_of : Info.anyOrUnknown t = true → W.HasType t W.undef ∧ W.HasType t w := by
    intro h
    simp only [Info.anyOrUnknown, Info.hasAny, Info.hasUnknown, Bool.or_eq_true, List.contains_eq_mem, decide_eq_true_eq] at h
    rcases h with h | h
    · exact ⟨⟨_, h, trivial⟩, ⟨_, h, trivial⟩⟩
    · exact ⟨⟨_, h, trivial⟩, ⟨_, h, trivial⟩⟩
  rcases ho with rfl | rfl | rfl | rfl
  · obtain ⟨x, h1, h2⟩ := hW.seq W.undef W.undef (.inl hu)
    refine ⟨W.undef, x, ?_, h1, h2.2 rfl⟩
    simp only [trailingSafe, Bool.not_eq_false', Info.canBeUndef, hemp, Info.hasUndef, Info.hasVoid, Info.hasAny, Info.hasUnknown, Bool.or_eq_true,
      List.contains_eq_mem, decide_eq_true_eq, Bool.false_eq_true, false_or] at h
    rcases h with ((h | h) | h) | h
    · exact ⟨_, h, rfl⟩
    · exact ⟨_, h, rfl⟩
    · exact ⟨_, h, trivial⟩
    · exact ⟨_, h, trivial⟩
  · have : ∃ v, W.HasType t v ∧ v ≠ W.undef := by
      simp only [trailingSafe, Info.alwaysUndef, hemp, Bool.false_or, Bool.and_eq_false_iff, Bool.not_eq_false', List.all_eq_false] at h
      rcases h with h | ⟨p, hp, h⟩
      · exact ⟨w, (any_of h).2, hwn⟩
      · cases p <;> simp at h
        · exact ⟨W.null, ⟨_, hp, rfl⟩, hW.distinct⟩
        all_goals first | exact ⟨w, ⟨_, hp, trivial⟩, hwn⟩ | exact ⟨w, ⟨_, hp, hw⟩, hwn⟩
    obtain ⟨v, hv, hne⟩ := this
    obtain ⟨x, h1, h2⟩ := hW.sne W.undef v (.inl hu)
    exact ⟨v, x, hv, h1, h2.2 fun h => hne h.symm⟩
  · have : ∃ v, W.HasType t v ∧ W.Nullish v := by
      simp only [trailingSafe, Bool.not_eq_false', Info.canBeNullish, hemp, Info.hasNull, Info.hasUndef, Info.hasVoid, Info.hasAny, Info.hasUnknown, Bool.or_eq_true,
        List.contains_eq_mem, decide_eq_true_eq, Bool.false_eq_true, false_or] at h
      rcases h with (((h | h) | h) | h) | h
      · exact ⟨_, ⟨_, h, rfl⟩, nullish_null W⟩
      · exact ⟨_, ⟨_, h, rfl⟩, hu⟩
      · exact ⟨_, ⟨_, h, rfl⟩, hu⟩
      · exact ⟨W.undef, ⟨_, h, trivial⟩, hu⟩
      · exact ⟨W.undef, ⟨_, h, trivial⟩, hu⟩
    obtain ⟨v, hv, hn⟩ := this
    obtain ⟨x, h1, h2⟩ := hW.eq W.undef v (.inl hu)
    exact ⟨v, x, hv, h1, h2.2 ⟨hu, hn⟩⟩
  · have : ∃ v, W.HasType t v ∧ ¬ W.Nullish v := by
      simp only [trailingSafe, Info.alwaysNullish, hemp, Bool.false_or, Bool.and_eq_false_iff, Bool.not_eq_false', List.all_eq_false] at h
      rcases h with h | ⟨p, hp, h⟩
      · exact ⟨w, (any_of h).2, hw⟩
      · cases p <;> simp at h
        all_goals first | exact ⟨w, ⟨_, hp, trivial⟩, hw⟩ | exact ⟨w, ⟨_, hp, hw⟩, hw⟩
    obtain ⟨v, hv, hn⟩ := this
    obtain ⟨x, h1, h2⟩ := hW.ne W.undef v (.inl hu)
    exact ⟨v, x, hv, h1, h2.2 fun h => hn h.2⟩

/-- **C111** What the tests miss: a value whose type is a type parameter, and every operator that is no comparison, count as safe -/
theorem trailing_missed : trailingSafe .seq [.param] = true ∧ trailingSafe .eq [.param] = true ∧ ∀ t, ∀ o ∈ [Op.plus, .nullish, .comma, .assign], trailingSafe o t = true := by
  refine ⟨rfl, rfl, ?_⟩
  intro t o ho
  simp only [List.mem_cons, List.not_mem_nil, or_false] at ho
  rcases ho with rfl | rfl | rfl | rfl <;> rfl

/-- literals are not null or undefined -/
def World.LiteralsDefined (W : World V) : Prop := ∀ e v, e.isLiteralNode = true → W.value e = some v → ¬ W.Nullish v

/-- **C111** In an OR chain a comparison counts as safe only if it is true for undefined: the chain that stops early, and the comparison of undefined, are both
truthy -/
theorem or_safe (W : World V) (hW : W.Lawful) (hL : W.LiteralsDefined) (x : Operand) (h : orSafe x = true) (hk : x.kind = .comparison)
    (l : Expr) (o : Op) (t : Text) (r : Expr) (hn : x.node.skip = .binary l o t r) (ho : Equality o) (e : Expr) (he : otherSide l.skip r.skip = some e)
    (v : V) (hv : W.value e = some v) : ∃ y, W.op o W.undef v = some y ∧ W.truthy y = true := by
  have hu := nullish_undef W
  have hb : binaryParts x.node = some (l.skip, o, r.skip) := by simp only [binaryParts, hn]
  have hs : orSafeOp o e = true := by
    unfold orSafe at h
    rw [hb] at h
    simpa [hk, he] using h
  have hnull : e.isNullLit = true → v = W.null := fun h => by have := nullLit_value W e h; rw [this] at hv; exact (Option.some.inj hv).symm
  have hundef : e.isUndefLit = true → v = W.undef := fun h => by have := undefLit_value W hW e h; rw [this] at hv; exact (Option.some.inj hv).symm
  rcases ho with rfl | rfl | rfl | rfl
  · obtain ⟨y, h1, h2⟩ := hW.seq W.undef v (.inl hu)
    exact ⟨y, h1, h2.2 (hundef hs).symm⟩
  · obtain ⟨y, h1, h2⟩ := hW.sne W.undef v (.inl hu)
    refine ⟨y, h1, h2.2 ?_⟩
    simp only [orSafeOp, Bool.or_eq_true] at hs
    rcases hs with hs | hs
    · intro h; exact hL e v hs hv (.inl h.symm)
    · rw [hnull hs]; exact fun h => hW.distinct h.symm
  · obtain ⟨y, h1, h2⟩ := hW.eq W.undef v (.inl hu)
    refine ⟨y, h1, h2.2 ⟨hu, ?_⟩⟩
    simp only [orSafeOp, Bool.or_eq_true] at hs
    rcases hs with hs | hs
    · rw [hnull hs]; exact nullish_null W
    · rw [hundef hs]; exact hu
  · obtain ⟨y, h1, h2⟩ := hW.ne W.undef v (.inl hu)
    refine ⟨y, h1, h2.2 ?_⟩
    simp only [orSafeOp] at hs
    split at hs
    · cases hs
    · split at hs
      · cases hs
      · exact fun h => hL e v hs hv h.2

/-! ### Examples -/

/-- values: undefined, null, false, true, a number, a text -/
inductive Val | undef | null | fls | tru | num (n : Nat) | str (s : Text)
  deriving DecidableEq

def Val.bool (b : Bool) : Val := if b then .tru else .fls
def Val.nullish : Val → Bool
  | .undef | .null => true
  | _ => false

def Val.truthy : Val → Bool
  | .tru => true
  | .num n => n != 0
  | .str s => !s.isEmpty
  | _ => false
def Val.typeof : Val → Val
  | .undef => .str "undefined".toList
  | _ => .str "object".toList
def Val.get : Val → Option Val
  | .num n => some (if n = 0 then .undef else .num (n - 1))
  | _ => none
def Val.op (a b : Val) : Op → Option Val
  | .seq => some (.bool (a == b))
  | .sne => some (.bool (a != b))
  | .eq => some (.bool ((a.nullish && b.nullish) || a == b))
  | .ne => some (.bool !((a.nullish && b.nullish) || a == b))
  | _ => none
def Val.unary (v : Val) : Pre → Option Val
  | .not => some (.bool !v.truthy)
  | _ => none
def sampleVars (n : Text) : Option Val :=
  if n = "undefined".toList then some .undef else if n = ['x'] then some (.num 3) else if n = ['u'] then some .undef else if n = ['n'] then some .null else none
def sampleKeyword : Keyword → Val
  | .null => .null
  | .true => .tru
  | .false => .fls
  | _ => .num 9

/-- a world with JavaScript's operators; a number has properties with the number before, `x` is 3, `u` undefined, `n` null -/
def lawfulWorld : World Val where
  undef := .undef
  null := .null
  truthy := Val.truthy
  var := sampleVars
  keyword := sampleKeyword
  literal k t := if k = .string then .str t else .num t.length
  get v _ := v.get
  getElem v _ := v.get
  call _ f _ := f.get
  op o a b := a.op b o
  unary o v := v.unary o
  typeof := Val.typeof
  undefText := .str "undefined".toList
  template _ _ _ := some (.str [])
  await v := some v
  metaProp _ _ := .num 1
  other k _ := if k = .void then some .undef else some (.num 5)
  undef_falsy := rfl
  null_falsy := rfl
  get_undef _ := rfl
  get_null _ := rfl
  elem_undef _ := rfl
  elem_null _ := rfl
  call_undef _ _ := rfl
  call_null _ _ := rfl
  keyword_null := rfl

theorem bool_truthy (b : Bool) : lawfulWorld.truthy (Val.bool b) = b := by cases b <;> rfl

theorem nullish_bool (v : Val) : lawfulWorld.Nullish v ↔ v.nullish = true := by
  have : lawfulWorld.Nullish v ↔ v = .undef ∨ v = .null := Iff.rfl
  rw [this]; cases v <;> simp [Val.nullish]

theorem textual_defined (v : Val) (h : lawfulWorld.Textual v) : v.nullish = false := by
  rcases h with rfl | ⟨u, rfl⟩
  · rfl
  · cases u <;> rfl

theorem lawful : lawfulWorld.Lawful where
  distinct := nofun
  undefined := rfl
  voids _ := rfl
  undefText := rfl
  typeof v := by
    have h1 : lawfulWorld.typeof v = v.typeof := rfl
    have h2 : lawfulWorld.undefText = .str "undefined".toList := rfl
    have h3 : lawfulWorld.undef = .undef := rfl
    rw [h1, h2, h3]; cases v <;> simp [Val.typeof]
  not v := ⟨.bool !v.truthy, rfl, by
    have h1 : lawfulWorld.truthy v = v.truthy := rfl
    rw [bool_truthy, h1]; simp⟩
  seq a b _ := ⟨.bool (a == b), rfl, by rw [bool_truthy]; simp⟩
  sne a b _ := ⟨.bool (a != b), rfl, by rw [bool_truthy]; simp⟩
  eq a b h := ⟨.bool ((a.nullish && b.nullish) || a == b), rfl, by
    rw [bool_truthy]; simp only [nullish_bool] at h ⊢
    by_cases hab : a = b
    · subst hab; simpa using h
    · simp [hab]⟩
  ne a b h := ⟨.bool !((a.nullish && b.nullish) || a == b), rfl, by
    rw [bool_truthy]; simp only [nullish_bool] at h ⊢
    by_cases hab : a = b
    · subst hab; simpa using h
    · cases ha : a.nullish <;> cases hb : b.nullish <;> simp_all⟩
  textEq a b ha hb := ⟨.bool ((a.nullish && b.nullish) || a == b), rfl, by rw [bool_truthy]; simp [textual_defined a ha]⟩
  textNe a b ha hb := ⟨.bool !((a.nullish && b.nullish) || a == b), rfl, by rw [bool_truthy]; simp [textual_defined a ha]⟩

def sampleProp (e : Expr) (n : String) : Expr := .prop e false n.toList
def sampleNull : Expr := .keyword 0 .null

example : lawfulWorld.LiteralsDefined := by
  intro e v h hv
  rw [World.value] at hv
  cases e with
  | literal p k t => rw [World.eval] at hv; cases k <;> simp only [isLiteralNode, Bool.false_eq_true] at h <;> cases hv <;> rw [nullish_bool] <;> nofun
  | keyword p k => rw [World.eval] at hv; cases k <;> simp only [isLiteralNode, Bool.false_eq_true] at h <;> cases hv <;> rw [nullish_bool] <;> nofun
  | other p k t => rw [World.eval] at hv; cases k <;> simp only [isLiteralNode, Bool.false_eq_true] at h <;> cases hv <;> rw [nullish_bool] <;> nofun
  | _ => simp [isLiteralNode] at h
example : lawfulWorld.Inhabited := ⟨.tru, by rw [nullish_bool]; decide⟩
example : operands true (.binary (.paren (.binary (sampleVar "a") .and [] (sampleVar "b"))) .and [] (.paren (sampleVar "c"))) =
    [sampleVar "a", sampleVar "b", .paren (sampleVar "c")] := rfl
example : (parse true (.binary sampleNull .sne [] (sampleProp (sampleVar "x") "y"))).kind = .notNull := rfl
example : (parse false (.binary sampleNull .seq [] (sampleVar "x"))).kind = .notNull := rfl
example : (parse true (.binary (.typeof (sampleVar "x")) .sne [] (.literal 0 .string "undefined".toList))).kind = .typeof := by decide +kernel
/-- `typeof z !== 'undefined'` with no `z` -/
example : lawfulWorld.value (.binary (.typeof (sampleVar "z")) .sne [] (.literal 0 .string "undefined".toList)) = some .fls := by
  have hu : Expr.unresolvable lawfulWorld (sampleVar "z") := ⟨0, ['z'], rfl, rfl⟩
  refine (value_binary _ _ _ _ _ ⟨by decide, by decide, by decide⟩ _).2 ⟨.str "undefined".toList, .str "undefined".toList, ?_, rfl, rfl⟩
  rw [World.value, World.eval, if_pos hu]; rfl
example : (parse true (.binary (sampleProp (sampleVar "x") "y") .seq [] (.literal 0 .number ['0']))).kind = .comparison := rfl
example : (parse true (.binary (sampleProp (sampleVar "x") "y") .lt [] (.literal 0 .number ['0']))).kind = .invalid := rfl
example : (parse true (.unary .not (sampleVar "x"))).kind = .negated ∧ (parse false (.unary .not (sampleVar "x"))).kind = .not := ⟨rfl, rfl⟩
example : trailingSafe .seq [.num, .null] = true ∧ trailingSafe .eq [.num, .null] = false ∧ trailingSafe .sne [.undef] = true := ⟨rfl, rfl, rfl⟩
example : lawfulWorld.HasType [.num, .null] .null := ⟨.null, by simp, rfl⟩
example : orSafe ⟨.comparison, .binary (sampleProp (sampleVar "x") "y") .sne [] (.literal 0 .number ['0']), sampleProp (sampleVar "x") "y"⟩ = true := rfl
example : lawfulWorld.value (.literal 0 .number ['0']) = some (.num 1) := by rw [World.value, World.eval]; rfl

end Tsgolint.OptionalChain
