import Verif.Spec.OptionalMeaning

/-!
# C110: prefer-optional-chain takes expressions for the same only if they are
-/

namespace Tsgolint.OptionalChain

variable {V : Type}

/-! ### Agreement -/

/-- one of them throws, or they come to the same -/
def Agree (W : World V) (a b : Res V) : Prop := a = .fail ∨ b = .fail ∨ a.close W = b.close W

theorem Res.close_close (W : World V) (r : Res V) : (r.close W).close W = r.close W := by cases r <;> rfl
theorem Res.value_close (W : World V) (r : Res V) : (r.close W).value W = r.value W := by cases r <;> rfl
theorem Res.close_fail (W : World V) (r : Res V) : r.close W = .fail ↔ r = .fail := by cases r <;> simp [Res.close]

theorem agree_close_left (W : World V) (a b : Res V) : Agree W (a.close W) b ↔ Agree W a b := by
  simp only [Agree, Res.close_fail, Res.close_close]
theorem agree_close_right (W : World V) (a b : Res V) : Agree W a (b.close W) ↔ Agree W a b := by
  simp only [Agree, Res.close_fail, Res.close_close]
theorem agree_congr_right (W : World V) (a : Res V) {b b' : Res V} (h : b.close W = b'.close W) : Agree W a b ↔ Agree W a b' := by
  rw [← agree_close_right, h, agree_close_right]

theorem Agree.value {W : World V} {a b : Res V} (h : Agree W a b) : a.value W = none ∨ b.value W = none ∨ a.value W = b.value W := by
  rcases h with rfl | rfl | h
  · exact .inl rfl
  · exact .inr (.inl rfl)
  · exact .inr (.inr (by rw [← Res.value_close, h, Res.value_close]))

theorem agree_of_value {W : World V} {a b : Option V} (f : V → Res V) (h : a = none ∨ b = none ∨ a = b) : Agree W (.after a f) (.after b f) := by
  rcases h with rfl | rfl | rfl
  · exact .inl rfl
  · exact .inr (.inl rfl)
  · exact .inr (.inr rfl)

theorem eval_unwrap (W : World V) : ∀ b : Expr, (W.eval b.unwrap).close W = (W.eval b).close W
  | .paren e => by rw [Expr.unwrap, World.eval, Res.close_close]; exact eval_unwrap W e
  | .nonNull e => by rw [Expr.unwrap, World.eval]; exact eval_unwrap W e
  | .ident _ _ | .keyword _ _ | .literal _ _ _ | .prop _ _ _ | .elem _ _ _ | .call _ _ _ _ | .asType _ _ | .assertion _ _
  | .binary _ _ _ _ | .unary _ _ | .typeof _ | .template _ _ _ | .await _ | .metaProp _ _ _ | .other _ _ _ => rfl

/-- a link of a chain: what comes of a value -/
theorem link_agree (W : World V) {a b : Res V} (h : Agree W a b) (o o' : Bool) (f g : V → V → Res V)
    (hfu : ∀ t v, W.Nullish v → f t v = .fail) (hgu : ∀ t v, W.Nullish v → g t v = .fail) (hfg : ∀ t v, Agree W (f t v) (g t v)) :
    Agree W (.link W o a f) (.link W o' b g) := by
  have hu : W.Nullish W.undef := .inl rfl
  rcases h with rfl | rfl | h
  · exact .inl rfl
  · exact .inr (.inl rfl)
  · cases a with
    | fail => exact .inl rfl
    | short =>
      cases b with
      | fail => exact .inr (.inl rfl)
      | short => exact .inr (.inr rfl)
      | val t v =>
        simp only [Res.close, Res.val.injEq] at h
        obtain ⟨rfl, rfl⟩ := h
        simp only [Res.link, hu, and_true, hgu _ _ hu]
        cases o' <;> simp [Agree]
    | val t v =>
      cases b with
      | fail => exact .inr (.inl rfl)
      | short =>
        simp only [Res.close, Res.val.injEq] at h
        obtain ⟨rfl, rfl⟩ := h
        simp only [Res.link, hu, and_true, hfu _ _ hu]
        cases o <;> simp [Agree]
      | val t' v' =>
        simp only [Res.close, Res.val.injEq] at h
        obtain ⟨rfl, rfl⟩ := h
        by_cases hv : W.Nullish v
        · simp only [Res.link, hv, and_true, hfu t v hv, hgu t v hv]
          cases o <;> cases o' <;> simp [Agree]
        · simp only [Res.link, hv, and_false, if_false]; exact hfg t v

theorem get_nullish (W : World V) {v : V} (h : W.Nullish v) (n : Text) : W.get v n = none := by
  rcases h with rfl | rfl
  · exact W.get_undef n
  · exact W.get_null n
theorem elem_nullish (W : World V) {v : V} (h : W.Nullish v) (n : V) : W.getElem v n = none := by
  rcases h with rfl | rfl
  · exact W.elem_undef n
  · exact W.elem_null n
theorem call_nullish (W : World V) {v : V} (h : W.Nullish v) (t : V) (xs : List V) : W.call t v xs = none := by
  rcases h with rfl | rfl
  · exact W.call_undef t xs
  · exact W.call_null t xs

/-! ### The comparison -/

theorem eq_unwrap_left : ∀ a b : Expr, a.unwrap.eq b = a.eq b
  | .paren e, b => by rw [Expr.unwrap, Expr.eq]; exact eq_unwrap_left e b
  | .nonNull e, b => by rw [Expr.unwrap, Expr.eq]; exact eq_unwrap_left e b
  | .ident _ _, _ | .keyword _ _, _ | .literal _ _ _, _ | .prop _ _ _, _ | .elem _ _ _, _ | .call _ _ _ _, _ | .asType _ _, _ | .assertion _ _, _
  | .binary _ _ _ _, _ | .unary _ _, _ | .typeof _, _ | .template _ _ _, _ | .await _, _ | .metaProp _ _ _, _ | .other _ _ _, _ => rfl

theorem unwrap_unwrap : ∀ b : Expr, b.unwrap.unwrap = b.unwrap
  | .paren e => by rw [Expr.unwrap]; exact unwrap_unwrap e
  | .nonNull e => by rw [Expr.unwrap]; exact unwrap_unwrap e
  | .ident _ _ | .keyword _ _ | .literal _ _ _ | .prop _ _ _ | .elem _ _ _ | .call _ _ _ _ | .asType _ _ | .assertion _ _
  | .binary _ _ _ _ | .unary _ _ | .typeof _ | .template _ _ _ | .await _ | .metaProp _ _ _ | .other _ _ _ => rfl

theorem eq_unwrap_right : ∀ a b : Expr, a.eq b.unwrap = a.eq b
  | .paren e, b => by simp only [Expr.eq]; exact eq_unwrap_right e b
  | .nonNull e, b => by simp only [Expr.eq]; exact eq_unwrap_right e b
  | .ident _ _, _ | .keyword _ _, _ | .literal _ _ _, _ | .prop _ _ _, _ | .elem _ _ _, _ | .call _ _ _ _, _ | .asType _ _, _ | .assertion _ _, _
  | .binary _ _ _ _, _ | .unary _ _, _ | .typeof _, _ | .template _ _ _, _ | .await _, _ | .metaProp _ _ _, _ | .other _ _ _, _ => by
    simp only [Expr.eq, unwrap_unwrap]

theorem unwrap_ne : ∀ b e : Expr, b.unwrap ≠ .paren e ∧ b.unwrap ≠ .nonNull e
  | .paren e', e => by rw [Expr.unwrap]; exact unwrap_ne e' e
  | .nonNull e', e => by rw [Expr.unwrap]; exact unwrap_ne e' e
  | .ident _ _, _ | .keyword _ _, _ | .literal _ _ _, _ | .prop _ _ _, _ | .elem _ _ _, _ | .call _ _ _ _, _ | .asType _ _, _ | .assertion _ _, _
  | .binary _ _ _ _, _ | .unary _ _, _ | .typeof _, _ | .template _ _ _, _ | .await _, _ | .metaProp _ _ _, _ | .other _ _ _, _ => by simp [Expr.unwrap]

theorem eq_unresolvable (W : World V) (a b : Expr) (h : a.eq b = true) : Expr.unresolvable W a ↔ Expr.unresolvable W b := by
  rw [← eq_unwrap_left, ← eq_unwrap_right] at h
  have ha := unwrap_ne a
  have hb := unwrap_unwrap b
  unfold Expr.unresolvable
  generalize a.unwrap = a at *
  generalize b.unwrap = b at *
  cases a with
  | paren e => exact absurd rfl (ha e).1
  | nonNull e => exact absurd rfl (ha e).2
  | ident p n =>
    simp only [Expr.eq, hb] at h
    cases b <;> simp at h
    subst h
    simp only [Expr.ident.injEq]
    exact ⟨fun ⟨_, m, ⟨_, hm⟩, hv⟩ => ⟨_, m, ⟨rfl, hm⟩, hv⟩, fun ⟨_, m, ⟨_, hm⟩, hv⟩ => ⟨_, m, ⟨rfl, hm⟩, hv⟩⟩
  | _ =>
    all_goals
      simp only [Expr.eq, hb] at h
      cases b <;> simp_all

mutual
theorem eq_agree (W : World V) : ∀ a b : Expr, a.eq b = true → Agree W (W.eval a) (W.eval b)
  | .paren a, b => fun h => by
    rw [Expr.eq] at h; rw [World.eval, agree_close_left]; exact eq_agree W a b h
  | .nonNull a, b => fun h => by
    rw [Expr.eq] at h; rw [World.eval]; exact eq_agree W a b h
  | .ident _ m, b => fun h => by
    rw [← agree_congr_right W _ (eval_unwrap W b)]
    rw [Expr.eq] at h; generalize b.unwrap = u at h
    cases u <;> simp at h
    subst h; exact .inr (.inr rfl)
  | .keyword _ m, b => fun h => by
    rw [← agree_congr_right W _ (eval_unwrap W b)]
    rw [Expr.eq] at h; generalize b.unwrap = u at h
    cases u <;> simp at h
    subst h; exact .inr (.inr rfl)
  | .literal _ k t, b => fun h => by
    rw [← agree_congr_right W _ (eval_unwrap W b)]
    rw [Expr.eq] at h; generalize b.unwrap = u at h
    cases u <;> simp at h
    obtain ⟨rfl, rfl⟩ := h; exact .inr (.inr rfl)
  | .prop a o m, b => fun h => by
    rw [← agree_congr_right W _ (eval_unwrap W b)]
    rw [Expr.eq] at h; generalize b.unwrap = u at h
    cases u <;> simp at h
    obtain ⟨rfl, h⟩ := h
    rw [World.eval, World.eval]
    refine link_agree W (eq_agree W a _ h) _ _ _ _ ?_ ?_ ?_
    · intro t v hv; rw [get_nullish W hv]; rfl
    · intro t v hv; rw [get_nullish W hv]; rfl
    · intro t v; exact .inr (.inr rfl)
  | .elem a o x, b => fun h => by
    rw [← agree_congr_right W _ (eval_unwrap W b)]
    rw [Expr.eq] at h; generalize b.unwrap = u at h
    cases u <;> simp at h
    rename_i b' o' y
    obtain ⟨hx, h⟩ := h
    have hxy := (eq_agree W x y hx).value
    rw [World.eval, World.eval]
    refine link_agree W (eq_agree W a _ h) _ _ _ _ ?_ ?_ ?_
    · intro t v hv; cases (W.eval x).value W <;> simp [Res.after, elem_nullish W hv]
    · intro t v hv; cases (W.eval y).value W <;> simp [Res.after, elem_nullish W hv]
    · intro t v; exact agree_of_value _ hxy
  | .call a o ss xs, b => fun h => by
    rw [← agree_congr_right W _ (eval_unwrap W b)]
    rw [Expr.eq] at h; generalize b.unwrap = u at h
    cases u <;> simp at h
    rename_i b' o' ts ys
    obtain ⟨⟨h, hx⟩, -⟩ := h
    have hxy := eqs_agree W xs ys hx
    rw [World.eval, World.eval]
    refine link_agree W (eq_agree W a _ h) _ _ _ _ ?_ ?_ ?_
    · intro t v hv; cases W.evals xs <;> simp [Res.after, call_nullish W hv]
    · intro t v hv; cases W.evals ys <;> simp [Res.after, call_nullish W hv]
    · intro t v
      rcases hxy with hx | hy | hxy
      · rw [hx]; exact .inl rfl
      · rw [hy]; exact .inr (.inl rfl)
      · rw [hxy]; exact .inr (.inr rfl)
  | .asType a _, b => fun h => by
    rw [← agree_congr_right W _ (eval_unwrap W b)]
    rw [Expr.eq] at h; generalize b.unwrap = u at h
    cases u <;> simp at h
    rw [World.eval, World.eval, agree_close_left, agree_close_right]; exact eq_agree W a _ h
  | .assertion _ a, b => fun h => by
    rw [← agree_congr_right W _ (eval_unwrap W b)]
    rw [Expr.eq] at h; generalize b.unwrap = u at h
    cases u <;> simp at h
    rw [World.eval, World.eval, agree_close_left, agree_close_right]; exact eq_agree W a _ h
  | .binary l o _ r, b => fun h => by
    rw [← agree_congr_right W _ (eval_unwrap W b)]
    rw [Expr.eq] at h; generalize b.unwrap = u at h
    cases u <;> simp at h
    rename_i l_1 _ _ r_1
    obtain ⟨⟨rfl, hl⟩, hr⟩ := h
    rw [World.eval, World.eval]
    rcases (eq_agree W l _ hl).value with hl | hl | hl
    · rw [hl]; exact .inl rfl
    · rw [hl]; exact .inr (.inl rfl)
    · rw [hl]
      cases (W.eval l_1).value W with
      | none => exact .inl rfl
      | some a =>
        simp only [Res.after]
        by_cases hd : W.Decides o a
        · rw [if_pos hd, if_pos hd]; exact .inr (.inr rfl)
        · rw [if_neg hd, if_neg hd]; exact agree_of_value _ (eq_agree W r _ hr).value
  | .unary o a, b => fun h => by
    rw [← agree_congr_right W _ (eval_unwrap W b)]
    rw [Expr.eq] at h; generalize b.unwrap = u at h
    cases u <;> simp at h
    obtain ⟨rfl, h⟩ := h
    rw [World.eval, World.eval]
    exact agree_of_value _ (eq_agree W a _ h).value
  | .typeof a, b => fun h => by
    rw [← agree_congr_right W _ (eval_unwrap W b)]
    rw [Expr.eq] at h; generalize b.unwrap = u at h
    cases u <;> simp at h
    rw [World.eval, World.eval]
    by_cases hu : Expr.unresolvable W a
    · rw [if_pos hu, if_pos ((eq_unresolvable W _ _ h).1 hu)]; exact .inr (.inr rfl)
    · rw [if_neg hu, if_neg (fun h' => hu ((eq_unresolvable W _ _ h).2 h'))]
      exact agree_of_value _ (eq_agree W a _ h).value
  | .template hd xs ts, b => fun h => by
    rw [← agree_congr_right W _ (eval_unwrap W b)]
    rw [Expr.eq] at h; generalize b.unwrap = u at h
    cases u <;> simp at h
    obtain ⟨⟨rfl, h⟩, rfl⟩ := h
    rw [World.eval, World.eval]
    rcases eqs_agree W xs _ h with h | h | h
    · rw [h]; exact .inl rfl
    · rw [h]; exact .inr (.inl rfl)
    · rw [h]; exact .inr (.inr rfl)
  | .await a, b => fun h => by
    rw [← agree_congr_right W _ (eval_unwrap W b)]
    rw [Expr.eq] at h; generalize b.unwrap = u at h
    cases u <;> simp at h
    rw [World.eval, World.eval]
    exact agree_of_value _ (eq_agree W a _ h).value
  | .metaProp _ k n, b => fun h => by
    rw [← agree_congr_right W _ (eval_unwrap W b)]
    rw [Expr.eq] at h; generalize b.unwrap = u at h
    cases u <;> simp at h
    obtain ⟨rfl, rfl⟩ := h; exact .inr (.inr rfl)
  | .other _ _ _, b => fun h => by simp [Expr.eq] at h
theorem eqs_agree (W : World V) : ∀ as bs : List Expr, Expr.eqs as bs = true → W.evals as = none ∨ W.evals bs = none ∨ W.evals as = W.evals bs
  | [], [] => fun _ => .inr (.inr rfl)
  | [], _ :: _ => fun h => by simp [Expr.eqs] at h
  | _ :: _, [] => fun h => by simp [Expr.eqs] at h
  | a :: as, b :: bs => fun h => by
    simp only [Expr.eqs, Bool.and_eq_true] at h
    rw [World.evals, World.evals]
    rcases (eq_agree W a b h.1).value with ha | ha | ha
    · rw [ha]; exact .inl rfl
    · rw [ha]; exact .inr (.inl rfl)
    · rw [ha]
      rcases eqs_agree W as bs h.2 with hs | hs | hs
      · rw [hs]; left; cases (W.eval b).value W <;> rfl
      · rw [hs]; right; left; cases (W.eval b).value W <;> rfl
      · rw [hs]; exact .inr (.inr rfl)
end

/-- **C110** Expressions taken for the same have the same value wherever both have one -/
theorem equal_same (W : World V) (a b : Expr) (h : a.eq b = true) (v w : V) (ha : W.value a = some v) (hb : W.value b = some w) : v = w := by
  rcases (eq_agree W a b h).value with h | h | h
  · rw [World.value, h] at ha; cases ha
  · rw [World.value, h] at hb; cases hb
  · rw [World.value, h] at ha; rw [World.value, ha] at hb; exact Option.some.inj hb

/-! ### Exactly when two expressions are taken for the same -/

theorem bare_unwrap : ∀ b : Expr, b.unwrap.bare = b.bare
  | .paren e => by rw [Expr.unwrap, Expr.bare]; exact bare_unwrap e
  | .nonNull e => by rw [Expr.unwrap, Expr.bare]; exact bare_unwrap e
  | .ident _ _ | .keyword _ _ | .literal _ _ _ | .prop _ _ _ | .elem _ _ _ | .call _ _ _ _ | .asType _ _ | .assertion _ _
  | .binary _ _ _ _ | .unary _ _ | .typeof _ | .template _ _ _ | .await _ | .metaProp _ _ _ | .other _ _ _ => rfl

theorem eqTy_iff (s t : TyNode) : Expr.eqTy s t = true ↔ s.bare = t.bare ∧ s.Plain := by
  cases s <;> cases t <;> simp [Expr.eqTy, TyNode.bare, TyNode.Plain]

theorem eqTys_iff : ∀ ss ts : List TyNode, Expr.eqTys ss ts = true ↔ ss.map TyNode.bare = ts.map TyNode.bare ∧ ∀ s ∈ ss, s.Plain
  | [], [] => by simp [Expr.eqTys]
  | [], _ :: _ => by simp [Expr.eqTys]
  | _ :: _, [] => by simp [Expr.eqTys]
  | s :: ss, t :: ts => by
    simp only [Expr.eqTys, Bool.and_eq_true, eqTy_iff, eqTys_iff ss ts, List.map_cons, List.cons.injEq, List.mem_cons, forall_eq_or_imp]
    constructor
    · rintro ⟨⟨a, b⟩, c, d⟩; exact ⟨⟨a, c⟩, b, d⟩
    · rintro ⟨⟨a, c⟩, b, d⟩; exact ⟨⟨a, b⟩, c, d⟩

mutual
/-- **C110** Expressions are taken for the same exactly if they are, up to parentheses, `!`, question marks, asserted types and white space, and none
of their parts is made anew each time -/
theorem eq_iff : ∀ a b : Expr, a.eq b = true ↔ a.bare = b.bare ∧ a.Comparable
  | .paren a, b => by rw [Expr.eq, Expr.bare, Expr.Comparable]; exact eq_iff a b
  | .nonNull a, b => by rw [Expr.eq, Expr.bare, Expr.Comparable]; exact eq_iff a b
  | .ident _ m, b => by
    have hne := unwrap_ne b
    rw [← bare_unwrap b, Expr.eq]; generalize b.unwrap = u at hne ⊢
    cases u <;> simp_all [Expr.bare, Expr.Comparable]
  | .keyword _ m, b => by
    have hne := unwrap_ne b
    rw [← bare_unwrap b, Expr.eq]; generalize b.unwrap = u at hne ⊢
    cases u <;> simp_all [Expr.bare, Expr.Comparable]
  | .literal _ k t, b => by
    have hne := unwrap_ne b
    rw [← bare_unwrap b, Expr.eq]; generalize b.unwrap = u at hne ⊢
    cases u <;> simp_all [Expr.bare, Expr.Comparable]
  | .prop a o m, b => by
    have hne := unwrap_ne b
    have ih := eq_iff a
    rw [← bare_unwrap b, Expr.eq]; generalize b.unwrap = u at hne ⊢
    cases u <;> simp_all [Expr.bare, Expr.Comparable]
    exact ⟨fun ⟨a, b, c⟩ => ⟨⟨b, a⟩, c⟩, fun ⟨⟨b, a⟩, c⟩ => ⟨a, b, c⟩⟩
  | .elem a o x, b => by
    have hne := unwrap_ne b
    have ih := eq_iff a
    have ih' := eq_iff x
    rw [← bare_unwrap b, Expr.eq]; generalize b.unwrap = u at hne ⊢
    cases u <;> simp_all [Expr.bare, Expr.Comparable]
    exact ⟨fun ⟨⟨a, b⟩, c, d⟩ => ⟨⟨c, a⟩, d, b⟩, fun ⟨⟨c, a⟩, d, b⟩ => ⟨⟨a, b⟩, c, d⟩⟩
  | .call a o ss xs, b => by
    have hne := unwrap_ne b
    have ih := eq_iff a
    have ih' := eqs_iff xs
    rw [← bare_unwrap b, Expr.eq]; generalize b.unwrap = u at hne ⊢
    cases u <;> simp_all [Expr.bare, Expr.Comparable, eqTys_iff]
    exact ⟨fun ⟨⟨⟨a, b⟩, c, d⟩, e, f⟩ => ⟨⟨a, e, c⟩, b, f, d⟩, fun ⟨⟨a, e, c⟩, b, f, d⟩ => ⟨⟨⟨a, b⟩, c, d⟩, e, f⟩⟩
  | .asType a _, b => by
    have hne := unwrap_ne b
    have ih := eq_iff a
    rw [← bare_unwrap b, Expr.eq]; generalize b.unwrap = u at hne ⊢
    cases u <;> simp_all [Expr.bare, Expr.Comparable]
  | .assertion _ a, b => by
    have hne := unwrap_ne b
    have ih := eq_iff a
    rw [← bare_unwrap b, Expr.eq]; generalize b.unwrap = u at hne ⊢
    cases u <;> simp_all [Expr.bare, Expr.Comparable]
  | .binary l o _ r, b => by
    have hne := unwrap_ne b
    have ih := eq_iff l
    have ih' := eq_iff r
    rw [← bare_unwrap b, Expr.eq]; generalize b.unwrap = u at hne ⊢
    cases u <;> simp_all [Expr.bare, Expr.Comparable]
    exact ⟨fun ⟨⟨a, b, c⟩, d, e⟩ => ⟨⟨b, a, d⟩, c, e⟩, fun ⟨⟨b, a, d⟩, c, e⟩ => ⟨⟨a, b, c⟩, d, e⟩⟩
  | .unary o a, b => by
    have hne := unwrap_ne b
    have ih := eq_iff a
    rw [← bare_unwrap b, Expr.eq]; generalize b.unwrap = u at hne ⊢
    cases u <;> simp_all [Expr.bare, Expr.Comparable, and_assoc]
  | .typeof a, b => by
    have hne := unwrap_ne b
    have ih := eq_iff a
    rw [← bare_unwrap b, Expr.eq]; generalize b.unwrap = u at hne ⊢
    cases u <;> simp_all [Expr.bare, Expr.Comparable]
  | .template hd xs ts, b => by
    have hne := unwrap_ne b
    have ih := eqs_iff xs
    rw [← bare_unwrap b, Expr.eq]; generalize b.unwrap = u at hne ⊢
    cases u <;> simp_all [Expr.bare, Expr.Comparable]
    exact ⟨fun ⟨⟨a, b, c⟩, d⟩ => ⟨⟨a, b, d⟩, c⟩, fun ⟨⟨a, b, d⟩, c⟩ => ⟨⟨a, b, c⟩, d⟩⟩
  | .await a, b => by
    have hne := unwrap_ne b
    have ih := eq_iff a
    rw [← bare_unwrap b, Expr.eq]; generalize b.unwrap = u at hne ⊢
    cases u <;> simp_all [Expr.bare, Expr.Comparable]
  | .metaProp _ k n, b => by
    have hne := unwrap_ne b
    rw [← bare_unwrap b, Expr.eq]; generalize b.unwrap = u at hne ⊢
    cases u <;> simp_all [Expr.bare, Expr.Comparable]
  | .other _ _ _, b => by simp [Expr.eq, Expr.Comparable]
theorem eqs_iff : ∀ as bs : List Expr, Expr.eqs as bs = true ↔ Expr.bares as = Expr.bares bs ∧ Expr.Comparables as
  | [], [] => by simp [Expr.eqs, Expr.bares, Expr.Comparables]
  | [], _ :: _ => by simp [Expr.eqs, Expr.bares]
  | _ :: _, [] => by simp [Expr.eqs, Expr.bares]
  | a :: as, b :: bs => by
    simp only [Expr.eqs, Bool.and_eq_true, eq_iff a b, eqs_iff as bs, Expr.bares, List.cons.injEq, Expr.Comparables]
    exact ⟨fun ⟨⟨a, b⟩, c, d⟩ => ⟨⟨a, c⟩, b, d⟩, fun ⟨⟨a, c⟩, b, d⟩ => ⟨⟨a, b⟩, c, d⟩⟩
end

/-! ### Prefixes -/

/-- **C110** An expression is taken for the beginning of another exactly if it is the same as an object of the other, or its object's object, ... -/
theorem isPrefix_iff (s : Expr) : ∀ l : Expr, s.isPrefix l = true ↔ ∃ m, Begins m l ∧ s.eq m = true
  | .paren e => by
    rw [Expr.isPrefix, isPrefix_iff s e]
    constructor
    · rintro ⟨m, hm, h⟩; exact ⟨m, .paren hm, h⟩
    · rintro ⟨m, hm, h⟩
      cases hm with
      | refl => exact ⟨e, .refl e, by rw [← eq_unwrap_right, Expr.unwrap, eq_unwrap_right] at h; exact h⟩
      | paren hm => exact ⟨m, hm, h⟩
  | .nonNull e => by
    rw [Expr.isPrefix, isPrefix_iff s e]
    constructor
    · rintro ⟨m, hm, h⟩; exact ⟨m, .nonNull hm, h⟩
    · rintro ⟨m, hm, h⟩
      cases hm with
      | refl => exact ⟨e, .refl e, by rw [← eq_unwrap_right, Expr.unwrap, eq_unwrap_right] at h; exact h⟩
      | nonNull hm => exact ⟨m, hm, h⟩
  | .prop e o n => by
    rw [Expr.isPrefix, Bool.or_eq_true, isPrefix_iff s e]
    constructor
    · rintro (h | ⟨m, hm, h⟩)
      · exact ⟨_, .refl _, h⟩
      · exact ⟨m, .prop _ _ hm, h⟩
    · rintro ⟨m, hm, h⟩
      cases hm with
      | refl => exact .inl h
      | prop _ _ hm => exact .inr ⟨m, hm, h⟩
  | .elem e o n => by
    rw [Expr.isPrefix, Bool.or_eq_true, isPrefix_iff s e]
    constructor
    · rintro (h | ⟨m, hm, h⟩)
      · exact ⟨_, .refl _, h⟩
      · exact ⟨m, .elem _ _ hm, h⟩
    · rintro ⟨m, hm, h⟩
      cases hm with
      | refl => exact .inl h
      | elem _ _ hm => exact .inr ⟨m, hm, h⟩
  | .call e o ts n => by
    rw [Expr.isPrefix, Bool.or_eq_true, isPrefix_iff s e]
    constructor
    · rintro (h | ⟨m, hm, h⟩)
      · exact ⟨_, .refl _, h⟩
      · exact ⟨m, .call _ _ _ hm, h⟩
    · rintro ⟨m, hm, h⟩
      cases hm with
      | refl => exact .inl h
      | call _ _ _ hm => exact .inr ⟨m, hm, h⟩
  | .ident _ _ | .keyword _ _ | .literal _ _ _ | .asType _ _ | .assertion _ _
  | .binary _ _ _ _ | .unary _ _ | .typeof _ | .template _ _ _ | .await _ | .metaProp _ _ _ | .other _ _ _ => by
    rw [Expr.isPrefix]
    · constructor
      · intro h; exact ⟨_, .refl _, h⟩
      · rintro ⟨m, hm, h⟩
        cases hm; exact h
    all_goals simp

/-- a chain that has met null or undefined: an error, left early, or undefined -/
def Lost (W : World V) (r : Res V) : Prop := r = .fail ∨ r.close W = .val W.undef W.undef

theorem Lost.link {W : World V} {r : Res V} (o : Bool) {f : V → V → Res V} (hf : ∀ t v, W.Nullish v → f t v = .fail)
    (h : Lost W r ∨ ∃ t v, r = .val t v ∧ W.Nullish v) : Lost W (.link W o r f) := by
  have key : ∀ t v, W.Nullish v → Lost W (.link W o (.val t v) f) := by
    intro t v hv
    simp only [Res.link, hv, and_true, hf t v hv]
    cases o
    · exact .inl rfl
    · exact .inr rfl
  rcases h with (rfl | h) | ⟨t, v, rfl, hv⟩
  · exact .inl rfl
  · cases r with
    | fail => exact .inl rfl
    | short => exact .inr rfl
    | val t v =>
      simp only [Res.close, Res.val.injEq] at h
      obtain ⟨rfl, rfl⟩ := h
      exact key _ _ (.inl rfl)
  · exact key t v hv

/-- the rest of a chain after null or undefined -/
theorem begins_lost (W : World V) {m l : Expr} (h : Begins m l) (hm : Lost W (W.eval m) ∨ ∃ t v, W.eval m = .val t v ∧ W.Nullish v) :
    (Lost W (W.eval l) ∨ ∃ t v, W.eval l = .val t v ∧ W.Nullish v) ∧ (Lost W (W.eval l) ∨ (W.eval l).close W = (W.eval m).close W) := by
  induction h with
  | refl => exact ⟨hm, .inr rfl⟩
  | prop o n _ ih =>
    have := Lost.link (W := W) o (f := fun _ v => .after (W.get v n) (.val v)) (by intro t v hv; rw [get_nullish W hv]; rfl) ih.1
    rw [World.eval]; exact ⟨.inl this, .inl this⟩
  | elem o x _ ih =>
    have := Lost.link (W := W) o (f := fun _ v => .after ((W.eval x).value W) fun k => .after (W.getElem v k) (.val v))
      (by intro t v hv; cases (W.eval x).value W <;> simp [Res.after, elem_nullish W hv]) ih.1
    rw [World.eval]; exact ⟨.inl this, .inl this⟩
  | call o ts xs _ ih =>
    have := Lost.link (W := W) o (f := fun t v => match W.evals xs with | none => .fail | some ys => .after (W.call t v ys) (.val W.undef))
      (by intro t v hv; cases W.evals xs <;> simp [Res.after, call_nullish W hv]) ih.1
    rw [World.eval]; exact ⟨.inl this, .inl this⟩
  | paren _ ih =>
    rw [World.eval]
    obtain ⟨h1, h2⟩ := ih
    refine ⟨?_, ?_⟩
    · rcases h1 with (h | h) | ⟨t, v, h, hv⟩
      · exact .inl (.inl (by rw [h]; rfl))
      · exact .inl (.inr (by rw [Res.close_close]; exact h))
      · exact .inr ⟨t, v, by rw [h]; rfl, hv⟩
    · rcases h2 with (h | h) | h
      · exact .inl (.inl (by rw [h]; rfl))
      · exact .inl (.inr (by rw [Res.close_close]; exact h))
      · exact .inr (by rw [Res.close_close]; exact h)
  | nonNull _ ih => rw [World.eval]; exact ih

/-- **C110** If an expression that another one begins with is null or undefined, the other throws, is undefined, or is the same expression -/
theorem prefix_nullish (W : World V) (s l : Expr) (h : s.isPrefix l = true) (v w : V) (hs : W.value s = some v) (hv : W.Nullish v)
    (hl : W.value l = some w) : w = W.undef ∨ w = v := by
  obtain ⟨m, hm, he⟩ := (isPrefix_iff s l).1 h
  have hag := eq_agree W s m he
  have hm' : Lost W (W.eval m) ∨ ∃ t u, W.eval m = .val t u ∧ W.Nullish u := by
    rcases hag with h | h | h
    · rw [World.value, h] at hs; cases hs
    · exact .inl (.inl h)
    · cases hs' : W.eval s with
      | fail => rw [World.value, hs'] at hs; cases hs
      | short => rw [hs'] at h; exact .inl (.inr h.symm)
      | val t u =>
        rw [World.value, hs'] at hs; cases hs
        rw [hs'] at h
        cases hm : W.eval m with
        | fail => exact .inl (.inl rfl)
        | short => exact .inl (.inr rfl)
        | val t' u' =>
          rw [hm] at h; simp only [Res.close, Res.val.injEq] at h
          exact .inr ⟨t', u', rfl, h.2 ▸ hv⟩
  have lost : ∀ {r : Res V}, Lost W r → r.value W = some w → w = W.undef := by
    intro r hr hw
    rcases hr with rfl | hr
    · cases hw
    · rw [← Res.value_close, hr] at hw; exact (Option.some.inj hw).symm
  rcases (begins_lost W hm hm').2 with h | h
  · exact .inl (lost h hl)
  · have hmw : W.value m = some w := by
      rw [World.value, ← Res.value_close, ← h, Res.value_close]; exact hl
    exact .inr (equal_same W s m he v w hs hmw).symm

/-! ### The comparison's conditions -/

/-- **C110** Where increments, assignments, ... are seen -/
theorem sideEffects_iff : ∀ e : Expr, e.sideEffects = true ↔ Effect e
  | .unary o e => by
    cases o <;> simp only [Expr.sideEffects] <;> constructor <;> intro h <;> first | exact .inc _ | exact .dec _ | trivial | cases h
  | .other p k t => by
    cases k <;> simp only [Expr.sideEffects] <;> constructor <;> intro h <;> first | exact .postfixed _ _ | exact .yielded _ _ | trivial | cases h
  | .binary l o t r => by
    rw [Expr.sideEffects]
    constructor
    · intro h; exact .assigned _ _ _ _ (by cases o <;> simp_all [Expr.opAssigns])
    · intro h; cases h with | assigned _ _ _ _ h => cases o <;> simp_all [Expr.opAssigns]
  | .prop e o n => by
    rw [Expr.sideEffects, sideEffects_iff e]
    exact ⟨.prop _ _, fun h => by cases h; assumption⟩
  | .elem e o x => by
    rw [Expr.sideEffects, Bool.or_eq_true, sideEffects_iff e, sideEffects_iff x]
    constructor
    · rintro (h | h)
      · exact .object _ _ h
      · exact .key _ _ h
    · intro h; cases h with
      | object _ _ h => exact .inl h
      | key _ _ h => exact .inr h
  | .call e o ts xs => by
    rw [Expr.sideEffects, sideEffects_iff e]
    exact ⟨.callee _ _ _, fun h => by cases h; assumption⟩
  | .paren e => by
    rw [Expr.sideEffects, sideEffects_iff e]
    exact ⟨.paren, fun h => by cases h; assumption⟩
  | .ident _ _ | .keyword _ _ | .literal _ _ _ | .nonNull _ | .asType _ _ | .assertion _ _
  | .typeof _ | .template _ _ _ | .await _ | .metaProp _ _ _ => by simp [Expr.sideEffects]; intro h; cases h

/-- When two expressions are related at all, neither has an effect that is seen, the left one is none of those blocked, callees with the same text are
called with the same text, and the relation is what it says -/
theorem compare_says (l r : Expr) :
    (compare l r ≠ .invalid → ¬ Effect l ∧ ¬ Effect r ∧ l.blocked = false ∧ ∀ c t t', (c, t) ∈ l.signatures → (c, t') ∈ r.signatures → t = t') ∧
    (compare l r = .equal → l.eq r = true) ∧
    (compare l r = .subset → l.isPrefix r = true ∧ l.eq r = false) ∧
    (compare l r = .superset → r.isPrefix l = true ∧ l.isPrefix r = false) := by
  have hclash : l.clash r = false → ∀ c t t', (c, t) ∈ l.signatures → (c, t') ∈ r.signatures → t = t' := by
    intro h c t t' ht ht'
    simp only [Expr.clash, List.any_eq_false] at h
    have := h _ ht
    simp only [List.any_eq_true, not_exists, not_and] at this
    have := this _ ht'
    simpa using this
  unfold compare
  by_cases h1 : (l.sideEffects || r.sideEffects) = true
  · simp [h1]
  rw [if_neg h1]
  by_cases h2 : l.blocked = true
  · simp [h2]
  rw [if_neg h2]
  by_cases h3 : l.clash r = true
  · simp [h3]
  rw [if_neg h3]
  simp only [Bool.or_eq_true, not_or, sideEffects_iff] at h1
  refine ⟨fun _ => ⟨h1.1, h1.2, by simpa using h2, hclash (by simpa using h3)⟩, ?_, ?_, ?_⟩ <;> repeat' split <;> simp_all

/-- Nothing keeps the two expressions from being compared: neither has an effect that is seen, the left one is none of those blocked, and callees with the same
text are called with the same text -/
def Comparable (l r : Expr) : Prop :=
  ¬ Effect l ∧ ¬ Effect r ∧ l.blocked = false ∧ ∀ c t t', (c, t) ∈ l.signatures → (c, t') ∈ r.signatures → t = t'

/-- **C110** Two expressions that can be compared are equal, or the left begins the right, or the right begins the left, exactly as the relation says -/
theorem compare_iff (l r : Expr) :
    (compare l r = .equal ↔ Comparable l r ∧ l.eq r = true) ∧
    (compare l r = .subset ↔ Comparable l r ∧ l.eq r = false ∧ l.isPrefix r = true) ∧
    (compare l r = .superset ↔ Comparable l r ∧ l.eq r = false ∧ l.isPrefix r = false ∧ r.isPrefix l = true) := by
  have hclash : l.clash r = false ↔ ∀ c t t', (c, t) ∈ l.signatures → (c, t') ∈ r.signatures → t = t' := by
    simp only [Expr.clash, List.any_eq_false]
    constructor
    · intro h c t t' ht ht'
      have := h _ ht
      simp only [List.any_eq_true, not_exists, not_and] at this
      simpa using this _ ht'
    · intro h p hp
      simp only [List.any_eq_true, not_exists, not_and]
      intro q hq
      simp only [Bool.and_eq_true, beq_iff_eq, Bool.not_eq_true', beq_eq_false_iff_ne, not_and, ne_eq, Decidable.not_not]
      intro he
      exact h p.1 p.2 q.2 hp (by rw [he]; exact hq)
  have hcomp : Comparable l r ↔ (l.sideEffects || r.sideEffects) = false ∧ l.blocked = false ∧ l.clash r = false := by
    unfold Comparable
    rw [hclash, ← sideEffects_iff, ← sideEffects_iff]
    simp [and_assoc]
  rw [hcomp]
  unfold compare
  cases (l.sideEffects || r.sideEffects) <;> cases l.blocked <;> cases l.clash r <;> cases l.eq r <;> cases l.isPrefix r <;> cases r.isPrefix l <;> simp

theorem root_of_skip : ∀ (e : Expr) p t, e.skip = .other p .new t → e.root = .other p .new t
  | .paren e, p, t, h => root_of_skip e p t h
  | .other _ _ _, p, t, h => h
  | .ident _ _, _, _, h | .keyword _ _, _, _, h | .literal _ _ _, _, _, h | .prop _ _ _, _, _, h | .elem _ _ _, _, _, h | .call _ _ _ _, _, _, h
  | .nonNull _, _, _, h | .asType _ _, _, _, h | .assertion _ _, _, _, h | .binary _ _ _ _, _, _, h | .unary _ _, _, _, h | .typeof _, _, _, h
  | .template _ _ _, _, _, h | .await _, _, _, h | .metaProp _ _ _, _, _, h => by simp [Expr.skip] at h

/-- **C110** Expressions at the left that are not compared, if they have no `?.`: a call of a function by its name, anything made of `new`, and values made anew -/
theorem blocked_iff (l : Expr) : l.blocked = true ↔ l.hasOptional = false ∧
    ((∃ c o ts xs p n, l.skip = .call c o ts xs ∧ c.skip = .ident p n) ∨ (∃ p t, l.root = .other p .new t) ∨
      (∃ p k t, l.skip = .other p k t ∧ k ∈ [.array, .object, .emptyObject, .function, .arrow, .class, .jsx]) ∨
      (∃ h xs ts, l.skip = .template h xs ts) ∨ ∃ e, l.skip = .await e) := by
  have hident : ∀ c : Expr, c.isIdent = true ↔ ∃ p n, c = .ident p n := by intro c; cases c <;> simp [Expr.isIdent]
  have hnew : ∀ c : Expr, c.isNew = true ↔ ∃ p t, c = .other p .new t := by
    intro c; cases c <;> simp [Expr.isNew]
    rename_i p k t
    cases k <;> simp [Expr.isNew]
  have hfresh : ∀ c : Expr, c.isFresh = true ↔ (∃ p k t, c = .other p k t ∧ k ∈ [.array, .object, .emptyObject, .function, .arrow, .class, .jsx]) ∨
      (∃ h xs ts, c = .template h xs ts) ∨ ∃ e, c = .await e := by
    intro c
    cases c with
    | other p k t =>
      have : (Expr.other p k t).isFresh = true ↔ k ∈ [.array, .object, .emptyObject, .function, .arrow, .class, .jsx] := by cases k <;> simp [Expr.isFresh]
      rw [this]
      constructor
      · intro h; exact .inl ⟨p, k, t, rfl, h⟩
      · rintro (⟨_, _, _, h, hk⟩ | ⟨_, _, _, h⟩ | ⟨_, h⟩)
        · cases h; exact hk
        · cases h
        · cases h
    | _ => simp [Expr.isFresh]
  have hroot := root_of_skip
  unfold Expr.blocked
  rw [Bool.and_eq_true, Bool.or_eq_true, Bool.or_eq_true, Bool.not_eq_true', hnew, hfresh]
  refine and_congr_right fun _ => ?_
  have hstand : l.standalone = true ↔ (∃ c o ts xs p n, l.skip = .call c o ts xs ∧ c.skip = .ident p n) ∨ ∃ p t, l.skip = .other p .new t := by
    unfold Expr.standalone
    cases hl : l.skip <;> simp [hident, hnew, Expr.isNew]
    rename_i p k t
    cases k <;> simp [Expr.isNew]
  rw [hstand]
  constructor
  · rintro (((h | ⟨p, t, h⟩) | h) | h)
    · exact .inl h
    · exact .inr (.inl ⟨p, t, hroot _ _ _ h⟩)
    · exact .inr (.inl h)
    · exact .inr (.inr h)
  · rintro (h | h | h)
    · exact .inl (.inl (.inl h))
    · exact .inl (.inr h)
    · exact .inr h

/-! ### What is missed -/

def sampleVar (n : String) : Expr := .ident 0 n.toList

/-- **C110** Not seen: an increment behind a non-null assertion (`a[++i]!.b` and `a[++i]!.b.c`) or among a call's arguments (`o.f(++i)` and `o.f(++i).c`); the
calls and increments are then made once instead of twice -/
theorem increments_missed (a i : Text) : 
    let x : Expr := .prop (.nonNull (.elem (.ident 0 a) false (.unary .inc (.ident 1 i)))) false ['b']
    let y : Expr := .call (.prop (.ident 0 a) false ['f']) false [] [.unary .inc (.ident 1 i)]
    (¬ Effect x ∧ compare x (.prop x false ['c']) = .subset) ∧ ¬ Effect y ∧ compare y (.prop y false ['c']) = .subset := by
  refine ⟨⟨?_, ?_⟩, ?_, ?_⟩
  · rw [← sideEffects_iff]; simp [Expr.sideEffects]
  · simp [compare, Expr.sideEffects, Expr.blocked, Expr.hasOptional, Expr.standalone, Expr.skip, Expr.isNew, Expr.root, Expr.isFresh, Expr.clash, Expr.signatures,
      Expr.eq, Expr.unwrap, Expr.isPrefix]
  · rw [← sideEffects_iff]; simp [Expr.sideEffects]
  · simp [compare, Expr.sideEffects, Expr.blocked, Expr.hasOptional, Expr.standalone, Expr.skip, Expr.isNew, Expr.root, Expr.isFresh, Expr.clash, Expr.signatures,
      Expr.eq, Expr.eqs, Expr.eqTys, Expr.unwrap, Expr.isPrefix, Expr.isIdent]

/-! ### Examples -/

/-- numbers as values: 0 is undefined, 1 is null; the property of `n` is `n - 1`, that of an element `n - k`; calling gives the sum; variables have their length -/
def sampleWorld : World Nat where
  undef := 0
  null := 1
  truthy n := decide (2 ≤ n)
  var n := if n = "none".toList then none else some n.length
  keyword | .null => 1 | .true => 3 | _ => 5
  literal _ t := t.length
  get v _ := if v ≤ 1 then none else some (v - 1)
  getElem v k := if v ≤ 1 then none else some (v - k)
  call _ f xs := if f ≤ 1 then none else some (f + xs.sum)
  op _ a b := some (a + b)
  unary _ a := some a
  typeof a := a
  undefText := 9
  template _ vs _ := some vs.sum
  await v := some v
  metaProp _ n := n.length
  other _ p := some p
  undef_falsy := rfl
  null_falsy := rfl
  get_undef _ := rfl
  get_null _ := rfl
  elem_undef _ := rfl
  elem_null _ := rfl
  call_undef _ _ := rfl
  call_null _ _ := rfl
  keyword_null := rfl

/-- `(ab!).p` and `ab?.p` are the same -/
example : (Expr.prop (.paren (.nonNull (sampleVar "abcd"))) false ['p']).eq (.prop (sampleVar "abcd") true ['p']) = true := by decide +kernel
example : sampleWorld.value (.prop (.paren (.nonNull (sampleVar "abcd"))) false ['p']) = some 3 := by
  simp [World.value, World.eval, sampleVar, sampleWorld, Res.after, Res.link, Res.close, Res.value]
example : sampleWorld.value (.prop (sampleVar "abcd") true ['p']) = some 3 := by
  simp [World.value, World.eval, sampleVar, sampleWorld, Res.after, Res.link, Res.value, World.Nullish]
/-- `a` is null; `a?.p.q` begins with it and is undefined -/
example : (sampleVar "a").isPrefix (.prop (.prop (sampleVar "a") true ['p']) false ['q']) = true := by decide +kernel
example : sampleWorld.value (sampleVar "a") = some 1 ∧ sampleWorld.value (.prop (.prop (sampleVar "a") true ['p']) false ['q']) = some 0 := by
  simp [World.value, World.eval, sampleVar, sampleWorld, Res.after, Res.link, Res.value, World.Nullish]
example : compare (sampleVar "a") (.prop (sampleVar "a") false ['b']) = .subset ∧ compare (.call (sampleVar "f") false [] []) (.prop (.call (sampleVar "f") false [] []) false ['b']) = .invalid := by
  decide +kernel
example : compare (.prop (sampleVar "a") false ['b']) (sampleVar "a") = .superset ∧ compare (sampleVar "a") (.paren (sampleVar "a")) = .equal := by decide +kernel
example : (Expr.call (sampleVar "f") false [] []).blocked = true := by decide +kernel

end Tsgolint.OptionalChain
