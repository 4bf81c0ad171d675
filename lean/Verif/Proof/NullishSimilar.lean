import Verif.Spec.Nullish
/-! # Similar expressions -/
namespace Tsgolint.Nullish

theorem bare_iff (e u : Expr) : Bare e u ↔ u = e.unwrap := by
  constructor
  · intro h
    induction h with
    | paren _ ih => rw [ih]; rfl
    | nonNull => rfl
    | plain h1 h2 =>
      rename_i e
      cases e <;> first | rfl | exact absurd rfl (h1 _) | exact absurd rfl (h2 _)
  · rintro rfl
    induction e with
    | paren e ih => exact .paren ih
    | nonNull e => exact .nonNull
    | _ => exact .plain (by simp) (by simp)

theorem bare (e : Expr) : Bare e e.unwrap := (bare_iff _ _).2 rfl

theorem equal_iff (a b : Expr) : Equal a b ↔ a.same b = true := by
  constructor
  · intro h
    induction h with
    | prop _ ih => simp [Expr.same, ih]
    | elem _ _ ih1 ih2 => simp [Expr.same, ih1, ih2]
    | _ => simp [Expr.same]
  · intro h
    induction a generalizing b with
    | ident n => cases b <;> simp [Expr.same] at h; subst h; exact .ident
    | prop q o n p ih =>
      cases b <;> simp [Expr.same] at h
      obtain ⟨⟨⟨rfl, rfl⟩, rfl⟩, h⟩ := h
      exact .prop (ih _ h)
    | elem q o a ih1 ih2 => cases b <;> simp [Expr.same] at h; exact .elem (ih1 _ h.2) (ih2 _ h.1)
    | null => cases b <;> simp [Expr.same] at h; exact .null
    | this => cases b <;> simp [Expr.same] at h; exact .this
    | str t s => cases b <;> simp [Expr.same] at h; obtain ⟨rfl, rfl⟩ := h; exact .str
    | num t => cases b <;> simp [Expr.same] at h; subst h; exact .num
    | big t => cases b <;> simp [Expr.same] at h; subst h; exact .big
    | _ => simp [Expr.same] at h

theorem similarTo_unwrap (a b : Expr) : a.similarTo true b = a.unwrap.similarTo false b := by
  induction a with
  | paren e ih => rw [Expr.similarTo, ih]; rfl
  | nonNull e => rw [Expr.similarTo]; rfl
  | _ => simp only [Expr.unwrap, Expr.skip, Expr.similarTo]

/-- Without parentheses and `!` -/
def SimilarBare (a b : Expr) : Prop :=
  Equal a b ∨ (∃ o o' n, Reads a o n ∧ Reads b o' n ∧ Similar o o') ∨ ∃ q q' o o' k k', a = .elem q o k ∧ b = .elem q' o' k' ∧ Similar o o' ∧ Equal k k'

theorem SimilarBare.similar {a b a' b' : Expr} (ha : Bare a a') (hb : Bare b b') (h : SimilarBare a' b') : Similar a b := by
  rcases h with h | ⟨o, o', n, h1, h2, h3⟩ | ⟨q, q', o, o', k, k', rfl, rfl, h1, h2⟩
  · exact .equal ha hb h
  · exact .named ha hb h1 h2 h3
  · exact .computed ha hb h1 h2

theorem Similar.paren {e b : Expr} (h : Similar e b) : Similar (.paren e) b := by
  cases h with
  | equal h1 h2 h3 => exact .equal (.paren h1) h2 h3
  | named h1 h2 h3 h4 h5 => exact .named (.paren h1) h2 h3 h4 h5
  | computed h1 h2 h3 h4 => exact .computed (.paren h1) h2 h3 h4

theorem key_reads {q : Bool} {o a : Expr} (h : a.key ≠ "") : Reads (.elem q o a) o a.key := by
  cases a <;> simp [Expr.key] at h ⊢
  exact .elem h

theorem similar_of (a : Expr) : (∀ b, a.similarTo false b = true → SimilarBare a b) ∧ ∀ b, a.similarTo true b.unwrap = true → Similar a b := by
  induction a with
  | paren e ih => exact ⟨fun b h => by simp [Expr.similarTo, Expr.same] at h, fun b h => (ih.2 b (by simpa [Expr.similarTo] using h)).paren⟩
  | nonNull e ih => exact ⟨fun b h => by simp [Expr.similarTo, Expr.same] at h, fun b h => (ih.1 _ (by simpa [Expr.similarTo] using h)).similar .nonNull (bare b)⟩
  | prop q o n p ih =>
    have key : ∀ b, (Expr.prop q o n p).similarTo false b = true → SimilarBare (Expr.prop q o n p) b := by
      intro b h
      cases b with
      | prop q' o' n' p' =>
        simp only [Expr.similarTo, Bool.and_eq_true, beq_iff_eq] at h
        obtain ⟨rfl, h⟩ := h
        exact .inr (.inl ⟨o, o', n, .prop, .prop, ih.2 _ h⟩)
      | elem q' o' a' =>
        simp only [Expr.similarTo] at h
        split at h
        · cases h
        · rename_i hk
          simp only [Bool.or_eq_true, beq_iff_eq, not_or] at hk
          simp only [Bool.and_eq_true, beq_iff_eq] at h
          obtain ⟨rfl, h⟩ := h
          exact .inr (.inl ⟨o, o', _, .prop, key_reads hk.2, ih.2 _ h⟩)
      | _ => simp [Expr.similarTo, Expr.same] at h
    exact ⟨key, fun b h => (key _ (by simpa only [similarTo_unwrap, Expr.unwrap, Expr.skip] using h)).similar (.plain (by simp) (by simp)) (bare b)⟩
  | elem q o a ih _ =>
    have key : ∀ b, (Expr.elem q o a).similarTo false b = true → SimilarBare (Expr.elem q o a) b := by
      intro b h
      cases b with
      | prop q' o' n' p' =>
        simp only [Expr.similarTo] at h
        split at h
        · cases h
        · rename_i hk
          simp only [Bool.or_eq_true, beq_iff_eq, not_or] at hk
          simp only [Bool.and_eq_true, beq_iff_eq] at h
          obtain ⟨rfl, h⟩ := h
          exact .inr (.inl ⟨o, o', _, key_reads hk.1, .prop, ih.2 _ h⟩)
      | elem q' o' a' =>
        simp only [Expr.similarTo] at h
        split at h
        · simp only [Bool.and_eq_true] at h
          exact .inr (.inr ⟨q, q', o, o', a, a', rfl, rfl, ih.2 _ h.1, (equal_iff _ _).2 h.2⟩)
        · rename_i hk
          simp only [Bool.or_eq_true, beq_iff_eq, not_or] at hk
          simp only [Bool.and_eq_true, beq_iff_eq] at h
          have h1 := key_reads (q := q) (o := o) hk.1
          rw [h.1] at h1
          exact .inr (.inl ⟨o, o', _, h1, key_reads hk.2, ih.2 _ h.2⟩)
      | _ => simp [Expr.similarTo, Expr.same] at h
    exact ⟨key, fun b h => (key _ (by simpa only [similarTo_unwrap, Expr.unwrap, Expr.skip] using h)).similar (.plain (by simp) (by simp)) (bare b)⟩
  | _ =>
    refine ⟨fun b h => .inl ((equal_iff _ _).2 (by simpa [Expr.similarTo] using h)), fun b h => .equal (.plain (by simp) (by simp)) (bare b) ((equal_iff _ _).2 (by simpa [Expr.similarTo] using h))⟩

theorem Equal.unwrap {a b : Expr} (h : Equal a b) : a.unwrap = a ∧ b.unwrap = b := by
  cases h <;> exact ⟨rfl, rfl⟩

theorem Equal.similarTo {a b : Expr} (h : Equal a b) : a.similarTo false b = true := by
  induction h with
  | prop h ih =>
    simp only [Expr.similarTo, similarTo_unwrap, h.unwrap.1, h.unwrap.2, ih, BEq.rfl, Bool.and_self]
  | @elem q q' o o' a a' h1 h2 ih1 _ =>
    simp only [Expr.similarTo, similarTo_unwrap, h1.unwrap.1, h1.unwrap.2, ih1, (equal_iff _ _).1 h2, Bool.and_self, Bool.true_and, Bool.and_true]
    split
    · rfl
    · cases h2 <;> simp_all [Expr.key]
  | _ => simp [Expr.similarTo, Expr.same]

theorem reads_similarTo {a b o o' : Expr} {n : String} (h1 : Reads a o n) (h2 : Reads b o' n) (h : o.similarTo true o'.unwrap = true) : a.similarTo false b = true := by
  cases h1 with
  | prop =>
    cases h2 with
    | prop => simp [Expr.similarTo, h]
    | elem hn => simp [Expr.similarTo, Expr.key, h, hn]
  | elem hn =>
    cases h2 with
    | prop => simp [Expr.similarTo, Expr.key, h, hn]
    | elem => simp [Expr.similarTo, Expr.key, h, hn]

/-- The function decides similarity. -/
theorem similar_iff (a b : Expr) : a.similar b = true ↔ Similar a b := by
  constructor
  · exact (similar_of a).2 b
  · intro h
    induction h with
    | equal h1 h2 h3 =>
      rw [bare_iff] at h1 h2; subst h1 h2
      rw [Expr.similar, similarTo_unwrap]; exact h3.similarTo
    | named h1 h2 h3 h4 _ ih =>
      rw [bare_iff] at h1 h2; subst h1 h2
      rw [Expr.similar, similarTo_unwrap]; exact reads_similarTo h3 h4 ih
    | @computed a b q q' o o' k k' h1 h2 _ h4 ih =>
      rw [bare_iff] at h1 h2
      rw [Expr.similar] at ih
      rw [Expr.similar, similarTo_unwrap, ← h1, ← h2]
      simp only [Expr.similarTo, ih, (equal_iff _ _).1 h4, Bool.and_self, Bool.and_true]
      split
      · rfl
      · cases h4 <;> simp_all [Expr.key]

theorem skip_unwrap (e : Expr) : e.skip.unwrap = e.unwrap := by
  induction e with
  | paren e ih => exact ih
  | _ => rfl

theorem similar_skip (a b : Expr) : a.similar b.skip = a.similar b := by rw [Expr.similar, skip_unwrap]; rfl

theorem skip_skip (e : Expr) : e.skip.skip = e.skip := by
  induction e with
  | paren e ih => exact ih
  | _ => rfl

end Tsgolint.Nullish
