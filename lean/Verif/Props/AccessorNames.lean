import Verif.Spec.AccessorNames
/-! # C67: names -/
namespace Tsgolint.Accessors

theorem literalName_inj {valid : Text → Bool} (hv : Identifiers valid) {a b : Text} (h : literalName valid a = literalName valid b) : a = b := by
  unfold literalName at h
  by_cases ha : valid a = true <;> by_cases hb : valid b = true
  · rwa [if_pos ha, if_pos hb] at h
  · rw [if_pos ha, if_neg hb] at h
    subst h
    exact absurd rfl (hv _ _ ha).1
  · rw [if_neg ha, if_pos hb] at h
    subst h
    exact absurd rfl (hv _ _ hb).1
  · rw [if_neg ha, if_neg hb] at h
    simpa using h

/-- How a computed literal is named. -/
theorem literalName_head {valid : Text → Bool} (t : Text) :
    (valid t = true ∧ literalName valid t = t) ∨ (valid t = false ∧ literalName valid t = '"' :: t ++ ['"']) := by
  unfold literalName
  cases h : valid t
  · exact .inr ⟨rfl, by simp⟩
  · exact .inl ⟨rfl, by simp⟩

/-- C67 (names).  Members with the same name are the same property — provided no name is a big integer and no computed literal has a backslash. -/
theorem C67_names (valid : Text → Bool) (meaning : Text → Text) (hv : Identifiers valid) (hne : valid [] = false) (a b : MemberName)
    (ha : Lexical valid meaning a) (hb : Lexical valid meaning b) (hua : Unescaped a) (hub : Unescaped b) (hna : NoBigint a) (hnb : NoBigint b)
    (h : memberName valid a = memberName valid b) : a.key = b.key := by
  -- a name, seen from its beginning
  have first : ∀ n : MemberName, Lexical valid meaning n → NoBigint n → Unescaped n →
      (valid (memberName valid n) = true ∧ n.key = .text (memberName valid n)) ∨
      ((memberName valid n).head? = some '#' ∧ n.key = .secret (memberName valid n)) ∨
      ((memberName valid n).head? = some '[' ∧ n.key = .value (memberName valid n)) ∨
      ((∃ c rest, memberName valid n = c :: rest ∧ (c.isDigit = true ∨ c = '.')) ∧ n.key = .text (meaning (memberName valid n))) ∨
      (((memberName valid n).head? = some '"' ∨ (memberName valid n).head? = some '\'') ∧
        ((n.key = .text (meaning (memberName valid n)) ∧ ∀ body, memberName valid n = '"' :: body ++ ['"'] → '\\' ∉ body → n.key = .text body) ∨
         ∃ t, '\\' ∉ t ∧ memberName valid n = '"' :: t ++ ['"'] ∧ n.key = .text t)) := by
    intro n hl hb hu
    cases n with
    | identifier t => exact .inl ⟨hl.identifier t rfl, rfl⟩
    | privateName t => exact .inr (.inl ⟨hl.secret t rfl, rfl⟩)
    | string raw t =>
      obtain ⟨h1, h2, h3⟩ := hl.string raw t rfl
      refine .inr (.inr (.inr (.inr ⟨h2, .inl ⟨?_, ?_⟩⟩)))
      · show Key.text t = _
        rw [h1]; rfl
      · intro body hbody hs
        show Key.text t = _
        rw [h3 body hbody hs]
    | number raw t =>
      obtain ⟨h1, h2⟩ := hl.number raw t rfl
      refine .inr (.inr (.inr (.inl ⟨h2, ?_⟩)))
      show Key.text t = _
      rw [h1]; rfl
    | computedString t =>
      rcases literalName_head (valid := valid) t with ⟨h1, h2⟩ | ⟨h1, h2⟩
      · refine .inl ⟨?_, ?_⟩
        · show valid (literalName valid t) = true; rw [h2]; exact h1
        · show Key.text t = .text (literalName valid t); rw [h2]
      · refine .inr (.inr (.inr (.inr ⟨.inl ?_, .inr ⟨t, hu, h2, rfl⟩⟩)))
        show (literalName valid t).head? = _; rw [h2]; rfl
    | computedNumber t =>
      rcases literalName_head (valid := valid) t with ⟨h1, h2⟩ | ⟨h1, h2⟩
      · refine .inl ⟨?_, ?_⟩
        · show valid (literalName valid t) = true; rw [h2]; exact h1
        · show Key.text t = .text (literalName valid t); rw [h2]
      · refine .inr (.inr (.inr (.inr ⟨.inl ?_, .inr ⟨t, hu, h2, rfl⟩⟩)))
        show (literalName valid t).head? = _; rw [h2]; rfl
    | computedBigint t => exact absurd hb id
    | computed raw => exact .inr (.inr (.inl ⟨hl.computed raw rfl, rfl⟩))
  have fa := first a ha hna hua
  have fb := first b hb hnb hub
  rw [← h] at fb
  generalize memberName valid a = s at fa fb
  -- the beginnings exclude each other
  cases s with
  | nil =>
    rcases fa with ⟨h1, -⟩ | ⟨h1, -⟩ | ⟨h1, -⟩ | ⟨⟨_, _, h1, -⟩, -⟩ | ⟨h1 | h1, -⟩
    · rw [hne] at h1; cases h1
    all_goals cases h1
  | cons c s =>
    have hd : ('"' : Char).isDigit = false ∧ ('\'' : Char).isDigit = false ∧ ('#' : Char).isDigit = false ∧ ('[' : Char).isDigit = false := by decide
    simp only [List.head?_cons, Option.some.injEq, List.cons.injEq] at fa fb
    rcases fa with ⟨h1, k1⟩ | ⟨h1, k1⟩ | ⟨h1, k1⟩ | ⟨⟨c1, r1, ⟨e1, -⟩, h1⟩, k1⟩ | ⟨h1, k1⟩ <;>
    rcases fb with ⟨h2, k2⟩ | ⟨h2, k2⟩ | ⟨h2, k2⟩ | ⟨⟨c2, r2, ⟨e2, -⟩, h2⟩, k2⟩ | ⟨h2, k2⟩
    · rw [k1, k2]
    · exact absurd h2 (hv _ _ h1).2.2.2.1
    · exact absurd h2 (hv _ _ h1).2.2.1
    · subst e2
      have := hv _ _ h1
      rcases h2 with h2 | h2
      · rw [this.2.2.2.2.2] at h2; cases h2
      · exact absurd h2 this.2.2.2.2.1
    · have := hv _ _ h1
      rcases h2 with h2 | h2
      · exact absurd h2 this.1
      · exact absurd h2 this.2.1
    · exact absurd h1 (hv _ _ h2).2.2.2.1
    · rw [k1, k2]
    · subst h1; exact absurd h2 (by decide)
    · subst e2 h1; rcases h2 with h2 | h2 <;> exact absurd h2 (by decide)
    · subst h1; rcases h2 with h2 | h2 <;> exact absurd h2 (by decide)
    · exact absurd h1 (hv _ _ h2).2.2.1
    · subst h1; exact absurd h2 (by decide)
    · rw [k1, k2]
    · subst e2 h1; rcases h2 with h2 | h2 <;> exact absurd h2 (by decide)
    · subst h1; rcases h2 with h2 | h2 <;> exact absurd h2 (by decide)
    · subst e1
      have := hv _ _ h2
      rcases h1 with h1 | h1
      · rw [this.2.2.2.2.2] at h1; cases h1
      · exact absurd h1 this.2.2.2.2.1
    · subst e1 h2; rcases h1 with h1 | h1 <;> exact absurd h1 (by decide)
    · subst e1 h2; rcases h1 with h1 | h1 <;> exact absurd h1 (by decide)
    · rw [k1, k2]
    · subst e1
      rcases h2 with h2 | h2 <;> subst h2 <;> rcases h1 with h1 | h1 <;> exact absurd h1 (by decide)
    · have := hv _ _ h2
      rcases h1 with h1 | h1
      · exact absurd h1 this.1
      · exact absurd h1 this.2.1
    · subst h2; rcases h1 with h1 | h1 <;> exact absurd h1 (by decide)
    · subst h2; rcases h1 with h1 | h1 <;> exact absurd h1 (by decide)
    · subst e2
      rcases h1 with h1 | h1 <;> subst h1 <;> rcases h2 with h2 | h2 <;> exact absurd h2 (by decide)
    · rcases k1 with ⟨k1, m1⟩ | ⟨t1, n1, e1, k1⟩ <;> rcases k2 with ⟨k2, m2⟩ | ⟨t2, n2, e2, k2⟩
      · rw [k1, k2]
      · rw [m1 t2 e2 n2, k2]
      · rw [m2 t1 e1 n1, k1]
      · rw [k1, k2]
        rw [e1] at e2
        have := List.append_cancel_right e2
        simp only [List.cons.injEq, true_and] at this
        rw [this]

/-- C67 (finding).  A quoted name is not the name without quotes, a number not the computed number, though they are the same property: `get 'x'(): string` and
`set x(v: number)` are not paired, nor `get 1()` and `set [1](v)`; `'x'` and `"x"` neither. -/
theorem C67_hazard_quoted (valid : Text → Bool) (h : valid ['x'] = true) (h1 : valid ['1'] = false) :
    (MemberName.key (.string "'x'".toList ['x']) = MemberName.key (.identifier ['x']) ∧ memberName valid (.string "'x'".toList ['x']) ≠ memberName valid (.identifier ['x'])) ∧
    (MemberName.key (.string "'x'".toList ['x']) = MemberName.key (.string "\"x\"".toList ['x']) ∧
      memberName valid (.string "'x'".toList ['x']) ≠ memberName valid (.string "\"x\"".toList ['x'])) ∧
    (MemberName.key (.number ['1'] ['1']) = MemberName.key (.computedNumber ['1']) ∧ memberName valid (.number ['1'] ['1']) ≠ memberName valid (.computedNumber ['1'])) ∧
    memberName valid (.computedString ['x']) = memberName valid (.identifier ['x']) := by
  refine ⟨⟨rfl, ?_⟩, ⟨rfl, ?_⟩, ⟨rfl, ?_⟩, ?_⟩
  · show "'x'".toList ≠ ['x']; decide
  · show "'x'".toList ≠ "\"x\"".toList; decide
  · show ['1'] ≠ literalName valid ['1']
    unfold literalName
    rw [h1]; decide
  · show literalName valid ['x'] = ['x']
    unfold literalName
    rw [h]; rfl

/-- C67 (names, the same).  Identifiers and computed literals of the same text have the same name. -/
theorem C67_same_names (valid : Text → Bool) (t : Text) (ht : valid t = true) :
    memberName valid (.identifier t) = memberName valid (.computedString t) ∧ memberName valid (.computedString t) = memberName valid (.computedNumber t) := by
  refine ⟨?_, rfl⟩
  show t = literalName valid t
  unfold literalName
  rw [if_pos ht]

example : Identifiers (fun t => t == ['x']) := by
  intro c t h
  have : c :: t = ['x'] := by simpa using h
  cases this; decide
example : Lexical (fun t => t == ['x']) (fun _ => ['x']) (.string "'x'".toList ['x']) := by
  refine ⟨nofun, nofun, ?_, nofun, nofun⟩
  intro raw t h
  cases h
  refine ⟨rfl, .inr rfl, ?_⟩
  intro body hb
  exact absurd (congrArg List.head? hb) (by simp)

end Tsgolint.Accessors
