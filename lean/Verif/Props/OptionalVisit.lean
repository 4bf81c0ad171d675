import Verif.Spec.OptionalVisit
/-!
# prefer-optional-chain: each `&&` and `||` is judged once (C122)
-/
namespace Tsgolint.OptionalVisit

/-- All ranges of logical expressions in a tree, JSX and `??` or not -/
def allRanges (start : Nat) : Tree → List Range
  | .token _ => []
  | .node _ a b => allRanges start a ++ allRanges (start + a.width) b
  | .paren t => allRanges (start + 1) t
  | .logic op gap l r => (Tree.logic op gap l r).range start :: (allRanges start l ++ allRanges (start + l.width + (gap + 2)) r)

theorem allRanges_within (t : Tree) : ∀ start, ∀ x ∈ allRanges start t, start ≤ x.1 ∧ x.1 + 2 ≤ x.2 ∧ x.2 ≤ start + t.width := by
  induction t with
  | token w => intro s x h; cases h
  | node j a b iha ihb =>
    intro s x h
    rcases List.mem_append.1 h with h | h
    · have := iha s x h; simp only [Tree.width]; omega
    · have := ihb _ x h; simp only [Tree.width]; omega
  | paren t ih => intro s x h; have := ih _ x h; simp only [Tree.width]; omega
  | logic op gap l r ihl ihr =>
    intro s x h
    rcases List.mem_cons.1 h with rfl | h
    · simp only [Tree.range, Tree.width]; omega
    · rcases List.mem_append.1 h with h | h
      · have := ihl s x h; simp only [Tree.width]; omega
      · have := ihr _ x h; simp only [Tree.width]; omega

theorem allRanges_nodup (t : Tree) : ∀ start, (allRanges start t).Nodup := by
  induction t with
  | token w => intro s; exact .nil
  | node j a b iha ihb =>
    intro s
    rw [allRanges, List.nodup_append]
    refine ⟨iha s, ihb _, ?_⟩
    rintro x hx y hy rfl
    have h1 := allRanges_within a s x hx
    have h2 := allRanges_within b _ x hy
    omega
  | paren t ih => intro s; exact ih _
  | logic op gap l r ihl ihr =>
    intro s
    rw [allRanges, List.nodup_cons, List.nodup_append]
    refine ⟨?_, ihl s, ihr _, ?_⟩
    · intro h
      rcases List.mem_append.1 h with h | h
      · have := allRanges_within l s _ h; simp only [Tree.range, Tree.width] at this; omega
      · have := allRanges_within r _ _ h; simp only [Tree.range, Tree.width] at this; omega
    · rintro x hx y hy rfl
      have h1 := allRanges_within l s x hx
      have h2 := allRanges_within r _ x hy
      omega

theorem marks_sub (op : Op) (t : Tree) : ∀ start, ∀ x ∈ t.marks op start, x ∈ allRanges start t := by
  induction t with
  | token w => intro s x h; cases h
  | node j a b _ _ => intro s x h; cases h
  | paren t ih => intro s x h; exact ih _ x h
  | logic op' gap l r ihl ihr =>
    intro s x h
    rw [Tree.marks] at h
    by_cases ho : op' = op
    · rw [if_pos ho] at h
      rw [allRanges]
      simp only [List.mem_append, List.mem_singleton] at h
      rcases h with (h | h) | rfl
      · exact List.mem_cons_of_mem _ (List.mem_append.2 (.inl (ihl s x h)))
      · exact List.mem_cons_of_mem _ (List.mem_append.2 (.inr (ihr _ x h)))
      · exact List.mem_cons_self
    · rw [if_neg ho] at h; cases h

/-- What is marked below an operator -/
def marksUnder (under : Option Op) (start : Nat) (t : Tree) : List Range :=
  match under with
  | some op => t.marks op start
  | none => []

theorem marksUnder_sub (u : Option Op) (t : Tree) (start : Nat) (x : Range) (h : x ∈ marksUnder u start t) : x ∈ allRanges start t := by
  cases u with
  | none => cases h
  | some op => exact marks_sub op t start x h

/-- Exactly what is marked below the operator is seen -/
def Fits (seen : List Range) (u : Option Op) (start : Nat) (t : Tree) : Prop := ∀ x ∈ allRanges start t, x ∈ seen ↔ x ∈ marksUnder u start t

theorem visit_jsx (t : Tree) : ∀ s start, visit s true start t = s := by
  induction t with
  | token w => intro s p; rfl
  | node j a b iha ihb => intro s p; rw [visit, Bool.true_or, iha, ihb]
  | paren t ih => intro s p; exact ih s _
  | logic op gap l r ihl ihr =>
    intro s p
    rw [visit]
    have : process s true op p (.logic op gap l r) = s := by unfold process; split <;> rfl
    rw [this, ihl, ihr]

theorem tops_jsx (t : Tree) : ∀ u start, tops true u start t = [] := by
  induction t with
  | token w => intro u p; rfl
  | node j a b iha ihb => intro u p; rw [tops, Bool.true_or, iha, ihb]; rfl
  | paren t ih => intro u p; exact ih u _
  | logic op gap l r ihl ihr => intro u p; rw [tops, ihl, ihr]; simp

/-- What the traversal adds -/
theorem visit_spec (t : Tree) : ∀ (s : State) (u : Option Op) (start : Nat), u ≠ some .nullish → Fits s.seen u start t →
    (visit s false start t).judged = s.judged ++ tops false u start t ∧
    (∀ x, x ∈ (visit s false start t).seen → x ∈ s.seen ∨ x ∈ allRanges start t) ∧ (∀ x ∈ s.seen, x ∈ (visit s false start t).seen) := by
  induction t with
  | token w => intro s u p _ _; exact ⟨by simp [visit, tops], fun x h => .inl h, fun x h => h⟩
  | paren t ih =>
    intro s u p hu hf
    have hf' : Fits s.seen u (p + 1) t := by
      intro x hx
      have := hf x hx
      rw [this]
      cases u <;> rfl
    exact ih s u (p + 1) hu hf'
  | node j a b iha ihb =>
    intro s u p hu hf
    cases j with
    | true =>
      rw [visit, Bool.or_true, visit_jsx, visit_jsx, tops, Bool.or_true, tops_jsx, tops_jsx]
      exact ⟨by simp, fun x h => .inl h, fun x h => h⟩
    | false =>
      have hnone : ∀ x ∈ allRanges p (.node false a b), x ∉ s.seen := by
        intro x hx h
        have := (hf x hx).1 h
        cases u <;> cases this
      obtain ⟨h1, h2, h3⟩ := iha s none p (by simp) (fun x hx => ⟨fun h => absurd h (hnone x (List.mem_append.2 (.inl hx))), fun h => by cases h⟩)
      obtain ⟨g1, g2, g3⟩ := ihb (visit s false p a) none (p + a.width) (by simp) (by
        intro x hx
        refine ⟨fun h => ?_, fun h => by cases h⟩
        rcases h2 x h with h | h
        · exact absurd h (hnone x (List.mem_append.2 (.inr hx)))
        · have e1 := allRanges_within a p x h
          have e2 := allRanges_within b _ x hx
          omega)
      rw [visit, Bool.or_false, tops, Bool.or_false]
      refine ⟨by rw [g1, h1, List.append_assoc], fun x h => ?_, fun x h => g3 x (h3 x h)⟩
      rcases g2 x h with h | h
      · rcases h2 x h with h | h
        · exact .inl h
        · exact .inr (List.mem_append.2 (.inl h))
      · exact .inr (List.mem_append.2 (.inr h))
  | logic op gap l r ihl ihr =>
    intro s u p hu hf
    have hsplit : ∀ x, x ∈ allRanges p (.logic op gap l r) ↔ x = (Tree.logic op gap l r).range p ∨ x ∈ allRanges p l ∨ x ∈ allRanges (p + l.width + (gap + 2)) r := by
      intro x; rw [allRanges, List.mem_cons, List.mem_append]
    have hown_l : (Tree.logic op gap l r).range p ∉ allRanges p l := by
      intro h; have := allRanges_within l p _ h; simp only [Tree.range, Tree.width] at this; omega
    have hown_r : (Tree.logic op gap l r).range p ∉ allRanges (p + l.width + (gap + 2)) r := by
      intro h; have := allRanges_within r _ _ h; simp only [Tree.range, Tree.width] at this; omega
    have hdis : ∀ x, x ∈ allRanges p l → x ∉ allRanges (p + l.width + (gap + 2)) r := by
      intro x h h'
      have e1 := allRanges_within l p x h
      have e2 := allRanges_within r _ x h'
      omega
    -- what is seen when the children are visited
    have key : ∃ s', process s false op p (.logic op gap l r) = s' ∧
        s'.judged = s.judged ++ (if op ≠ .nullish ∧ false = false ∧ u ≠ some op then [(p, .logic op gap l r)] else []) ∧
        (∀ x, x ∈ s'.seen → x ∈ s.seen ∨ x ∈ allRanges p (.logic op gap l r)) ∧ (∀ x ∈ s.seen, x ∈ s'.seen) ∧
        (∀ x ∈ allRanges p l, x ∈ s'.seen ↔ x ∈ marksUnder op.chain p l) ∧
        (∀ x ∈ allRanges (p + l.width + (gap + 2)) r, x ∈ s'.seen ↔ x ∈ marksUnder op.chain (p + l.width + (gap + 2)) r) := by
      refine ⟨_, rfl, ?_⟩
      by_cases hn : op = .nullish
      · subst hn
        have hnone : ∀ x ∈ allRanges p (.logic .nullish gap l r), x ∉ s.seen := by
          intro x hx h
          have hm := (hf x hx).1 h
          cases u with
          | none => cases hm
          | some o =>
            have ho : ¬ Op.nullish = o := fun h => hu (by rw [h])
            rw [marksUnder, Tree.marks, if_neg ho] at hm
            cases hm
        unfold process
        rw [if_pos rfl]
        refine ⟨by simp, fun x h => .inl h, fun x h => h, ?_, ?_⟩
        · intro x hx
          exact ⟨fun h => absurd h (hnone x ((hsplit x).2 (.inr (.inl hx)))), fun h => by cases h⟩
        · intro x hx
          exact ⟨fun h => absurd h (hnone x ((hsplit x).2 (.inr (.inr hx)))), fun h => by cases h⟩
      · have hchain : op.chain = some op := by cases op <;> first | rfl | exact absurd rfl hn
        rw [hchain]
        by_cases hu' : u = some op
        · subst hu'
          have hmarks : ∀ x, x ∈ marksUnder (some op) p (.logic op gap l r) ↔ x ∈ l.marks op p ∨ x ∈ r.marks op (p + l.width + (gap + 2)) ∨ x = (Tree.logic op gap l r).range p := by
            intro x
            rw [marksUnder, Tree.marks, if_pos rfl]
            simp only [List.mem_append, List.mem_singleton, or_assoc]
          have hseen : (Tree.logic op gap l r).range p ∈ s.seen := (hf _ ((hsplit _).2 (.inl rfl))).2 ((hmarks _).2 (.inr (.inr rfl)))
          unfold process
          rw [if_neg hn, if_neg (by simp), if_pos hseen]
          refine ⟨by simp, fun x h => .inl h, fun x h => h, ?_, ?_⟩
          · intro x hx
            rw [hf x ((hsplit x).2 (.inr (.inl hx))), hmarks]
            constructor
            · rintro (h | h | rfl)
              · exact h
              · exact absurd (marks_sub op r _ x h) (hdis x hx)
              · exact absurd hx hown_l
            · exact .inl
          · intro x hx
            rw [hf x ((hsplit x).2 (.inr (.inr hx))), hmarks]
            constructor
            · rintro (h | h | rfl)
              · exact absurd hx (hdis x (marks_sub op l _ x h))
              · exact h
              · exact absurd hx hown_r
            · exact fun h => .inr (.inl h)
        · have hnone : ∀ x ∈ allRanges p (.logic op gap l r), x ∉ s.seen := by
            intro x hx h
            have hm := (hf x hx).1 h
            cases u with
            | none => cases hm
            | some o =>
              have ho : ¬ op = o := fun h => hu' (by rw [h])
              rw [marksUnder, Tree.marks, if_neg ho] at hm
              cases hm
          have hmarks : ∀ x, x ∈ (Tree.logic op gap l r).marks op p ↔ x ∈ l.marks op p ∨ x ∈ r.marks op (p + l.width + (gap + 2)) ∨ x = (Tree.logic op gap l r).range p := by
            intro x
            rw [Tree.marks, if_pos rfl]
            simp only [List.mem_append, List.mem_singleton, or_assoc]
          unfold process
          rw [if_neg hn, if_neg (by simp), if_neg (hnone _ ((hsplit _).2 (.inl rfl)))]
          refine ⟨by simp [hn, hu'], ?_, fun x h => List.mem_append.2 (.inl h), ?_, ?_⟩
          · intro x h
            rcases List.mem_append.1 h with h | h
            · exact .inl h
            · exact .inr (marks_sub op _ p x h)
          · intro x hx
            rw [List.mem_append, hmarks]
            constructor
            · rintro (h | h | h | rfl)
              · exact absurd h (hnone x ((hsplit x).2 (.inr (.inl hx))))
              · exact h
              · exact absurd (marks_sub op r _ x h) (hdis x hx)
              · exact absurd hx hown_l
            · exact fun h => .inr (.inl h)
          · intro x hx
            rw [List.mem_append, hmarks]
            constructor
            · rintro (h | h | h | rfl)
              · exact absurd h (hnone x ((hsplit x).2 (.inr (.inr hx))))
              · exact absurd hx (hdis x (marks_sub op l _ x h))
              · exact h
              · exact absurd hx hown_r
            · exact fun h => .inr (.inr (.inl h))
    obtain ⟨s', hs', hj, hsub, hkeep, hl, hr⟩ := key
    have hcn : op.chain ≠ some .nullish := by cases op <;> simp [Op.chain]
    obtain ⟨l1, l2, l3⟩ := ihl s' op.chain p hcn hl
    obtain ⟨r1, r2, r3⟩ := ihr (visit s' false p l) op.chain (p + l.width + (gap + 2)) hcn (by
      intro x hx
      rw [← hr x hx]
      refine ⟨fun h => ?_, fun h => l3 x h⟩
      rcases l2 x h with h | h
      · exact h
      · exact absurd hx (hdis x h))
    rw [visit, hs', tops]
    refine ⟨by rw [r1, l1, hj, List.append_assoc, List.append_assoc, List.append_assoc], fun x h => ?_, fun x h => r3 x (l3 x (hkeep x h))⟩
    rcases r2 x h with h | h
    · rcases l2 x h with h | h
      · exact hsub x h
      · exact .inr ((hsplit x).2 (.inr (.inl h)))
    · exact .inr ((hsplit x).2 (.inr (.inr h)))

/-- **C122** What is judged of a file: the `&&` and `||` expressions outside JSX that are not operands of the same operator, each once, outer ones first -/
theorem judged_eq (t : Tree) : judged t = tops false none 0 t := by
  have := (visit_spec t ⟨[], []⟩ none 0 (by simp) (fun x _ => ⟨fun h => (nomatch h), fun h => (nomatch h)⟩)).1
  simpa [judged] using this

theorem marks_under_jsx (t : Tree) : ∀ start, logicals true start t = [] := by
  induction t with
  | token w => intro p; rfl
  | node j a b iha ihb => intro p; rw [logicals, Bool.true_or, iha, ihb]; rfl
  | paren t ih => intro p; exact ih _
  | logic op gap l r ihl ihr => intro p; rw [logicals, ihl, ihr]; simp

theorem logicals_sub (t : Tree) : ∀ jsx start, (logicals jsx start t).Sublist (allRanges start t) := by
  induction t with
  | token w => intro j p; exact .slnil
  | node j a b iha ihb => intro j' p; exact (iha _ p).append (ihb _ _)
  | paren t ih => intro j p; exact ih j _
  | logic op gap l r ihl ihr =>
    intro j p
    rw [logicals, allRanges, List.append_assoc]
    have h := (ihl j p).append (ihr j (p + l.width + (gap + 2)))
    split
    · exact h.cons_cons _
    · exact h.cons _

/-- The parts of the whole expressions, with those of the operator above: all `&&` and `||` -/
theorem parts_perm (t : Tree) : ∀ (u : Option Op) (start : Nat), u ≠ some .nullish →
    ((tops false u start t).flatMap ofWhole ++ marksUnder u start t).Perm (logicals false start t) := by
  induction t with
  | token w => intro u p _; cases u <;> exact .nil
  | paren t ih =>
    intro u p hu
    have := ih u (p + 1) hu
    cases u <;> exact this
  | node j a b iha ihb =>
    intro u p hu
    have hm : marksUnder u p (.node j a b) = [] := by cases u <;> rfl
    rw [hm, List.append_nil]
    cases j with
    | true => rw [tops, logicals, Bool.or_true, tops_jsx, tops_jsx, marks_under_jsx, marks_under_jsx]; exact .nil
    | false =>
      rw [tops, logicals, Bool.or_false, List.flatMap_append]
      have h1 := iha none p (by simp)
      have h2 := ihb none (p + a.width) (by simp)
      rw [marksUnder, List.append_nil] at h1 h2
      exact h1.append h2
  | logic op gap l r ihl ihr =>
    intro u p hu
    have hcn : op.chain ≠ some .nullish := by cases op <;> simp [Op.chain]
    have h1 := List.perm_iff_count.1 (ihl op.chain p hcn)
    have h2 := List.perm_iff_count.1 (ihr op.chain (p + l.width + (gap + 2)) hcn)
    rw [List.perm_iff_count]
    intro x
    have h1 := h1 x
    have h2 := h2 x
    rw [tops, logicals]
    simp only [List.flatMap_append, List.count_append] at h1 h2 ⊢
    by_cases hn : op = .nullish
    · subst hn
      have hm : marksUnder u p (.logic .nullish gap l r) = [] := by
        cases u with
        | none => rfl
        | some o =>
          have ho : ¬ Op.nullish = o := fun h => hu (by rw [h])
          rw [marksUnder, Tree.marks, if_neg ho]
      simp only [Op.chain, marksUnder, List.count_nil, Nat.add_zero] at h1 h2
      simp [hm, Op.chain, h1, h2]
    · have hchain : op.chain = some op := by cases op <;> first | rfl | exact absurd rfl hn
      rw [hchain] at h1 h2 ⊢
      have hw : ofWhole (p, .logic op gap l r) = l.marks op p ++ r.marks op (p + l.width + (gap + 2)) ++ [(Tree.logic op gap l r).range p] := by
        show (Tree.logic op gap l r).marks op p = _
        rw [Tree.marks, if_pos rfl]
      have hrange : (Tree.logic op gap l r).range p = (p, p + (l.width + (gap + 2) + r.width)) := rfl
      by_cases hu' : u = some op
      · subst hu'
        have hm : marksUnder (some op) p (.logic op gap l r) = l.marks op p ++ r.marks op (p + l.width + (gap + 2)) ++ [(Tree.logic op gap l r).range p] := by
          rw [marksUnder, Tree.marks, if_pos rfl]
        rw [hm]
        simp only [marksUnder] at h1 h2
        simp only [hn, hrange, ne_eq, not_false_eq_true, not_true_eq_false, and_false, and_self, if_false, if_true, List.flatMap_nil, List.count_nil, List.count_append] at *
        omega
      · have hm : marksUnder u p (.logic op gap l r) = [] := by
          cases u with
          | none => rfl
          | some o =>
            have ho : ¬ op = o := fun h => hu' (by rw [h])
            rw [marksUnder, Tree.marks, if_neg ho]
        rw [hm]
        simp only [marksUnder] at h1 h2
        simp only [hn, hu', hrange, ne_eq, not_false_eq_true, and_self, if_true, List.flatMap_cons, List.flatMap_nil, List.append_nil, hw, List.count_nil, List.count_append] at *
        omega

/-- **C122** Every `&&` and `||` outside JSX belongs to exactly one of the expressions that are judged: taken together, their parts are all of them, none twice -/
theorem judged_partition (t : Tree) : ((judged t).flatMap ofWhole).Perm (logicals false 0 t) ∧ ((judged t).flatMap ofWhole).Nodup := by
  have h := parts_perm t none 0 (by simp)
  rw [marksUnder, List.append_nil, ← judged_eq] at h
  exact ⟨h, h.nodup_iff.2 ((logicals_sub t false 0).nodup (allRanges_nodup t 0))⟩

/-- **C122** Nothing in JSX is judged -/
theorem jsx_not_judged (a b : Tree) : judged (.node true a b) = [] := by
  rw [judged_eq, tops, Bool.or_true, tops_jsx, tops_jsx]; rfl

/-- `a && (b && c || d && e) ?? f && g`: three expressions -/
def sampleTree : Tree :=
  .logic .nullish 2
    (.logic .and 2 (.token 1) (.paren (.logic .or 2 (.logic .and 2 (.token 1) (.token 1)) (.logic .and 2 (.token 1) (.token 1)))))
    (.logic .and 2 (.token 1) (.paren (.logic .and 2 (.token 1) (.node true (.logic .or 0 (.token 1) (.token 1)) (.token 0)))))

example : (judged sampleTree).map (fun x => (x.1, x.2.operator)) = [(0, some .and), (6, some .or), (6, some .and), (16, some .and), (27, some .and)] := by decide
example : (logicals false 0 sampleTree).length = 6 := by decide
example : ((judged sampleTree).flatMap ofWhole).length = 6 := by decide

end Tsgolint.OptionalVisit
