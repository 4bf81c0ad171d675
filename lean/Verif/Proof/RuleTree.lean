import Verif.Spec.RuleTree
/-! # Rules that keep a stack of function scopes -/
namespace Tsgolint.RuleTree
open Tsgolint.Visit (Node Kinds visit visits onExit onAllowPattern onNotAllowPattern)
variable {α σ ρ S : Type}

theorem run_append (step : σ → Event α → σ × List ρ) (s : σ) (es fs : List (Event α)) :
    run step s (es ++ fs) = ((run step (run step s es).1 fs).1, (run step s es).2 ++ (run step (run step s es).1 fs).2) := by
  induction es generalizing s with
  | nil => simp [run]
  | cons e es ih => simp [run, ih]

theorem run_cons (step : σ → Event α → σ × List ρ) (s : σ) (e : Event α) (es : List (Event α)) :
    run step s (e :: es) = ((run step (step s e).1 es).1, (step s e).2 ++ (run step (step s e).1 es).2) := by
  simp [run]

theorem run_nil (step : σ → Event α → σ × List ρ) (s : σ) : run step s [] = (s, []) := rfl

/-- What the callbacks do to the innermost scope for the nodes of one function. -/
def within (f : S → α → S × List ρ) : S → List α → S × List ρ
  | s, [] => (s, [])
  | s, a :: as => ((within f (f s a).1 as).1, (f s a).2 ++ (within f (f s a).1 as).2)

theorem within_append (f : S → α → S × List ρ) (s : S) (as bs : List α) :
    within f s (as ++ bs) = ((within f (within f s as).1 bs).1, (within f s as).2 ++ (within f (within f s as).1 bs).2) := by
  induction as generalizing s with
  | nil => simp [within]
  | cons a as ih => simp [within, ih]

/-- A rule that pushes a scope when it enters a function, pops it when it leaves the function, and in between looks at and changes the
innermost scope only. -/
structure Scoped (step : List S → Event α → List S × List ρ) (isFunc : α → Bool) (fresh : α → S) (handle : S → α → S × List ρ)
    (leave : S → α → List ρ) : Prop where
  push : ∀ st a, isFunc a = true → step st (.enter a) = (fresh a :: st, [])
  pop : ∀ s st a, isFunc a = true → step (s :: st) (.exit a) = (st, leave s a)
  top : ∀ s st a, isFunc a = false → step (s :: st) (.enter a) = ((handle s a).1 :: st, (handle s a).2)
  none : ∀ a, isFunc a = false → step [] (.enter a) = ([], [])
  out : ∀ st a, isFunc a = false → step st (.exit a) = (st, [])

/-- The reports for one function. -/
def localReports (fresh : α → S) (handle : S → α → S × List ρ) (leave : S → α → List ρ) (f : α × List α) : List ρ :=
  (within handle (fresh f.1) f.2).2 ++ leave (within handle (fresh f.1) f.2).1 f.1

variable {step : List S → Event α → List S × List ρ} {isFunc : α → Bool} {fresh : α → S} {handle : S → α → S × List ρ}
  {leave : S → α → List ρ}

mutual
theorem scoped_tree (h : Scoped step isFunc fresh handle leave) : ∀ (t : Tree α) (s : S) (st : List S),
    (run step (s :: st) (events t)).1 = (within handle s (own isFunc t)).1 :: st ∧
    (run step (s :: st) (events t)).2.Perm ((within handle s (own isFunc t)).2 ++
      (funcs isFunc t).flatMap (localReports fresh handle leave))
  | .node a cs, s, st => by
    rw [events, run_cons, run_append, run_cons, run_nil]
    cases ha : isFunc a with
    | true =>
      rw [h.push _ _ ha]
      obtain ⟨h1, h2⟩ := scoped_trees h cs (fresh a) (s :: st)
      simp only [h1, h.pop _ _ _ ha, own, funcs, ha, if_true, within, List.flatMap_cons, localReports, List.nil_append, List.append_nil,
        true_and]
      refine (h2.append_right _).trans ?_
      rw [List.append_assoc, List.append_assoc]
      exact List.Perm.append_left _ List.perm_append_comm
    | false =>
      rw [h.top _ _ _ ha]
      obtain ⟨h1, h2⟩ := scoped_trees h cs (handle s a).1 st
      simp only [h1, h.out _ _ ha, own, funcs, ha, within, List.append_nil, true_and, Bool.false_eq_true, if_false, List.append_assoc]
      exact List.Perm.append_left _ h2
theorem scoped_trees (h : Scoped step isFunc fresh handle leave) : ∀ (ts : List (Tree α)) (s : S) (st : List S),
    (run step (s :: st) (eventss ts)).1 = (within handle s (owns isFunc ts)).1 :: st ∧
    (run step (s :: st) (eventss ts)).2.Perm ((within handle s (owns isFunc ts)).2 ++
      (funcss isFunc ts).flatMap (localReports fresh handle leave))
  | [], s, st => by simp [eventss, run, owns, funcss, within]
  | t :: ts, s, st => by
    rw [eventss, run_append]
    obtain ⟨h1, h2⟩ := scoped_tree h t s st
    rw [h1]
    obtain ⟨h3, h4⟩ := scoped_trees h ts (within handle s (own isFunc t)).1 st
    rw [h3]
    refine ⟨by rw [owns, within_append], ?_⟩
    simp only [owns, within_append, funcss, List.flatMap_append]
    refine (h2.append h4).trans ?_
    simp only [List.append_assoc]
    refine List.Perm.append_left _ ?_
    rw [← List.append_assoc, ← List.append_assoc]
    exact List.Perm.append_right _ List.perm_append_comm
end

mutual
theorem scoped_tree_top (h : Scoped step isFunc fresh handle leave) : ∀ (t : Tree α),
    (run step [] (events t)).1 = [] ∧ (run step [] (events t)).2.Perm ((funcs isFunc t).flatMap (localReports fresh handle leave))
  | .node a cs => by
    rw [events, run_cons, run_append, run_cons, run_nil]
    cases ha : isFunc a with
    | true =>
      rw [h.push _ _ ha]
      obtain ⟨h1, h2⟩ := scoped_trees h cs (fresh a) []
      simp only [h1, h.pop _ _ _ ha, funcs, ha, if_true, List.flatMap_cons, localReports, List.nil_append, List.append_nil, true_and]
      refine (h2.append_right _).trans ?_
      rw [List.append_assoc, List.append_assoc]
      exact List.Perm.append_left _ List.perm_append_comm
    | false =>
      rw [h.none _ ha]
      obtain ⟨h1, h2⟩ := scoped_trees_top h cs
      simp only [h1, h.out _ _ ha, funcs, ha, List.append_nil, true_and, Bool.false_eq_true, if_false, List.nil_append]
      exact h2
/-- The reports for a file are those for its functions, each judged by what it owns. -/
theorem scoped_trees_top (h : Scoped step isFunc fresh handle leave) : ∀ (ts : List (Tree α)),
    (run step [] (eventss ts)).1 = [] ∧ (run step [] (eventss ts)).2.Perm ((funcss isFunc ts).flatMap (localReports fresh handle leave))
  | [] => by simp [eventss, run, funcss]
  | t :: ts => by
    rw [eventss, run_append]
    obtain ⟨h1, h2⟩ := scoped_tree_top h t
    rw [h1]
    obtain ⟨h3, h4⟩ := scoped_trees_top h ts
    rw [h3]
    refine ⟨rfl, ?_⟩
    simp only [funcss, List.flatMap_append]
    exact h2.append h4
end

/-! ## The functions of a tree -/

mutual
theorem mem_own (isFunc : α → Bool) : ∀ (t : Tree α) (x : α), x ∈ own isFunc t ↔ OwnedBy isFunc t x
  | .node a cs, x => by
    have ih := mem_owns isFunc cs x
    cases ha : isFunc a with
    | true =>
      simp only [own, ha, if_true, List.not_mem_nil, false_iff]
      intro h
      cases h with
      | self h => rw [ha] at h; cases h
      | inner h => rw [ha] at h; cases h
    | false =>
      simp only [own, ha, Bool.false_eq_true, if_false, List.mem_cons, ih]
      constructor
      · rintro (rfl | ⟨c, hc, h⟩)
        · exact .self ha
        · exact .inner ha hc h
      · intro h
        cases h with
        | self h => exact .inl rfl
        | inner h hc hx => exact .inr ⟨_, hc, hx⟩
theorem mem_owns (isFunc : α → Bool) : ∀ (ts : List (Tree α)) (x : α), x ∈ owns isFunc ts ↔ ∃ t ∈ ts, OwnedBy isFunc t x
  | [], x => by simp [owns]
  | t :: ts, x => by simp [owns, mem_own isFunc t, mem_owns isFunc ts]
end

mutual
theorem mem_funcs (isFunc : α → Bool) : ∀ (t : Tree α) (f : α × List α),
    f ∈ funcs isFunc t ↔ ∃ cs, Occurs t (.node f.1 cs) ∧ isFunc f.1 = true ∧ f.2 = owns isFunc cs
  | .node a cs, f => by
    have ih := mem_funcss isFunc cs f
    have hsplit : (∃ cs', Occurs (.node a cs) (.node f.1 cs') ∧ isFunc f.1 = true ∧ f.2 = owns isFunc cs') ↔
        (isFunc a = true ∧ f = (a, owns isFunc cs)) ∨ ∃ t ∈ cs, ∃ cs', Occurs t (.node f.1 cs') ∧ isFunc f.1 = true ∧ f.2 = owns isFunc cs' := by
      constructor
      · rintro ⟨cs', ho, hf, hown⟩
        obtain ⟨f1, f2⟩ := f
        cases ho with
        | self => exact .inl ⟨hf, by simp_all⟩
        | inner hc ho => exact .inr ⟨_, hc, cs', ho, hf, hown⟩
      · rintro (⟨ha, rfl⟩ | ⟨t, ht, cs', ho, hf, hown⟩)
        · exact ⟨cs, .self, ha, rfl⟩
        · exact ⟨cs', .inner ht ho, hf, hown⟩
    rw [hsplit]
    cases ha : isFunc a with
    | true => simp only [funcs, ha, if_true, List.mem_cons, ih, true_and]
    | false => simp only [funcs, ha, Bool.false_eq_true, if_false, ih, false_and, false_or]
theorem mem_funcss (isFunc : α → Bool) : ∀ (ts : List (Tree α)) (f : α × List α),
    f ∈ funcss isFunc ts ↔ ∃ t ∈ ts, ∃ cs, Occurs t (.node f.1 cs) ∧ isFunc f.1 = true ∧ f.2 = owns isFunc cs
  | [], f => by simp [funcss]
  | t :: ts, f => by
    simp only [funcss, List.mem_append, mem_funcs isFunc t f, mem_funcss isFunc ts f, List.mem_cons, exists_eq_or_imp]
end

/-! ## The traversal -/

theorem ofCall_enter (label : Nat → Nat → α) (k i : Nat) (h : k < 1000) : ofCall label (k, i) = some (.enter (label k i)) := by
  simp [ofCall, h]
theorem ofCall_exit (label : Nat → Nat → α) (k i : Nat) (h : k < 1000) : ofCall label (onExit k, i) = some (.exit (label k i)) := by
  have h1 : ¬ (onExit k < 1000) := by simp [onExit]
  have h2 : onExit k < 2000 := by simp [onExit]; omega
  simp only [ofCall, h1, h2, if_true, if_false]
  simp [onExit]
theorem ofCall_big (label : Nat → Nat → α) (k i : Nat) (h : 2000 ≤ k) : ofCall label (k, i) = none := by
  have h1 : ¬ k < 1000 := by omega
  have h2 : ¬ k < 2000 := by omega
  simp [ofCall, h1, h2]
theorem ofCall_allow (label : Nat → Nat → α) (k i : Nat) : ofCall label (onAllowPattern k, i) = none := by
  exact ofCall_big _ _ _ (by simp [onAllowPattern, onNotAllowPattern, onExit]; try omega)
theorem ofCall_allow_exit (label : Nat → Nat → α) (k i : Nat) : ofCall label (onExit (onAllowPattern k), i) = none := by
  exact ofCall_big _ _ _ (by simp [onAllowPattern, onNotAllowPattern, onExit]; try omega)
theorem ofCall_not (label : Nat → Nat → α) (k i : Nat) : ofCall label (onNotAllowPattern k, i) = none := by
  exact ofCall_big _ _ _ (by simp [onAllowPattern, onNotAllowPattern, onExit]; try omega)
theorem ofCall_not_exit (label : Nat → Nat → α) (k i : Nat) : ofCall label (onExit (onNotAllowPattern k), i) = none := by
  exact ofCall_big _ _ _ (by simp [onAllowPattern, onNotAllowPattern, onExit]; try omega)

theorem eventss_append (as bs : List (Tree α)) : eventss (as ++ bs) = eventss as ++ eventss bs := by
  induction as with
  | nil => simp [eventss]
  | cons a as ih => simp [eventss, ih]

mutual
theorem visit_events (K : Kinds) (label : Nat → Nat → α) : ∀ (p : Bool) (n : Node), smallKinds K n →
    (visit K p n).filterMap (ofCall label) = events (reached K label p n)
  | true, .other k i cs, h => by
    obtain ⟨hk, hc⟩ := h
    simp [visit, reached, events, ofCall_enter, ofCall_exit, ofCall_allow, ofCall_allow_exit, hk, visits_events K label false cs hc]
  | true, .arr i cs, h => by
    obtain ⟨hk, hc⟩ := h
    simp [visit, reached, events, ofCall_enter, ofCall_exit, ofCall_allow, ofCall_allow_exit, hk, visits_events K label true cs hc]
  | true, .obj i cs, h => by
    obtain ⟨hk, hc⟩ := h
    simp [visit, reached, events, ofCall_enter, ofCall_exit, ofCall_allow, ofCall_allow_exit, hk, visits_events K label true cs hc]
  | true, .spread k i e, h => by
    obtain ⟨hk, hc⟩ := h
    simp [visit, reached, events, eventss, ofCall_enter, ofCall_exit, ofCall_allow, ofCall_allow_exit, hk, visit_events K label true e hc]
  | true, .prop i ps e, h => by
    obtain ⟨hk, _, hc⟩ := h
    simp [visit, reached, events, eventss, ofCall_enter, ofCall_exit, ofCall_allow, ofCall_allow_exit, hk, visit_events K label true e hc]
  | true, .assign i ms l ty o r, h => by
    obtain ⟨hk, h1, h2, h3, h4, h5⟩ := h
    simp [visit, reached, events, eventss, eventss_append, ofCall_enter, ofCall_exit, ofCall_allow, ofCall_allow_exit, hk,
      visits_events K label false ms h1, visit_events K label false l h2, visits_events K label false ty h3, visit_events K label false o h4,
      visit_events K label false r h5]
  | false, .other k i cs, h => by
    obtain ⟨hk, hc⟩ := h
    simp [visit, reached, events, ofCall_enter, ofCall_exit, hk, visits_events K label false cs hc]
  | false, .arr i cs, h => by
    obtain ⟨hk, hc⟩ := h
    simp [visit, reached, events, ofCall_enter, ofCall_exit, ofCall_not, ofCall_not_exit, hk, visits_events K label false cs hc]
  | false, .obj i cs, h => by
    obtain ⟨hk, hc⟩ := h
    simp [visit, reached, events, ofCall_enter, ofCall_exit, ofCall_not, ofCall_not_exit, hk, visits_events K label false cs hc]
  | false, .spread k i e, h => by
    obtain ⟨hk, hc⟩ := h
    simp [visit, reached, events, eventss, ofCall_enter, ofCall_exit, hk, visit_events K label false e hc]
  | false, .prop i ps e, h => by
    obtain ⟨hk, h1, h2⟩ := h
    simp [visit, reached, events, eventss, eventss_append, ofCall_enter, ofCall_exit, hk, visits_events K label false ps h1,
      visit_events K label false e h2]
  | false, .assign i ms l ty o r, h => by
    obtain ⟨hk, h1, h2, h3, h4, h5⟩ := h
    simp [visit, reached, events, eventss, ofCall_enter, ofCall_exit, hk, visit_events K label true l h2,
      visit_events K label false o h4, visit_events K label false r h5]
theorem visits_events (K : Kinds) (label : Nat → Nat → α) : ∀ (p : Bool) (ns : List Node), smallKindss K ns →
    (visits K p ns).filterMap (ofCall label) = eventss (reacheds K label p ns)
  | p, [], _ => by simp [visits, reacheds, eventss]
  | p, n :: ns, h => by
    simp [visits, reacheds, eventss, visit_events K label p n h.1, visits_events K label p ns h.2]
end

end Tsgolint.RuleTree
