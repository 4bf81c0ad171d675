import Verif.Spec.SpreadPlaces
import Verif.Props.Visit
/-! # C140: which spreads no-misused-spread checks -/
namespace Tsgolint.SpreadPlaces
open Tsgolint.Visit

theorem mem_spreads (kind : Nat) (cs : List Node) (j : Nat) : j ∈ spreads kind cs ↔ ∃ si e, cs[j]? = some (.spread kind si e) := by
  unfold spreads
  rw [List.mem_filter, List.mem_range]
  constructor
  · rintro ⟨h, hs⟩
    cases hc : cs[j]? with
    | none => rw [hc] at hs; simp at hs
    | some c =>
      rw [hc] at hs
      cases c <;> simp [isSpread] at hs
      subst hs; exact ⟨_, _, rfl⟩
  · rintro ⟨si, e, h⟩
    refine ⟨?_, by simp [h, isSpread]⟩
    exact (List.getElem?_eq_some_iff.1 h).1

theorem nodup_spreads (kind : Nat) (cs : List Node) : (spreads kind cs).Nodup := List.Nodup.sublist List.filter_sublist List.nodup_range

theorem parent_of_listener {K : Kinds} {S : SpreadKinds} {kind : Nat} {n : Node} {c : Check} (h : c ∈ listener K S kind n) : c.parent = n.id := by
  unfold listener at h
  split at h
  · obtain ⟨_, _, rfl⟩ := List.mem_map.1 h; rfl
  split at h
  · obtain ⟨_, _, rfl⟩ := List.mem_map.1 h; rfl
  split at h
  · simp only [List.mem_singleton] at h; subst h; rfl
  split at h
  · obtain ⟨_, _, rfl⟩ := List.mem_map.1 h; rfl
  · simp at h

/-- What the listeners do for a node of the file -/
theorem checks_of_node (K : Kinds) (S : SpreadKinds) (nodeOf : Nat → Node) (topLevel : List Node) (hd : (idss topLevel).Nodup)
    (hn : ∀ t ∈ topLevel, ∀ q m, Reach false t q m → nodeOf m.id = m) (t) (ht : t ∈ topLevel) (q m) (hr : Reach false t q m) :
    (checks K S nodeOf topLevel).filter (fun c => c.parent == m.id) = (expected K q m).flatMap fun e => listener K S e.1 m := by
  rw [← C22_events_of_node K topLevel hd t ht q m hr]
  unfold checks
  have key : ∀ evs : List Ev, (∀ e ∈ evs, e ∈ visitFile K topLevel) →
      (evs.flatMap fun e => listener K S e.1 (nodeOf e.2)).filter (fun c => c.parent == m.id) = (evs.filter fun e => e.2 == m.id).flatMap fun e => listener K S e.1 m := by
    intro evs
    induction evs with
    | nil => intro _; rfl
    | cons e evs ih =>
      intro he
      rw [List.flatMap_cons, List.filter_append, ih (fun e h => he e (by simp [h]))]
      obtain ⟨t', ht', q', m', hr', hm'⟩ := (C22_reached_or_skipped K topLevel).1 e (he e (by simp))
      have e2 : e.2 = m'.id := by
        unfold expected at hm'
        split at hm'
        · simp at hm'; rcases hm' with h | h | h | h <;> rw [h]
        split at hm'
        · simp at hm'; rcases hm' with h | h | h | h <;> rw [h]
        · simp at hm'; rcases hm' with h | h <;> rw [h]
      have hnode : nodeOf e.2 = m' := by rw [e2]; exact hn t' ht' q' m' hr'
      by_cases hid : e.2 = m.id
      · have hm : m' = m := by rw [← hnode, hid]; exact hn t ht q m hr
        rw [List.filter_eq_self.2 (fun c hc => by rw [hnode] at hc; simp [parent_of_listener hc, ← e2, hid]), List.filter_cons, if_pos (by simp [hid]), List.flatMap_cons, hnode, hm]
      · rw [List.filter_eq_nil_iff.2 (fun c hc => by rw [hnode] at hc; simp [parent_of_listener hc, ← e2, hid]), List.filter_cons, if_neg (by simp [hid])]
        rfl
  exact key _ (fun e h => h)

theorem none_of {K : Kinds} {S : SpreadKinds} {kind : Nat} (n : Node) (h1 : kind ≠ onNotAllowPattern K.arr) (h2 : kind ≠ S.call) (h3 : kind ≠ S.jsx)
    (h4 : kind ≠ onNotAllowPattern K.obj) : listener K S kind n = [] := by simp [listener, h1, h2, h3, h4]

theorem Parsed.reach {K : Kinds} {S : SpreadKinds} {p q n m} (hr : Reach p n q m) : Parsed K S n → Parsed K S m := by
  induction hr with
  | self => exact id
  | arr hc _ ih => intro h; cases h with | arr h => exact ih (h _ hc)
  | obj hc _ ih => intro h; cases h with | obj h => exact ih (h _ hc)
  | spread _ ih => intro h; cases h with | spread _ _ h => exact ih h
  | value _ ih => intro h; cases h with | prop _ h => exact ih h
  | left _ ih => intro h; cases h with | assign h => exact ih (h _ (by simp [Node.children]))
  | operator _ ih => intro h; cases h with | assign h => exact ih (h _ (by simp [Node.children]))
  | right _ ih => intro h; cases h with | assign h => exact ih (h _ (by simp [Node.children]))
  | inPatternOther hc _ ih => intro h; cases h with | other _ _ _ h => exact ih (h _ hc)
  | inPatternAssign hc _ ih => intro h; cases h with | assign h => exact ih (h _ hc)
  | plain hn hc _ ih =>
    intro h
    cases h with
    | other _ _ _ h => exact ih (h _ hc)
    | arr h => exact ih (h _ hc)
    | obj h => exact ih (h _ hc)
    | spread _ _ h => simp only [Node.children, List.mem_singleton] at hc; exact ih (hc ▸ h)
    | prop hp he =>
      simp only [Node.children, List.mem_append, List.mem_singleton] at hc
      rcases hc with hc | hc
      · exact ih (hp _ hc)
      · exact ih (hc ▸ he)
    | assign h => exact ih (h _ hc)

theorem expands_other {K : Kinds} {S : SpreadKinds} {q k i cs j mode} (h : Expands K S q (.other k i cs) j mode) :
    (k = S.call ∧ mode = .arrayOrCall ∧ ∃ si e, cs[j]? = some (.spread S.element si e)) ∨ (k = S.jsx ∧ mode = .object ∧ j = 0) := by
  generalize hn : Node.other k i cs = n at h
  cases h with
  | array => cases hn
  | object => cases hn
  | call h => injection hn with h1 h2 h3; subst h1 h3; exact .inl ⟨rfl, rfl, _, _, h⟩
  | jsx => injection hn with h1 h2 h3; subst h1; exact .inr ⟨rfl, rfl, rfl⟩

/-- The checks of one node: those for its spreads that expand, each once. -/
theorem listener_node {K : Kinds} {S : SpreadKinds} (hK : KindsDiffer K S) {m : Node} (hm : Parsed K S m) (q : Bool) :
    ((expected K q m).flatMap fun e => listener K S e.1 m).Nodup ∧
    ∀ c, c ∈ ((expected K q m).flatMap fun e => listener K S e.1 m) ↔ c.parent = m.id ∧ Expands K S q m c.index c.mode := by
  obtain ⟨⟨k1, k2, k3, k4, k5, k6⟩, kao, ⟨c1, c2, c3, c4, c5, c6, c7⟩, ⟨j1, j2, j3, j4, j5, j6⟩⟩ := hK
  have dup : ∀ (kind : Nat) (mode : Mode) (i : Nat) (cs : List Node), ((spreads kind cs).map fun j => (⟨i, j, mode⟩ : Check)).Nodup := fun kind mode i cs =>
    List.Pairwise.map _ (fun a b h h' => h (by injection h')) (nodup_spreads kind cs)
  cases hm with
  | @other k i cs h h1 h2 _ =>
    have e : (expected K q (.other k i cs)).flatMap (fun e => listener K S e.1 (.other k i cs)) = listener K S k (.other k i cs) := by
      unfold expected
      cases q <;> simp only [Node.kind, Node.isLiteral, Node.id, Bool.false_eq_true, ite_false, ite_true, List.flatMap_cons, List.flatMap_nil]
      · rw [none_of (kind := onExit k)] <;> simp [onExit, onNotAllowPattern] <;> omega
      · rw [none_of (kind := onExit k), none_of (kind := onAllowPattern k), none_of (kind := onExit (onAllowPattern k))] <;>
          simp [onExit, onNotAllowPattern, onAllowPattern] <;> omega
    rw [e]
    have n1 : k ≠ onNotAllowPattern K.arr := by simp [onNotAllowPattern]; omega
    have n2 : k ≠ onNotAllowPattern K.obj := by simp [onNotAllowPattern]; omega
    by_cases hc : k = S.call
    · subst hc
      rw [show listener K S S.call (.other S.call i cs) = (spreads S.element cs).map (⟨i, ·, .arrayOrCall⟩) by simp [listener, n1, childNodes, Node.id]]
      refine ⟨dup _ _ _ _, fun c => ?_⟩
      simp only [List.mem_map, mem_spreads]
      constructor
      · rintro ⟨j, ⟨si, e, hj⟩, rfl⟩; exact ⟨rfl, .call hj⟩
      · rintro ⟨hp, he⟩
        obtain ⟨p, j, mode⟩ := c
        simp only [Node.id] at hp; subst hp
        rcases expands_other he with ⟨-, rfl, si, e, hj⟩ | ⟨h, -⟩
        · exact ⟨_, ⟨_, _, hj⟩, rfl⟩
        · exact absurd h c5
    by_cases hj : k = S.jsx
    · subst hj
      rw [show listener K S S.jsx (.other S.jsx i cs) = [⟨i, 0, .object⟩] by simp [listener, n1, Ne.symm c5, Node.id]]
      refine ⟨by simp, fun c => ?_⟩
      simp only [List.mem_singleton]
      constructor
      · rintro rfl; exact ⟨rfl, .jsx⟩
      · rintro ⟨hp, he⟩
        obtain ⟨p, j, mode⟩ := c
        simp only [Node.id] at hp; subst hp
        rcases expands_other he with ⟨h, -⟩ | ⟨-, rfl, rfl⟩
        · exact absurd h hc
        · rfl
    · rw [none_of _ n1 hc hj n2]
      refine ⟨by simp, fun c => ?_⟩
      simp only [List.not_mem_nil, false_iff]
      rintro ⟨-, he⟩
      obtain ⟨p, j, mode⟩ := c
      rcases expands_other he with ⟨h, -⟩ | ⟨h, -⟩
      · exact hc h
      · exact hj h
  | @arr i cs _ =>
    cases q
    · have e : (expected K false (.arr i cs)).flatMap (fun e => listener K S e.1 (.arr i cs)) = (spreads S.element cs).map (⟨i, ·, .arrayOrCall⟩) := by
        unfold expected
        simp only [Node.kind, Node.isLiteral, Node.id, Bool.false_eq_true, ite_false, ite_true, List.flatMap_cons, List.flatMap_nil]
        rw [none_of (kind := onExit K.arr), none_of (kind := K.arr), none_of (kind := onExit (onNotAllowPattern K.arr))] <;>
          simp [onExit, onNotAllowPattern, listener, childNodes, Node.id] <;> omega
      rw [e]
      refine ⟨dup _ _ _ _, fun c => ?_⟩
      simp only [List.mem_map, mem_spreads]
      constructor
      · rintro ⟨j, ⟨si, e, hj⟩, rfl⟩; exact ⟨rfl, .array hj⟩
      · rintro ⟨hp, he⟩
        obtain ⟨p, j, mode⟩ := c
        simp only [Node.id] at hp; subst hp
        cases he with
        | array hj => exact ⟨_, ⟨_, _, hj⟩, rfl⟩
    · have e : (expected K true (.arr i cs)).flatMap (fun e => listener K S e.1 (.arr i cs)) = [] := by
        unfold expected
        simp only [Node.kind, Node.isLiteral, Node.id, Bool.false_eq_true, ite_false, ite_true, List.flatMap_cons, List.flatMap_nil]
        rw [none_of (kind := onExit K.arr), none_of (kind := K.arr), none_of (kind := onExit (onAllowPattern K.arr)), none_of (kind := onAllowPattern K.arr)] <;>
          simp [onExit, onNotAllowPattern, onAllowPattern] <;> omega
      rw [e]
      refine ⟨by simp, fun c => ?_⟩
      simp only [List.not_mem_nil, false_iff]
      rintro ⟨-, he⟩
      cases he
  | @obj i cs _ =>
    cases q
    · have e : (expected K false (.obj i cs)).flatMap (fun e => listener K S e.1 (.obj i cs)) = (spreads S.assignment cs).map (⟨i, ·, .object⟩) := by
        unfold expected
        simp only [Node.kind, Node.isLiteral, Node.id, Bool.false_eq_true, ite_false, ite_true, List.flatMap_cons, List.flatMap_nil]
        rw [none_of (kind := onExit K.obj), none_of (kind := K.obj), none_of (kind := onExit (onNotAllowPattern K.obj)),
          show listener K S (onNotAllowPattern K.obj) (.obj i cs) = (spreads S.assignment cs).map (⟨i, ·, .object⟩) by
            have a1 : onNotAllowPattern K.obj ≠ onNotAllowPattern K.arr := by simp [onNotAllowPattern]; omega
            have a2 : onNotAllowPattern K.obj ≠ S.call := by simp [onNotAllowPattern]; omega
            have a3 : onNotAllowPattern K.obj ≠ S.jsx := by simp [onNotAllowPattern]; omega
            simp [listener, a1, a2, a3, childNodes, Node.id]] <;>
          simp [onExit, onNotAllowPattern] <;> omega
      rw [e]
      refine ⟨dup _ _ _ _, fun c => ?_⟩
      simp only [List.mem_map, mem_spreads]
      constructor
      · rintro ⟨j, ⟨si, e, hj⟩, rfl⟩; exact ⟨rfl, .object hj⟩
      · rintro ⟨hp, he⟩
        obtain ⟨p, j, mode⟩ := c
        simp only [Node.id] at hp; subst hp
        cases he with
        | object hj => exact ⟨_, ⟨_, _, hj⟩, rfl⟩
    · have e : (expected K true (.obj i cs)).flatMap (fun e => listener K S e.1 (.obj i cs)) = [] := by
        unfold expected
        simp only [Node.kind, Node.isLiteral, Node.id, Bool.false_eq_true, ite_false, ite_true, List.flatMap_cons, List.flatMap_nil]
        rw [none_of (kind := onExit K.obj), none_of (kind := K.obj), none_of (kind := onExit (onAllowPattern K.obj)), none_of (kind := onAllowPattern K.obj)] <;>
          simp [onExit, onNotAllowPattern, onAllowPattern] <;> omega
      rw [e]
      refine ⟨by simp, fun c => ?_⟩
      simp only [List.not_mem_nil, false_iff]
      rintro ⟨-, he⟩
      cases he
  | @spread k i x h hk _ =>
    have e : (expected K q (.spread k i x)).flatMap (fun e => listener K S e.1 (.spread k i x)) = [] := by
      unfold expected
      cases q <;> simp only [Node.kind, Node.isLiteral, Node.id, Bool.false_eq_true, ite_false, ite_true, List.flatMap_cons, List.flatMap_nil]
      · rw [none_of (kind := onExit k), none_of (kind := k)] <;> simp [onExit, onNotAllowPattern] <;> omega
      · rw [none_of (kind := onExit k), none_of (kind := k), none_of (kind := onAllowPattern k), none_of (kind := onExit (onAllowPattern k))] <;>
          simp [onExit, onNotAllowPattern, onAllowPattern] <;> omega
    rw [e]
    refine ⟨by simp, fun c => ?_⟩
    simp only [List.not_mem_nil, false_iff]
    rintro ⟨-, he⟩
    cases he
  | @prop i ps x _ _ =>
    have e : (expected K q (.prop i ps x)).flatMap (fun e => listener K S e.1 (.prop i ps x)) = [] := by
      unfold expected
      cases q <;> simp only [Node.kind, Node.isLiteral, Node.id, Bool.false_eq_true, ite_false, ite_true, List.flatMap_cons, List.flatMap_nil]
      · rw [none_of (kind := onExit K.prop), none_of (kind := K.prop)] <;> simp [onExit, onNotAllowPattern] <;> omega
      · rw [none_of (kind := onExit K.prop), none_of (kind := K.prop), none_of (kind := onAllowPattern K.prop), none_of (kind := onExit (onAllowPattern K.prop))] <;>
          simp [onExit, onNotAllowPattern, onAllowPattern] <;> omega
    rw [e]
    refine ⟨by simp, fun c => ?_⟩
    simp only [List.not_mem_nil, false_iff]
    rintro ⟨-, he⟩
    cases he
  | @assign i ms l ty o r _ =>
    have e : (expected K q (.assign i ms l ty o r)).flatMap (fun e => listener K S e.1 (.assign i ms l ty o r)) = [] := by
      unfold expected
      cases q <;> simp only [Node.kind, Node.isLiteral, Node.id, Bool.false_eq_true, ite_false, ite_true, List.flatMap_cons, List.flatMap_nil]
      · rw [none_of (kind := onExit K.assign), none_of (kind := K.assign)] <;> simp [onExit, onNotAllowPattern] <;> omega
      · rw [none_of (kind := onExit K.assign), none_of (kind := K.assign), none_of (kind := onAllowPattern K.assign), none_of (kind := onExit (onAllowPattern K.assign))] <;>
          simp [onExit, onNotAllowPattern, onAllowPattern] <;> omega
    rw [e]
    refine ⟨by simp, fun c => ?_⟩
    simp only [List.not_mem_nil, false_iff]
    rintro ⟨-, he⟩
    cases he

theorem count_one {l : List Check} (h : l.Nodup) {c : Check} (hc : c ∈ l) : l.count c = 1 := by
  have h1 := List.nodup_iff_count.1 h c
  have h2 := List.count_pos_iff.2 hc
  omega

theorem Role.inside {loops : Loops} {d p n q m} (h : Role loops d p n q m) : Inside n m := by
  induction h with
  | self p n => exact .self _
  | arr hc _ ih | obj hc _ ih | inTarget hc _ ih | element hc _ ih | property hc _ ih | child _ hc _ ih => exact .child hc ih
  | rest _ ih | value _ ih | left _ ih | right _ ih | spread _ ih | defaultValue _ ih | default _ _ ih | head _ _ _ ih =>
    exact .child (by simp [Node.children]) ih
  | name hc _ ih => exact .child (by simp [Node.children, hc]) ih
  | body _ hc _ ih => exact .child (by simp [Node.children, hc]) ih
  | propertyPart hc _ ih => exact .child (by simpa [Node.children] using hc) ih

theorem reach_of_role {loops : Loops} {d p n q m} (h : Role loops d p n q m) : ∀ p' : Bool, (p' = true → p = true) → (d = false → p' = p) →
    (∃ q' : Bool, (q' = true → q = true) ∧ (d = false → q' = q) ∧ Reach p' n q' m) ∨ ∃ s ∈ skipped p' n, Inside s m := by
  induction h with
  | self p n => intro p' h1 h2; exact .inl ⟨p', h1, h2, .self _ _⟩
  | @arr i cs c q m hc _ ih =>
    intro p' h1 h2
    have sk : ∀ b, (∃ s ∈ skipped b c, Inside s m) → ∃ s ∈ skipped b (.arr i cs), Inside s m := by
      rintro b ⟨s, hs, hi⟩
      refine ⟨s, ?_, hi⟩
      cases b <;> simp only [skipped, skippeds_eq, List.mem_flatMap] <;> exact ⟨c, hc, hs⟩
    rcases ih p' h1 h2 with ⟨q', a, b, hr⟩ | h
    · refine .inl ⟨q', a, b, ?_⟩
      cases p'
      · exact .plain (fun _ _ _ _ _ _ h => nomatch h) hc hr
      · exact .arr hc hr
    · exact .inr (sk _ h)
  | @obj i cs c q m hc _ ih =>
    intro p' h1 h2
    have sk : ∀ b, (∃ s ∈ skipped b c, Inside s m) → ∃ s ∈ skipped b (.obj i cs), Inside s m := by
      rintro b ⟨s, hs, hi⟩
      refine ⟨s, ?_, hi⟩
      cases b <;> simp only [skipped, skippeds_eq, List.mem_flatMap] <;> exact ⟨c, hc, hs⟩
    rcases ih p' h1 h2 with ⟨q', a, b, hr⟩ | h
    · refine .inl ⟨q', a, b, ?_⟩
      cases p'
      · exact .plain (fun _ _ _ _ _ _ h => nomatch h) hc hr
      · exact .obj hc hr
    · exact .inr (sk _ h)
  | rest _ ih =>
    intro p' h1 h2
    rcases ih p' h1 h2 with ⟨q', a, b, hr⟩ | h
    · refine .inl ⟨q', a, b, ?_⟩
      cases p'
      · exact .plain (fun _ _ _ _ _ _ h => nomatch h) (by simp [Node.children]) hr
      · exact .spread hr
    · exact .inr (by cases p' <;> simpa [skipped] using h)
  | value _ ih =>
    intro p' h1 h2
    rcases ih p' h1 h2 with ⟨q', a, b, hr⟩ | ⟨s, hs, hi⟩
    · refine .inl ⟨q', a, b, ?_⟩
      cases p'
      · exact .plain (fun _ _ _ _ _ _ h => nomatch h) (by simp [Node.children]) hr
      · exact .value hr
    · exact .inr ⟨s, by cases p' <;> simp [skipped, hs], hi⟩
  | @name i ps e c q m hc hr ih =>
    intro p' h1 h2
    cases p'
    · rcases ih false (by simp) (by simp) with ⟨q', a, b, hr⟩ | ⟨s, hs, hi⟩
      · exact .inl ⟨q', a, b, .plain (fun _ _ _ _ _ _ h => nomatch h) (by simp [Node.children, hc]) hr⟩
      · refine .inr ⟨s, ?_, hi⟩
        simp only [skipped, skippeds_eq, List.mem_append, List.mem_flatMap]
        exact .inl ⟨c, hc, hs⟩
    · exact .inr ⟨c, by simp [skipped, hc], hr.inside⟩
  | @default i ms l ty o r q m hd _ ih =>
    intro p' h1 h2
    cases p'
    · rcases ih true (by simp) (by simp) with ⟨q', a, b, hr⟩ | ⟨s, hs, hi⟩
      · exact .inl ⟨q', a, b, .left hr⟩
      · exact .inr ⟨s, by simp [skipped, hs], hi⟩
    · rcases ih false (by simp) (by simp [hd]) with ⟨q', a, b, hr⟩ | ⟨s, hs, hi⟩
      · exact .inl ⟨q', a, b, .inPatternAssign (by simp [Node.children]) hr⟩
      · exact .inr ⟨s, by simp [skipped, hs], hi⟩
  | defaultValue _ ih =>
    intro p' h1 h2
    rcases ih false (by simp) (by simp) with ⟨q', a, b, hr⟩ | ⟨s, hs, hi⟩
    · refine .inl ⟨q', a, b, ?_⟩
      cases p'
      · exact .right hr
      · exact .inPatternAssign (by simp [Node.children]) hr
    · exact .inr ⟨s, by cases p' <;> simp [skipped, hs], hi⟩
  | @inTarget k i cs c q m hc _ ih =>
    intro p' h1 h2
    rcases ih false (by simp) (by simp) with ⟨q', a, b, hr⟩ | ⟨s, hs, hi⟩
    · refine .inl ⟨q', a, b, ?_⟩
      cases p'
      · exact .plain (fun _ _ _ _ _ _ h => nomatch h) hc hr
      · exact .inPatternOther hc hr
    · refine .inr ⟨s, ?_, hi⟩
      cases p' <;> simp only [skipped, skippeds_eq, List.mem_flatMap] <;> exact ⟨c, hc, hs⟩
  | left _ ih =>
    intro p' h1 h2
    have hp : p' = false := Bool.eq_false_iff.2 fun h => Bool.noConfusion (h1 h)
    subst hp
    rcases ih true (by simp) (by simp) with ⟨q', a, b, hr⟩ | ⟨s, hs, hi⟩
    · exact .inl ⟨q', a, b, .left hr⟩
    · exact .inr ⟨s, by simp [skipped, hs], hi⟩
  | right _ ih =>
    intro p' h1 h2
    have hp : p' = false := Bool.eq_false_iff.2 fun h => Bool.noConfusion (h1 h)
    subst hp
    rcases ih false (by simp) (by simp) with ⟨q', a, b, hr⟩ | ⟨s, hs, hi⟩
    · exact .inl ⟨q', a, b, .right hr⟩
    · exact .inr ⟨s, by simp [skipped, hs], hi⟩
  | @head k i h cs q m hd hl _ ih =>
    intro p' h1 h2
    have hp : p' = false := Bool.eq_false_iff.2 fun h => Bool.noConfusion (h1 h)
    subst hp
    rcases ih false (by simp) (by simp [hd]) with ⟨q', a, b, hr⟩ | ⟨s, hs, hi⟩
    · exact .inl ⟨q', a, b, .plain (fun _ _ _ _ _ _ h => nomatch h) (by simp [Node.children]) hr⟩
    · refine .inr ⟨s, ?_, hi⟩
      simp only [skipped, skippeds_eq, List.mem_flatMap]; exact ⟨h, by simp, hs⟩
  | @body k i h cs c q m hl hc _ ih =>
    intro p' h1 h2
    have hp : p' = false := Bool.eq_false_iff.2 fun h => Bool.noConfusion (h1 h)
    subst hp
    rcases ih false (by simp) (by simp) with ⟨q', a, b, hr⟩ | ⟨s, hs, hi⟩
    · exact .inl ⟨q', a, b, .plain (fun _ _ _ _ _ _ h => nomatch h) (by simp [Node.children, hc]) hr⟩
    · refine .inr ⟨s, ?_, hi⟩
      simp only [skipped, skippeds_eq, List.mem_flatMap]; exact ⟨c, by simp [hc], hs⟩
  | @child k i cs c q m hl hc _ ih =>
    intro p' h1 h2
    have hp : p' = false := Bool.eq_false_iff.2 fun h => Bool.noConfusion (h1 h)
    subst hp
    rcases ih false (by simp) (by simp) with ⟨q', a, b, hr⟩ | ⟨s, hs, hi⟩
    · exact .inl ⟨q', a, b, .plain (fun _ _ _ _ _ _ h => nomatch h) hc hr⟩
    · refine .inr ⟨s, ?_, hi⟩
      simp only [skipped, skippeds_eq, List.mem_flatMap]; exact ⟨c, hc, hs⟩
  | @element i cs c q m hc _ ih =>
    intro p' h1 h2
    have hp : p' = false := Bool.eq_false_iff.2 fun h => Bool.noConfusion (h1 h)
    subst hp
    rcases ih false (by simp) (by simp) with ⟨q', a, b, hr⟩ | ⟨s, hs, hi⟩
    · exact .inl ⟨q', a, b, .plain (fun _ _ _ _ _ _ h => nomatch h) hc hr⟩
    · refine .inr ⟨s, ?_, hi⟩
      simp only [skipped, skippeds_eq, List.mem_flatMap]; exact ⟨c, hc, hs⟩
  | @property i cs c q m hc _ ih =>
    intro p' h1 h2
    have hp : p' = false := Bool.eq_false_iff.2 fun h => Bool.noConfusion (h1 h)
    subst hp
    rcases ih false (by simp) (by simp) with ⟨q', a, b, hr⟩ | ⟨s, hs, hi⟩
    · exact .inl ⟨q', a, b, .plain (fun _ _ _ _ _ _ h => nomatch h) hc hr⟩
    · refine .inr ⟨s, ?_, hi⟩
      simp only [skipped, skippeds_eq, List.mem_flatMap]; exact ⟨c, hc, hs⟩
  | spread _ ih =>
    intro p' h1 h2
    have hp : p' = false := Bool.eq_false_iff.2 fun h => Bool.noConfusion (h1 h)
    subst hp
    rcases ih false (by simp) (by simp) with ⟨q', a, b, hr⟩ | h
    · exact .inl ⟨q', a, b, .plain (fun _ _ _ _ _ _ h => nomatch h) (by simp [Node.children]) hr⟩
    · exact .inr (by simpa [skipped] using h)
  | @propertyPart i ps e c q m hc _ ih =>
    intro p' h1 h2
    have hp : p' = false := Bool.eq_false_iff.2 fun h => Bool.noConfusion (h1 h)
    subst hp
    rcases ih false (by simp) (by simp) with ⟨q', a, b, hr⟩ | ⟨s, hs, hi⟩
    · exact .inl ⟨q', a, b, .plain (fun _ _ _ _ _ _ h => nomatch h) (by simpa [Node.children] using hc) hr⟩
    · refine .inr ⟨s, ?_, hi⟩
      simp only [skipped, skippeds_eq, List.mem_append, List.mem_flatMap]
      rcases hc with hc | hc
      · exact .inl ⟨c, hc, hs⟩
      · exact .inr (hc ▸ hs)

/-- C140 (once).  A spread that expands — an element of an array literal that is no pattern, an argument of a call, a property of an object literal that is
no pattern, or an attribute of a JSX element — is checked exactly once, unless it stands in a part of the file the traversal leaves out. -/
theorem C140_once (K : Kinds) (S : SpreadKinds) (hK : KindsDiffer K S) (loops : Loops) (nodeOf : Nat → Node) (topLevel : List Node) (hd : (idss topLevel).Nodup)
    (hn : ∀ t ∈ topLevel, ∀ q m, Reach false t q m → nodeOf m.id = m) (hp : ∀ t ∈ topLevel, Parsed K S t) (t) (ht : t ∈ topLevel) (q m)
    (hr : Role loops true false t q m) (j : Nat) (mode : Mode) (he : Expands K S q m j mode) (hs : ¬∃ s ∈ skippeds false topLevel, Inside s m) :
    (checks K S nodeOf topLevel).count ⟨m.id, j, mode⟩ = 1 := by
  rcases reach_of_role hr false (by simp) (by simp) with ⟨q', hq, -, hr'⟩ | ⟨s, h1, h2⟩
  · have he' : Expands K S q' m j mode := by
      cases he with
      | array h => cases q' with | false => exact .array h | true => exact absurd (hq rfl) (by simp)
      | object h => cases q' with | false => exact .object h | true => exact absurd (hq rfl) (by simp)
      | call h => exact .call h
      | jsx => exact .jsx
    obtain ⟨nd, mem⟩ := listener_node hK ((hp t ht).reach hr') q'
    rw [← checks_of_node K S nodeOf topLevel hd hn t ht q' m hr'] at nd mem
    have := List.count_filter (l := checks K S nodeOf topLevel) (p := fun c => c.parent == m.id) (a := ⟨m.id, j, mode⟩) (by simp)
    rw [← this]
    exact count_one nd ((mem _).2 ⟨rfl, he'⟩)
  · exact absurd ⟨s, by rw [skippeds_eq, List.mem_flatMap]; exact ⟨t, ht, h1⟩, h2⟩ hs

/-- C140 (only).  Nothing else is checked, and nothing twice: each check is for a spread of that kind in an array literal, call, object literal or JSX
element of the file, which is not below the left side of an assignment as a pattern. -/
theorem C140_only (K : Kinds) (S : SpreadKinds) (hK : KindsDiffer K S) (nodeOf : Nat → Node) (topLevel : List Node) (hd : (idss topLevel).Nodup)
    (hn : ∀ t ∈ topLevel, ∀ q m, Reach false t q m → nodeOf m.id = m) (hp : ∀ t ∈ topLevel, Parsed K S t) :
    (checks K S nodeOf topLevel).Nodup ∧
    ∀ c ∈ checks K S nodeOf topLevel, ∃ t ∈ topLevel, ∃ q m, Reach false t q m ∧ c.parent = m.id ∧ Expands K S q m c.index c.mode := by
  have main : ∀ c ∈ checks K S nodeOf topLevel, ∃ t ∈ topLevel, ∃ q m, Reach false t q m ∧ c.parent = m.id ∧ Expands K S q m c.index c.mode ∧
      (checks K S nodeOf topLevel).count c = 1 := by
    intro c hc
    obtain ⟨e, he, hl⟩ := List.mem_flatMap.1 hc
    obtain ⟨t, ht, q, m, hr, hm⟩ := (C22_reached_or_skipped K topLevel).1 e he
    have e2 : e.2 = m.id := by
      unfold expected at hm
      split at hm
      · simp at hm; rcases hm with h | h | h | h <;> rw [h]
      split at hm
      · simp at hm; rcases hm with h | h | h | h <;> rw [h]
      · simp at hm; rcases hm with h | h <;> rw [h]
    have hnode : nodeOf e.2 = m := by rw [e2]; exact hn t ht q m hr
    rw [hnode] at hl
    have hpar := parent_of_listener hl
    obtain ⟨nd, mem⟩ := listener_node hK ((hp t ht).reach hr) q
    have hin : c ∈ (expected K q m).flatMap fun e => listener K S e.1 m := List.mem_flatMap.2 ⟨e, hm, hl⟩
    have hx := ((mem c).1 hin).2
    rw [← checks_of_node K S nodeOf topLevel hd hn t ht q m hr] at nd hin
    refine ⟨t, ht, q, m, hr, hpar, hx, ?_⟩
    rw [← List.count_filter (p := fun c => c.parent == m.id) (by simp [hpar])]
    exact count_one nd hin
  refine ⟨?_, fun c hc => ?_⟩
  · rw [List.nodup_iff_count]
    intro c
    by_cases hc : c ∈ checks K S nodeOf topLevel
    · obtain ⟨_, _, _, _, _, _, _, h⟩ := main c hc; omega
    · rw [List.count_eq_zero_of_not_mem hc]; omega
  · obtain ⟨t, ht, q, m, hr, h1, h2, -⟩ := main c hc
    exact ⟨t, ht, q, m, hr, h1, h2⟩

theorem none_checked {K : Kinds} {S : SpreadKinds} (hK : KindsDiffer K S) {nodeOf : Nat → Node} {topLevel : List Node} (hd : (idss topLevel).Nodup)
    (hn : ∀ t ∈ topLevel, ∀ q m, Reach false t q m → nodeOf m.id = m) (hp : ∀ t ∈ topLevel, Parsed K S t) {t} (ht : t ∈ topLevel) {q m}
    (hr : Reach false t q m) (h : ∀ j mode, ¬Expands K S q m j mode) : ∀ c ∈ checks K S nodeOf topLevel, c.parent ≠ m.id := by
  intro c hc hid
  obtain ⟨-, mem⟩ := listener_node hK ((hp t ht).reach hr) q
  rw [← checks_of_node K S nodeOf topLevel hd hn t ht q m hr] at mem
  exact h _ _ ((mem c).1 (List.mem_filter.2 ⟨hc, by simp [hid]⟩)).2

/-- C140 (rest elements).  The rest elements and rest properties of a destructuring assignment are not taken for spreads, if the pattern is the left side of an
assignment or within one, and not the target of a default value. -/
theorem C140_rest (K : Kinds) (S : SpreadKinds) (hK : KindsDiffer K S) (loops : Loops) (nodeOf : Nat → Node) (topLevel : List Node) (hd : (idss topLevel).Nodup)
    (hn : ∀ t ∈ topLevel, ∀ q m, Reach false t q m → nodeOf m.id = m) (hp : ∀ t ∈ topLevel, Parsed K S t) (t) (ht : t ∈ topLevel) (m)
    (hr : Role loops false false t true m) (hl : m.isLiteral = true) (hs : ¬∃ s ∈ skippeds false topLevel, Inside s m) :
    ∀ c ∈ checks K S nodeOf topLevel, c.parent ≠ m.id := by
  rcases reach_of_role hr false (by simp) (by simp) with ⟨q', -, hq, hr'⟩ | ⟨s, h1, h2⟩
  · rw [hq rfl] at hr'
    refine none_checked hK hd hn hp ht hr' (fun j mode he => ?_)
    cases he <;> simp [Node.isLiteral] at hl
  · exact absurd ⟨s, by rw [skippeds_eq, List.mem_flatMap]; exact ⟨t, ht, h1⟩, h2⟩ hs

/-- C140 (finding).  Whatever is no array literal, call, object literal or JSX attribute is not looked at: the arguments of `new C(...s)` are never checked,
though they are spread like those of a call. -/
theorem C140_hazard_new (K : Kinds) (S : SpreadKinds) (hK : KindsDiffer K S) (nodeOf : Nat → Node) (topLevel : List Node) (hd : (idss topLevel).Nodup)
    (hn : ∀ t ∈ topLevel, ∀ q m, Reach false t q m → nodeOf m.id = m) (hp : ∀ t ∈ topLevel, Parsed K S t) (t) (ht : t ∈ topLevel) (q : Bool) (new i : Nat) (cs : List Node)
    (hr : Reach false t q (.other new i cs)) (h1 : new ≠ S.call) (h2 : new ≠ S.jsx) : ∀ c ∈ checks K S nodeOf topLevel, c.parent ≠ i := by
  refine none_checked (m := .other new i cs) hK hd hn hp ht hr (fun j mode he => ?_)
  rcases expands_other he with ⟨h, -⟩ | ⟨h, -⟩
  · exact h1 h
  · exact h2 h

theorem same_child {l : List Node} (h : (l.flatMap ids).Nodup) {a b : Node} (ha : a ∈ l) (hb : b ∈ l) {x : Nat} (hxa : x ∈ ids a) (hxb : x ∈ ids b) : a = b := by
  induction l with
  | nil => cases ha
  | cons c l ih =>
    rw [List.flatMap_cons, List.nodup_append] at h
    rcases List.mem_cons.1 ha with rfl | ha' <;> rcases List.mem_cons.1 hb with rfl | hb'
    · rfl
    · exact absurd rfl (h.2.2 x hxa x (List.mem_flatMap.2 ⟨b, hb', hxb⟩))
    · exact absurd rfl (h.2.2 x hxb x (List.mem_flatMap.2 ⟨a, ha', hxa⟩))
    · exact ih h.2.1 ha' hb'

theorem same_node (n : Node) : (ids n).Nodup → ∀ m m', Inside n m → Inside n m' → m.id = m'.id → m = m' := by
  induction n using Node.ind with
  | h n ih =>
    intro hd m m' h h' he
    have hd' := hd
    rw [ids_eq, List.nodup_cons] at hd
    have out : ∀ {c x}, c ∈ n.children → Inside c x → x.id ≠ n.id := fun hc hi e =>
      hd.1 (List.mem_flatMap.2 ⟨_, hc, e ▸ hi.ids _ (id_mem_ids _)⟩)
    cases h with
    | self => cases h' with
      | self => rfl
      | child hc hi => exact absurd he.symm (out hc hi)
    | @child _ c _ hc hi => cases h' with
      | self => exact absurd he (out hc hi)
      | @child _ c' _ hc' hi' =>
        have : c = c' := same_child hd.2 hc hc' (hi.ids _ (id_mem_ids m)) (he ▸ hi'.ids _ (id_mem_ids m'))
        subst this
        exact ih c hc (List.Sublist.nodup (List.sublist_flatten_of_mem (List.mem_map.2 ⟨_, hc, rfl⟩)) (by simpa [List.flatMap] using hd.2)) m m' hi hi' he

/-- Where different nodes have different pointers, there is the node for each pointer. -/
theorem pointers (topLevel : List Node) (hd : (idss topLevel).Nodup) :
    ∃ nodeOf : Nat → Node, ∀ t ∈ topLevel, ∀ q m, Reach false t q m → nodeOf m.id = m := by
  classical
  refine ⟨fun i => if h : ∃ m : Node, m.id = i ∧ ∃ t ∈ topLevel, Inside t m then h.choose else .other 0 i [], fun t ht q m hr => ?_⟩
  have h : ∃ m' : Node, m'.id = m.id ∧ ∃ t ∈ topLevel, Inside t m' := ⟨m, rfl, t, ht, hr.inside⟩
  show (if h : ∃ m' : Node, m'.id = m.id ∧ ∃ t ∈ topLevel, Inside t m' then h.choose else .other 0 m.id []) = m
  rw [dif_pos h]
  obtain ⟨h1, t', ht', hi⟩ := h.choose_spec
  rw [idss_eq] at hd
  have : t' = t := same_child hd ht' ht (h1 ▸ hi.ids _ (id_mem_ids _)) (hr.inside.ids _ (id_mem_ids _))
  subst this
  exact same_node _ (List.Sublist.nodup (List.sublist_flatten_of_mem (List.mem_map.2 ⟨_, ht, rfl⟩)) (by simpa [List.flatMap] using hd)) _ _ hi hr.inside h1

/-! ## Cases -/

def K : Kinds := { arr := 1, obj := 2, prop := 3, assign := 4 }
def S : SpreadKinds := { call := 5, jsx := 6, element := 7, assignment := 8 }
def forOf : Nat := 9
def new : Nat := 10
def id' (i : Nat) : Node := .other 11 i []
def spread' (i : Nat) : Node := .spread S.element i (id' (i + 1))

theorem kinds : KindsDiffer K S := ⟨by decide, by decide, by decide, by decide⟩

/-- `[...a]; f(...b); new C(...c); ({...d}); <e {...e} />; [...f] = g` -/
def file : List Node := [.arr 100 [spread' 101], .other 5 110 [id' 111, spread' 112], .other 10 120 [id' 121, spread' 122],
  .obj 130 [.spread S.assignment 131 (id' 132)], .other 6 140 [id' 141], .assign 150 [] (.arr 151 [spread' 152]) [] (id' 154) (id' 155)]

def nodeOf : Nat → Node
  | 100 => .arr 100 [spread' 101]
  | 110 => .other 5 110 [id' 111, spread' 112]
  | 120 => .other 10 120 [id' 121, spread' 122]
  | 130 => .obj 130 [.spread S.assignment 131 (id' 132)]
  | 140 => .other 6 140 [id' 141]
  | 150 => .assign 150 [] (.arr 151 [spread' 152]) [] (id' 154) (id' 155)
  | 151 => .arr 151 [spread' 152]
  | 101 => spread' 101
  | 112 => spread' 112
  | 122 => spread' 122
  | 131 => .spread S.assignment 131 (id' 132)
  | 152 => spread' 152
  | i => id' i

example : checks K S nodeOf file = [⟨100, 0, .arrayOrCall⟩, ⟨110, 1, .arrayOrCall⟩, ⟨130, 0, .object⟩, ⟨140, 0, .object⟩] := by decide
example : (idss file).Nodup := by decide
theorem parsed_id (i : Nat) : Parsed K S (id' i) := .other (by decide) (by decide) (by decide) (by simp)
theorem parsed_spread (i : Nat) : Parsed K S (spread' i) := .spread (by decide) (.inl rfl) (parsed_id _)
example : ∀ t ∈ file, Parsed K S t := by
  intro t ht
  simp only [file, List.mem_cons, List.not_mem_nil, or_false] at ht
  rcases ht with rfl | rfl | rfl | rfl | rfl | rfl
  · exact .arr (by simp [parsed_spread])
  · exact .other (by decide) (by decide) (by decide) (by simp [parsed_spread, parsed_id])
  · exact .other (by decide) (by decide) (by decide) (by simp [parsed_spread, parsed_id])
  · exact .obj (by simp only [List.mem_singleton, forall_eq]; exact .spread (by decide) (.inr rfl) (parsed_id _))
  · exact .other (by decide) (by decide) (by decide) (by simp [parsed_id])
  · refine .assign ?_
    simp only [Node.children, List.nil_append, List.append_nil, List.singleton_append, List.mem_cons, List.not_mem_nil, or_false]
    rintro c (rfl | rfl | rfl)
    · exact .arr (by simp [parsed_spread])
    · exact parsed_id _
    · exact parsed_id _
example : ∃ nodeOf : Nat → Node, ∀ t ∈ file, ∀ q m, Reach false t q m → nodeOf m.id = m := pointers file (by decide)
example : skippeds false file = [] := by decide
example : Role (· == forOf) true false (.arr 100 [spread' 101]) false (.arr 100 [spread' 101]) ∧ Expands K S false (.arr 100 [spread' 101]) 0 .arrayOrCall :=
  ⟨.self _ _, .array rfl⟩
example : Role (· == forOf) false false (.assign 150 [] (.arr 151 [spread' 152]) [] (id' 154) (id' 155)) true (.arr 151 [spread' 152]) := .left (.self _ _)

/-- `for ([...a] of b) {}` -/
def loop : List Node := [.other 9 100 [.arr 101 [spread' 102], id' 104]]
def loopNode : Nat → Node
  | 100 => .other 9 100 [.arr 101 [spread' 102], id' 104]
  | 101 => .arr 101 [spread' 102]
  | 102 => spread' 102
  | i => id' i

/-- C140 (finding).  In the head of a loop a rest element is taken for a spread: in `for ([...a] of b) {}` the `a` is assigned to, and checked as if it were
expanded. -/
theorem C140_hazard_loop : Role (· == forOf) true false (.other 9 100 [.arr 101 [spread' 102], id' 104]) true (.arr 101 [spread' 102]) ∧
    checks K S loopNode loop = [⟨101, 0, .arrayOrCall⟩] := ⟨.head rfl rfl (.self _ _), by decide⟩

/-- `[[...a] = b] = c` -/
def nested : List Node := [.assign 100 [] (.arr 101 [.assign 102 [] (.arr 103 [spread' 104]) [] (id' 106) (id' 107)]) [] (id' 108) (id' 109)]
def nestedNode : Nat → Node
  | 101 => .arr 101 [.assign 102 [] (.arr 103 [spread' 104]) [] (id' 106) (id' 107)]
  | 102 => .assign 102 [] (.arr 103 [spread' 104]) [] (id' 106) (id' 107)
  | 103 => .arr 103 [spread' 104]
  | 104 => spread' 104
  | i => id' i

/-- C140 (finding).  The same for a pattern with a default value within a pattern: `[[...a] = b] = c`. -/
theorem C140_hazard_default : (∃ t ∈ nested, Role (· == forOf) true false t true (.arr 103 [spread' 104])) ∧
    checks K S nestedNode nested = [⟨103, 0, .arrayOrCall⟩] :=
  ⟨⟨_, .head _, .left (.arr (.head _) (.default rfl (.self _ _)))⟩, by decide⟩

/-- `({ [f(...a)]: b } = c)` -/
def computed : List Node := [.assign 100 [] (.obj 101 [.prop 102 [.other 5 103 [id' 104, spread' 105]] (id' 107)]) [] (id' 108) (id' 109)]

/-- C140 (finding).  A spread in the computed name of a property of a pattern, `({ [f(...a)]: b } = c)`, is never checked, whatever the nodes are. -/
theorem C140_hazard_name : (∃ t ∈ computed, Role (· == forOf) true false t false (.other 5 103 [id' 104, spread' 105])) ∧
    Expands K S false (.other 5 103 [id' 104, spread' 105]) 1 .arrayOrCall ∧
    ∀ nodeOf : Nat → Node, (∀ t ∈ computed, ∀ q m, Reach false t q m → nodeOf m.id = m) → checks K S nodeOf computed = [] := by
  refine ⟨⟨_, .head _, .left (.obj (.head _) (.name (.head _) (.self _ _)))⟩, .call rfl, fun nodeOf h => ?_⟩
  have g := fun q m => h _ (List.mem_singleton.2 rfl) q m
  have h0 := g _ _ (.self _ _)
  have h1 := g _ _ (.left (.self _ _))
  have h2 := g _ _ (.left (.obj (.head _) (.self _ _)))
  have h3 := g _ _ (.left (.obj (.head _) (.value (.self _ _))))
  have h4 := g _ _ (.operator (.self _ _))
  have h5 := g _ _ (.right (.self _ _))
  simp only [Node.id, id'] at h0 h1 h2 h3 h4 h5
  simp [checks, computed, visitFile, visits, visit, id', List.flatMap_cons, h0, h1, h2, h3, h4, h5, listener, onExit, onAllowPattern, onNotAllowPattern, K, S]

end Tsgolint.SpreadPlaces
