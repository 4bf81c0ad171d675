import Verif.Spec.Duplicates
/-! # Lemmas about duplicate constituents -/
namespace Tsgolint.Duplicates
variable {T : Type} [DecidableEq T]

abbrev Entry (T : Type) := Node T × List (Node T)

def ids (L : List (Entry T)) : List Nat := L.map (·.1.id)

theorem reported_append (r1 r2 : List Report) (i : Nat) : Reported (r1 ++ r2) i ↔ Reported r1 i ∨ Reported r2 i := by
  simp only [Reported, List.mem_append]
  grind

/-- What checking the entries `L`, from one cache to another, reports. -/
structure Step (o : Bool) (c c' : Cache T) (reps : List Report) (L : List (Entry T)) : Prop where
  mem : ∀ r ∈ reps, r.node ∈ ids L
  cache : ∀ t m, c'.lookup t = some m ↔ c.lookup t = some m ∨
    (c.lookup t = none ∧ ∃ k ∈ L, Counts reps k ∧ k.1.ty = t ∧ k.1.id = m)
  exact : ∀ pre k post, L = pre ++ k :: post → ∀ m, (∃ fx, ⟨k.1.id, some m, fx⟩ ∈ reps) ↔
    Seen reps k ∧ k.1.isError = false ∧ (c.lookup k.1.ty = some m ∨
      (c.lookup k.1.ty = none ∧ ∃ j ∈ pre, Counts reps j ∧ j.1.ty = k.1.ty ∧ j.1.id = m))
  unneeded : ∀ k ∈ L, ∀ fx, ⟨k.1.id, none, fx⟩ ∈ reps ↔ o = true ∧ fx = true ∧ Counts reps k ∧ k.1.isUndefined = true

theorem Step.nil (o : Bool) (c : Cache T) : Step o c c [] [] := by
  refine ⟨by simp, by simp, ?_, by simp⟩
  intro pre k post h
  simp at h

theorem Step.not_reported {o : Bool} {c c' : Cache T} {reps : List Report} {L : List (Entry T)} (h : Step o c c' reps L) {i : Nat} (hi : i ∉ ids L) :
    ¬ Reported reps i := by
  rintro ⟨m, fx, hr⟩
  exact hi (h.mem _ hr)

theorem counts_iff (reps : List Report) (k : Entry T) : Counts reps k ↔ k.1.isError = false ∧ ¬ Reported reps k.1.id ∧ Seen reps k := by
  simp [Counts, Seen, and_assoc]

theorem Step.append {o : Bool} {c c1 c2 : Cache T} {r1 r2 : List Report} {L1 L2 : List (Entry T)} (h1 : Step o c c1 r1 L1)
    (h2 : Step o c1 c2 r2 L2)
    (hd : ∀ i ∈ ids L1, i ∉ ids L2) (ha1 : ∀ k ∈ L1, ∀ a ∈ k.2, a.id ∉ ids L2) (ha2 : ∀ k ∈ L2, ∀ a ∈ k.2, ¬ Reported r1 a.id) :
    Step o c c2 (r1 ++ r2) (L1 ++ L2) := by
  have hmem1 : ∀ k ∈ L1, k.1.id ∈ ids L1 := fun k hk => List.mem_map_of_mem hk
  have hmem2 : ∀ k ∈ L2, k.1.id ∈ ids L2 := fun k hk => List.mem_map_of_mem hk
  have hn1 : ∀ k ∈ L2, ¬ Reported r1 k.1.id := fun k hk => h1.not_reported fun hi => hd _ hi (hmem2 k hk)
  have hn2 : ∀ k ∈ L1, ¬ Reported r2 k.1.id := fun k hk => h2.not_reported (hd _ (hmem1 k hk))
  have hs1 : ∀ k ∈ L1, (Seen (r1 ++ r2) k ↔ Seen r1 k) := by
    intro k hk
    simp only [Seen, reported_append, not_or]
    exact ⟨fun h a ha => ⟨(h a ha).1, (h a ha).2.1⟩, fun h a ha => ⟨(h a ha).1, (h a ha).2, h2.not_reported (ha1 k hk a ha)⟩⟩
  have hs2 : ∀ k ∈ L2, (Seen (r1 ++ r2) k ↔ Seen r2 k) := by
    intro k hk
    simp only [Seen, reported_append, not_or]
    exact ⟨fun h a ha => ⟨(h a ha).1, (h a ha).2.2⟩, fun h a ha => ⟨(h a ha).1, ha2 k hk a ha, (h a ha).2⟩⟩
  have hc1 : ∀ k ∈ L1, (Counts (r1 ++ r2) k ↔ Counts r1 k) := by
    intro k hk
    have := hn2 k hk
    rw [counts_iff, counts_iff, hs1 k hk, reported_append]
    simp [this]
  have hc2 : ∀ k ∈ L2, (Counts (r1 ++ r2) k ↔ Counts r2 k) := by
    intro k hk
    have := hn1 k hk
    rw [counts_iff, counts_iff, hs2 k hk, reported_append]
    simp [this]
  -- an entry of the second list that counts is not in the first cache
  have hfresh : ∀ k ∈ L2, Counts r2 k → c1.lookup k.1.ty = none := by
    intro k hk hcnt
    cases hl : c1.lookup k.1.ty with
    | none => rfl
    | some m =>
      obtain ⟨pre, post, he⟩ := List.append_of_mem hk
      rw [counts_iff] at hcnt
      obtain ⟨fx, hf⟩ := (h2.exact pre k post he m).2 ⟨hcnt.2.2, hcnt.1, .inl hl⟩
      exact absurd ⟨m, fx, hf⟩ hcnt.2.1
  have hnone : ∀ t, c1.lookup t = none → c.lookup t = none := by
    intro t ht
    cases hl : c.lookup t with
    | none => rfl
    | some m => rw [(h1.cache t m).2 (.inl hl)] at ht; exact absurd ht (by simp)
  refine ⟨?_, ?_, ?_, ?_⟩
  rotate_left 3
  · intro k hk fx
    rw [List.mem_append]
    rcases List.mem_append.1 hk with hk | hk
    · rw [hc1 k hk, ← h1.unneeded k hk fx]
      exact ⟨fun h => h.elim id fun h => absurd (h2.mem _ h) (hd _ (hmem1 k hk)), .inl⟩
    · rw [hc2 k hk, ← h2.unneeded k hk fx]
      exact ⟨fun h => h.elim (fun h => absurd (hmem2 k hk) (hd _ (h1.mem _ h))) id, .inr⟩
  · intro r hr
    simp only [ids, List.map_append, List.mem_append] at hr ⊢
    exact hr.imp (h1.mem r) (h2.mem r)
  · intro t m
    rw [h2.cache t m, h1.cache t m]
    constructor
    · rintro ((h | ⟨h, k, hk, hcnt, ht, hm⟩) | ⟨h, k, hk, hcnt, ht, hm⟩)
      · exact .inl h
      · exact .inr ⟨h, k, by simp [hk], (hc1 k hk).2 hcnt, ht, hm⟩
      · exact .inr ⟨hnone t h, k, by simp [hk], (hc2 k hk).2 hcnt, ht, hm⟩
    · rintro (h | ⟨h, k, hk, hcnt, ht, hm⟩)
      · exact .inl (.inl h)
      · rcases List.mem_append.1 hk with hk | hk
        · exact .inl (.inr ⟨h, k, hk, (hc1 k hk).1 hcnt, ht, hm⟩)
        · have hcnt := (hc2 k hk).1 hcnt
          exact .inr ⟨ht ▸ hfresh k hk hcnt, k, hk, hcnt, ht, hm⟩
  · intro pre k post he m
    have hrep : ∀ fx, (⟨k.1.id, some m, fx⟩ : Report) ∈ r1 ++ r2 ↔ (⟨k.1.id, some m, fx⟩ ∈ r1 ∨ ⟨k.1.id, some m, fx⟩ ∈ r2) := by simp
    rcases List.append_eq_append_iff.1 he with ⟨x, hx1, hx2⟩ | ⟨x, hx1, hx2⟩
    · -- pre = L1 ++ x, L2 = x ++ k :: post
      have hk : k ∈ L2 := by rw [hx2]; simp
      have hx : ∀ j ∈ x, j ∈ L2 := by intro j hj; rw [hx2]; simp [hj]
      have hex := h2.exact x k post hx2 m
      rw [hs2 k hk]
      have hno : ¬ ∃ fx, (⟨k.1.id, some m, fx⟩ : Report) ∈ r1 := fun ⟨fx, h⟩ => hn1 k hk ⟨m, fx, h⟩
      have : (∃ fx, (⟨k.1.id, some m, fx⟩ : Report) ∈ r1 ++ r2) ↔ ∃ fx, (⟨k.1.id, some m, fx⟩ : Report) ∈ r2 := by
        simp only [hrep]
        exact ⟨fun ⟨fx, h⟩ => h.elim (fun h => absurd ⟨fx, h⟩ hno) fun h => ⟨fx, h⟩, fun ⟨fx, h⟩ => ⟨fx, .inr h⟩⟩
      rw [this, hex]
      refine and_congr_right fun _ => and_congr_right fun _ => ?_
      rw [h1.cache, hx1]
      constructor
      · rintro ((h | ⟨h, j, hj, hcnt, ht, hm⟩) | ⟨h, j, hj, hcnt, ht, hm⟩)
        · exact .inl h
        · exact .inr ⟨h, j, by simp [hj], (hc1 j hj).2 hcnt, ht, hm⟩
        · exact .inr ⟨hnone _ h, j, by simp [hj], (hc2 j (hx j hj)).2 hcnt, ht, hm⟩
      · rintro (h | ⟨h, j, hj, hcnt, ht, hm⟩)
        · exact .inl (.inl h)
        · rcases List.mem_append.1 hj with hj | hj
          · exact .inl (.inr ⟨h, j, hj, (hc1 j hj).1 hcnt, ht, hm⟩)
          · have hcnt := (hc2 j (hx j hj)).1 hcnt
            exact .inr ⟨ht ▸ hfresh j (hx j hj) hcnt, j, hj, hcnt, ht, hm⟩
    · -- L1 = pre ++ x, k :: post = x ++ L2
      cases x with
      | nil =>
        -- the first of L2
        simp only [List.append_nil, List.nil_append] at hx1 hx2
        subst hx1
        have hk : k ∈ L2 := by rw [← hx2]; simp
        have hex := h2.exact [] k post hx2.symm m
        rw [hs2 k hk]
        have hno : ¬ ∃ fx, (⟨k.1.id, some m, fx⟩ : Report) ∈ r1 := fun ⟨fx, h⟩ => hn1 k hk ⟨m, fx, h⟩
        have : (∃ fx, (⟨k.1.id, some m, fx⟩ : Report) ∈ r1 ++ r2) ↔ ∃ fx, (⟨k.1.id, some m, fx⟩ : Report) ∈ r2 := by
          simp only [hrep]
          exact ⟨fun ⟨fx, h⟩ => h.elim (fun h => absurd ⟨fx, h⟩ hno) fun h => ⟨fx, h⟩, fun ⟨fx, h⟩ => ⟨fx, .inr h⟩⟩
        rw [this, hex]
        refine and_congr_right fun _ => and_congr_right fun _ => ?_
        rw [h1.cache]
        simp only [List.not_mem_nil, false_and, exists_false, and_false, or_false]
        refine or_congr_right (and_congr_right fun _ => ?_)
        constructor
        · rintro ⟨j, hj, hcnt, ht, hm⟩; exact ⟨j, hj, (hc1 j hj).2 hcnt, ht, hm⟩
        · rintro ⟨j, hj, hcnt, ht, hm⟩; exact ⟨j, hj, (hc1 j hj).1 hcnt, ht, hm⟩
      | cons y x =>
        simp only [List.cons_append, List.cons.injEq] at hx2
        obtain ⟨rfl, rfl⟩ := hx2
        have hk : k ∈ L1 := by rw [hx1]; simp
        have hp : ∀ j ∈ pre, j ∈ L1 := by intro j hj; rw [hx1]; simp [hj]
        have hex := h1.exact pre k x hx1 m
        rw [hs1 k hk]
        have hno : ¬ ∃ fx, (⟨k.1.id, some m, fx⟩ : Report) ∈ r2 := fun ⟨fx, h⟩ => hn2 k hk ⟨m, fx, h⟩
        have : (∃ fx, (⟨k.1.id, some m, fx⟩ : Report) ∈ r1 ++ r2) ↔ ∃ fx, (⟨k.1.id, some m, fx⟩ : Report) ∈ r1 := by
          simp only [hrep]
          exact ⟨fun ⟨fx, h⟩ => h.elim (fun h => ⟨fx, h⟩) fun h => absurd ⟨fx, h⟩ hno, fun ⟨fx, h⟩ => ⟨fx, .inl h⟩⟩
        rw [this, hex]
        refine and_congr_right fun _ => and_congr_right fun _ => or_congr_right (and_congr_right fun _ => ?_)
        constructor
        · rintro ⟨j, hj, hcnt, ht, hm⟩; exact ⟨j, hj, (hc1 j (hp j hj)).2 hcnt, ht, hm⟩
        · rintro ⟨j, hj, hcnt, ht, hm⟩; exact ⟨j, hj, (hc1 j (hp j hj)).1 hcnt, ht, hm⟩

mutual
/-- The groups around an entry are among those around the node and the entries of the node. -/
theorem all_above (above : List (Node T)) : (n : Node T) → ∀ k ∈ n.all above, (∀ a ∈ above, a ∈ k.2) ∧ ∀ a ∈ k.2, a ∈ above ∨ a.id ∈ ids (n.all above)
  | .mk id ty e u parts => by
    intro k hk
    rw [Node.all] at hk ⊢
    rcases List.mem_cons.1 hk with rfl | hk
    · exact ⟨fun a ha => ha, fun a ha => .inl ha⟩
    · have := allParts_above (.mk id ty e u parts :: above) parts k hk
      refine ⟨fun a ha => this.1 a (by simp [ha]), fun a ha => ?_⟩
      rcases this.2 a ha with h | h
      · rcases List.mem_cons.1 h with rfl | h
        · right; simp [ids]
        · exact .inl h
      · right; simp only [ids, List.map_cons, List.mem_cons]; exact .inr h
theorem allParts_above (above : List (Node T)) : (ps : List (Node T)) → ∀ k ∈ allParts above ps, (∀ a ∈ above, a ∈ k.2) ∧ ∀ a ∈ k.2, a ∈ above ∨ a.id ∈ ids (allParts above ps)
  | [] => by simp [allParts]
  | p :: ps => by
    intro k hk
    rw [allParts] at hk ⊢
    simp only [ids, List.map_append, List.mem_append] at hk ⊢
    rcases hk with hk | hk
    · have := all_above above p k hk
      exact ⟨this.1, fun a ha => (this.2 a ha).imp_right .inl⟩
    · have := allParts_above above ps k hk
      exact ⟨this.1, fun a ha => (this.2 a ha).imp_right .inr⟩
end

theorem ids_append (a b : List (Entry T)) : ids (a ++ b) = ids a ++ ids b := by simp [ids]

/-- A node after which nothing below is looked at. -/
theorem Step.stop {o : Bool} {c : Cache T} {reps : List Report} {above : List (Node T)} {n : Node T} (hn : (ids (n.all above)).Nodup)
    (hab : ∀ a ∈ above, a.isError = false ∧ a.id ∉ ids (n.all above))
    (h : (n.isError = true ∧ reps = []) ∨ (n.isError = false ∧ ∃ prev w, c.lookup n.ty = some prev ∧ reps = [⟨n.id, some prev, w⟩])) :
    Step o c c reps (n.all above) := by
  obtain ⟨id, ty, e, u, parts⟩ := n
  have hbelow : ∀ k ∈ allParts (.mk id ty e u parts :: above) parts, ¬ Seen reps k := by
    intro k hk hs
    have := hs _ ((allParts_above _ _ k hk).1 _ List.mem_cons_self)
    rcases h with ⟨h, _⟩ | ⟨_, prev, w, _, rfl⟩
    · rw [this.1] at h; exact absurd h (by simp)
    · exact this.2 ⟨prev, w, by simp⟩
  have hnone : ∀ k ∈ (Node.mk id ty e u parts).all above, ¬ Counts reps k := by
    intro k hk
    rw [counts_iff]
    rintro ⟨h1, h2, h3⟩
    rw [Node.all] at hk
    rcases List.mem_cons.1 hk with rfl | hk
    · rcases h with ⟨h, _⟩ | ⟨_, prev, w, _, rfl⟩
      · rw [h1] at h; exact absurd h (by simp)
      · exact h2 ⟨prev, w, by simp⟩
    · exact hbelow k hk h3
  refine ⟨?_, ?_, ?_, ?_⟩
  rotate_left 3
  · intro k hk fx
    constructor
    · intro hr
      rcases h with ⟨_, rfl⟩ | ⟨_, prev, w, _, rfl⟩ <;> simp at hr
    · rintro ⟨_, _, hc, _⟩; exact absurd hc (hnone k hk)
  · intro r hr
    rcases h with ⟨_, rfl⟩ | ⟨_, prev, w, _, rfl⟩
    · simp at hr
    · simp at hr; subst hr; simp [ids, Node.all]
  · intro t m
    constructor
    · exact .inl
    · rintro (h | ⟨_, k, hk, hc, _⟩)
      · exact h
      · exact absurd hc (hnone k hk)
  · intro pre k post he m
    rw [Node.all] at he
    cases pre with
    | nil =>
      simp only [List.nil_append, List.cons.injEq] at he
      obtain ⟨rfl, _⟩ := he
      rcases h with ⟨h, rfl⟩ | ⟨h, prev, w, hl, rfl⟩
      · simp [h]
      · have hseen : Seen [⟨id, some prev, w⟩] (Node.mk id ty e u parts, above) := by
          intro a ha
          refine ⟨(hab a ha).1, ?_⟩
          rintro ⟨m', fx, hr⟩
          simp at hr
          exact (hab a ha).2 (by rw [hr.1]; simp [ids, Node.all, Node.id])
        simp only [Node.id] at hl ⊢
        simp [hl, h, hseen]
        exact eq_comm
    | cons y pre =>
      simp only [List.cons_append, List.cons.injEq] at he
      obtain ⟨rfl, he⟩ := he
      have hk : k ∈ allParts (.mk id ty e u parts :: above) parts := by rw [he]; simp
      constructor
      · rintro ⟨fx, hr⟩
        exfalso
        rcases h with ⟨_, rfl⟩ | ⟨_, prev, w, _, rfl⟩
        · simp at hr
        · simp only [List.mem_singleton, Report.mk.injEq] at hr
          rw [Node.all, ids, List.map_cons, List.nodup_cons] at hn
          exact hn.1 (List.mem_map.2 ⟨k, hk, hr.1⟩)
      · rintro ⟨hs, _⟩
        exact absurd hs (hbelow k hk)

mutual
theorem check_step (o w : Bool) (above : List (Node T)) : (n : Node T) → (c : Cache T) → (ids (n.all above)).Nodup →
    (∀ a ∈ above, a.isError = false ∧ a.id ∉ ids (n.all above)) → Step o c (check o w n c).2.1 (check o w n c).2.2 (n.all above)
  | .mk id ty e u parts, c => by
    intro hn hab
    rw [check]
    cases he : e with
    | true =>
      simp only [if_true]
      subst he
      exact Step.stop hn hab (.inl ⟨rfl, rfl⟩)
    | false =>
      subst he
      simp only [Bool.false_eq_true, if_false]
      cases hl : c.lookup ty with
      | some prev => exact Step.stop hn hab (.inr ⟨rfl, prev, w, hl, rfl⟩)
      | none =>
        simp only
        have hn' := hn
        rw [Node.all, ids, List.map_cons, List.nodup_cons] at hn'
        have hab' : ∀ a ∈ Node.mk id ty false u parts :: above, a.isError = false ∧ a.id ∉ ids (allParts (.mk id ty false u parts :: above) parts) := by
          intro a ha
          rcases List.mem_cons.1 ha with rfl | ha
          · exact ⟨rfl, hn'.1⟩
          · refine ⟨(hab a ha).1, fun hi => (hab a ha).2 ?_⟩
            rw [Node.all, ids, List.map_cons]; exact List.mem_cons_of_mem _ hi
        have h2 := parts_step o true (.mk id ty false u parts :: above) parts ((ty, id) :: c) hn'.2 hab'
        have hrep : ∀ i, ¬ Reported (if (o && u) = true then [(⟨id, none, true⟩ : Report)] else []) i := by
          rintro i ⟨m, fx, hr⟩
          split at hr <;> simp at hr
        have hseen : Seen (if (o && u) = true then [(⟨id, none, true⟩ : Report)] else []) (Node.mk id ty false u parts, above) :=
          fun a ha => ⟨(hab a ha).1, hrep _⟩
        have h1 : Step o c ((ty, id) :: c) (if (o && u) = true then [⟨id, none, true⟩] else []) [(Node.mk id ty false u parts, above)] := by
          refine ⟨?_, ?_, ?_, ?_⟩
          rotate_left 3
          · intro k hk fx
            simp only [List.mem_singleton] at hk
            subst hk
            have hcnt : Counts (if (o && u) = true then [(⟨id, none, true⟩ : Report)] else []) (Node.mk id ty false u parts, above) :=
              (counts_iff _ _).2 ⟨rfl, hrep _, hseen⟩
            simp only [hcnt, true_and, Node.isUndefined, Node.id]
            split
            · rename_i h; rw [Bool.and_eq_true] at h; simp [h.1, h.2]
            · rename_i h
              simp only [List.not_mem_nil, false_iff]
              rintro ⟨h1, _, h2⟩
              exact h (by rw [h1, h2]; rfl)
          · intro r hr
            split at hr
            · simp at hr; subst hr; simp [ids, Node.id]
            · simp at hr
          · intro t m
            have hcnt : Counts (if (o && u) = true then [(⟨id, none, true⟩ : Report)] else []) (Node.mk id ty false u parts, above) :=
              (counts_iff _ _).2 ⟨rfl, hrep _, hseen⟩
            by_cases ht : t = ty
            · subst ht
              simp only [List.lookup_cons, beq_self_eq_true, hl, List.mem_singleton]
              simp only [reduceCtorEq, false_or, true_and, Option.some.injEq]
              constructor
              · rintro rfl; exact ⟨_, rfl, hcnt, rfl, rfl⟩
              · rintro ⟨k, rfl, _, _, h⟩; exact h
            · rw [List.lookup_cons, show (t == ty) = false from beq_eq_false_iff_ne.2 ht]
              simp only [List.mem_singleton]
              constructor
              · exact .inl
              · rintro (h | ⟨_, k, rfl, _, h, _⟩)
                · exact h
                · exact absurd h.symm ht
          · intro pre k post he m
            cases pre with
            | nil =>
              simp only [List.nil_append, List.cons.injEq] at he
              obtain ⟨rfl, _⟩ := he
              simp only [List.not_mem_nil, false_and, exists_false, and_false, or_false]
              constructor
              · rintro ⟨fx, hr⟩; exact absurd ⟨m, fx, hr⟩ (hrep _)
              · rintro ⟨_, _, h⟩; rw [show (Node.mk id ty false u parts).ty = ty from rfl, hl] at h; exact absurd h (by simp)
            | cons y pre =>
              have := congrArg List.length he
              simp at this
        rw [Node.all]
        refine Step.append (L1 := [(Node.mk id ty false u parts, above)]) h1 h2 ?_ ?_ ?_
        · intro i hi
          simp [ids, Node.id] at hi
          subst hi
          exact hn'.1
        · intro k hk a ha
          simp at hk
          subst hk
          exact (hab' a (by simp [ha])).2
        · intro k _ a _
          exact hrep _
theorem parts_step (o b : Bool) (above : List (Node T)) : (ps : List (Node T)) → (c : Cache T) → (ids (allParts above ps)).Nodup →
    (∀ a ∈ above, a.isError = false ∧ a.id ∉ ids (allParts above ps)) →
    Step o c (checkParts o b ps c).1 (checkParts o b ps c).2 (allParts above ps)
  | [], c => by intro _ _; rw [allParts, checkParts]; exact Step.nil o c
  | p :: ps, c => by
    intro hn hab
    rw [allParts] at hn hab ⊢
    rw [ids_append, List.nodup_append] at hn
    rw [checkParts]
    have h1 := check_step o (!ps.isEmpty || !b) above p c hn.1 fun a ha => ⟨(hab a ha).1, fun h => (hab a ha).2 (by rw [ids_append]; simp [h])⟩
    have h2 := parts_step o (if (check o (!ps.isEmpty || !b) p c).1 then b else false) above ps (check o (!ps.isEmpty || !b) p c).2.1 hn.2.1
      fun a ha => ⟨(hab a ha).1, fun h => (hab a ha).2 (by rw [ids_append]; simp [h])⟩
    refine Step.append h1 h2 (fun i hi hj => hn.2.2 i hi i hj rfl) ?_ ?_
    · intro k hk a ha
      rcases (all_above above p k hk).2 a ha with h | h
      · exact fun hi => (hab a h).2 (by rw [ids_append]; simp [hi])
      · exact fun hi => hn.2.2 _ h _ hi rfl
    · intro k hk a ha
      refine h1.not_reported fun hi => ?_
      rcases (allParts_above above ps k hk).2 a ha with h | h
      · exact (hab a h).2 (by rw [ids_append]; simp [hi])
      · exact hn.2.2 _ hi _ h rfl
end

theorem top_step (o : Bool) : (ps : List (Node T)) → (c : Cache T) → (ids (allParts [] ps)).Nodup →
    Step o c (checkTop o ps c).1 (checkTop o ps c).2 (allParts [] ps)
  | [], c => by intro _; rw [allParts, checkTop]; exact Step.nil o c
  | p :: ps, c => by
    intro hn
    rw [allParts] at hn ⊢
    rw [ids_append, List.nodup_append] at hn
    rw [checkTop]
    have h1 := check_step o true [] p c hn.1 (by simp)
    have h2 := top_step o ps (check o true p c).2.1 hn.2.1
    refine Step.append h1 h2 (fun i hi hj => hn.2.2 i hi i hj rfl) ?_ ?_
    · intro k hk a ha
      rcases (all_above [] p k hk).2 a ha with h | h
      · simp at h
      · exact fun hi => hn.2.2 _ h _ hi rfl
    · intro k hk a ha
      refine h1.not_reported fun hi => ?_
      rcases (allParts_above [] ps k hk).2 a ha with h | h
      · simp at h
      · exact hn.2.2 _ hi _ h rfl

end Tsgolint.Duplicates
