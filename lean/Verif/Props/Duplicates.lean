import Verif.Proof.Duplicates
import Verif.Proof.Segments
/-! # C48: duplicate type constituents -/
namespace Tsgolint.Duplicates
open Tsgolint.Fixer (Fix Bytes Disjoint editAll Seg)
variable {T : Type} [DecidableEq T]

/-- C48 (exactness).  A constituent is reported as a duplicate of `m` exactly if it has a type, no group it is in is itself reported (or
without type), and `m` comes before it, has the same type, and is neither reported nor in a reported group. -/
theorem C48_exact (optional : Bool) (top : List (Node T)) (hd : Distinct top) (pre : List (Entry T)) (k : Entry T) (post : List (Entry T))
    (he : allParts [] top = pre ++ k :: post) (m : Nat) :
    (∃ fx, ⟨k.1.id, some m, fx⟩ ∈ checkDuplicate optional top) ↔
      Seen (checkDuplicate optional top) k ∧ k.1.isError = false ∧
        ∃ j ∈ pre, Counts (checkDuplicate optional top) j ∧ j.1.ty = k.1.ty ∧ j.1.id = m := by
  have := (top_step optional top [] hd).exact pre k post he m
  simpa [checkDuplicate] using this

/-- C48 (no others).  Reports are on constituents only. -/
theorem C48_only (optional : Bool) (top : List (Node T)) (hd : Distinct top) :
    ∀ r ∈ checkDuplicate optional top, ∃ k ∈ allParts [] top, k.1.id = r.node := by
  intro r hr
  have := (top_step optional top [] hd).mem r hr
  obtain ⟨k, hk, h⟩ := List.mem_map.1 this
  exact ⟨k, hk, h⟩

/-- C48 (what remains).  The constituents that count have pairwise different types. -/
theorem C48_distinct (optional : Bool) (top : List (Node T)) (hd : Distinct top) (pre mid post : List (Entry T)) (j k : Entry T)
    (he : allParts [] top = pre ++ j :: (mid ++ k :: post)) (hj : Counts (checkDuplicate optional top) j)
    (hk : Counts (checkDuplicate optional top) k) : j.1.ty ≠ k.1.ty := by
  intro ht
  rw [counts_iff] at hk
  have := (C48_exact optional top hd (pre ++ j :: mid) k post (by rw [he]; simp) j.1.id).2 ⟨hk.2.2, hk.1, j, by simp, hj, ht, rfl⟩
  exact hk.2.1 ⟨_, this⟩

/-- C48 (nothing lost).  Each constituent with a type that is not in a reported group has a counterpart of the same type that counts. -/
theorem C48_covered (optional : Bool) (top : List (Node T)) (hd : Distinct top) (k : Entry T) (hk : k ∈ allParts [] top)
    (hs : Seen (checkDuplicate optional top) k) (he : k.1.isError = false) :
    ∃ j ∈ allParts [] top, Counts (checkDuplicate optional top) j ∧ j.1.ty = k.1.ty := by
  by_cases hr : Reported (checkDuplicate optional top) k.1.id
  · obtain ⟨m, fx, hr⟩ := hr
    obtain ⟨pre, post, hsplit⟩ := List.append_of_mem hk
    obtain ⟨_, _, j, hj, hc, ht, _⟩ := (C48_exact optional top hd pre k post hsplit m).1 ⟨fx, hr⟩
    exact ⟨j, by rw [hsplit]; simp [hj], hc, ht⟩
  · exact ⟨k, hk, (counts_iff _ _).2 ⟨he, hr, hs⟩, rfl⟩

/-- C48 (unnecessary `undefined`).  Reported exactly in the type of an optional parameter, on constituents that count. -/
theorem C48_unnecessary (optional : Bool) (top : List (Node T)) (hd : Distinct top) (k : Entry T) (hk : k ∈ allParts [] top) (fx : Bool) :
    ⟨k.1.id, none, fx⟩ ∈ checkDuplicate optional top ↔
      optional = true ∧ fx = true ∧ Counts (checkDuplicate optional top) k ∧ k.1.isUndefined = true :=
  (top_step optional top [] hd).unneeded k hk fx

/-- C48 (first).  The first constituent is not reported as a duplicate. -/
theorem C48_first (optional : Bool) (p : Node T) (rest : List (Node T)) (hd : Distinct (p :: rest)) :
    ¬ Reported (checkDuplicate optional (p :: rest)) p.id := by
  rintro ⟨m, fx, hr⟩
  obtain ⟨id, ty, e, u, parts⟩ := p
  obtain ⟨_, _, j, hj, _⟩ := (C48_exact optional _ hd [] (.mk id ty e u parts, []) _ (by rw [allParts, Node.all]; rfl) m).1 ⟨fx, hr⟩
  simp at hj

/-! ## A group keeps a constituent -/

theorem ids_mem_part (above : List (Node T)) (ps : List (Node T)) : ∀ p ∈ ps, p.id ∈ ids (allParts above ps) := by
  induction ps with
  | nil => simp
  | cons q ps ih =>
    intro p hp
    rw [allParts, ids_append]
    rcases List.mem_cons.1 hp with rfl | hp
    · obtain ⟨id, ty, e, u, parts⟩ := p
      simp [ids, Node.all, Node.id]
    · simp [ih p hp]

theorem part_in (above : List (Node T)) (ps : List (Node T)) : ∀ p ∈ ps, ∃ k ∈ allParts above ps, k.1 = p := by
  induction ps with
  | nil => simp
  | cons q ps ih =>
    intro p hp
    rw [allParts]
    rcases List.mem_cons.1 hp with rfl | hp
    · obtain ⟨id, ty, e, u, parts⟩ := p
      exact ⟨(.mk id ty e u parts, above), by simp [Node.all], rfl⟩
    · obtain ⟨k, hk, h⟩ := ih p hp
      exact ⟨k, by simp [hk], h⟩

mutual
theorem check_mem (o w : Bool) (above : List (Node T)) : (n : Node T) → (c : Cache T) → ∀ r ∈ (check o w n c).2.2, r.node ∈ ids (n.all above)
  | .mk id ty e u parts, c => by
    intro r hr
    rw [check] at hr
    rw [Node.all, ids, List.map_cons]
    cases e with
    | true => simp at hr
    | false =>
      simp only [Bool.false_eq_true, if_false] at hr
      cases hl : c.lookup ty with
      | some prev => simp [hl] at hr; subst hr; simp [Node.id]
      | none =>
        simp only [hl, List.mem_append] at hr
        rcases hr with hr | hr
        · split at hr
          · simp at hr; subst hr; simp [Node.id]
          · simp at hr
        · exact List.mem_cons_of_mem _ (parts_mem o true _ parts _ r hr)
theorem parts_mem (o b : Bool) (above : List (Node T)) : (ps : List (Node T)) → (c : Cache T) → ∀ r ∈ (checkParts o b ps c).2, r.node ∈ ids (allParts above ps)
  | [], c => by simp [checkParts]
  | p :: ps, c => by
    intro r hr
    rw [checkParts] at hr
    rw [allParts, ids_append, List.mem_append]
    rcases List.mem_append.1 hr with hr | hr
    · exact .inl (check_mem o _ above p c r hr)
    · exact .inr (parts_mem o _ above ps _ r hr)
end

theorem top_mem (o : Bool) (ps : List (Node T)) (c : Cache T) : ∀ r ∈ (checkTop o ps c).2, r.node ∈ ids (allParts [] ps) := by
  induction ps generalizing c with
  | nil => simp [checkTop]
  | cons p ps ih =>
    intro r hr
    rw [checkTop] at hr
    rw [allParts, ids_append, List.mem_append]
    rcases List.mem_append.1 hr with hr | hr
    · exact .inl (check_mem o _ [] p c r hr)
    · exact .inr (ih _ r hr)

theorem id_mem (above : List (Node T)) (n : Node T) : n.id ∈ ids (n.all above) := by
  obtain ⟨id, ty, e, u, parts⟩ := n
  simp [ids, Node.all, Node.id]

/-- If a constituent is not removed it is not reported, and if it is, with the flag given. -/
theorem check_own (o w : Bool) (above : List (Node T)) (n : Node T) (c : Cache T) (hn : (ids (n.all above)).Nodup) (m : Nat) (fx : Bool)
    (h : ⟨n.id, some m, fx⟩ ∈ (check o w n c).2.2) : (check o w n c).1 = true ∧ fx = w := by
  obtain ⟨id, ty, e, u, parts⟩ := n
  rw [Node.all, ids, List.map_cons, List.nodup_cons] at hn
  rw [check] at h ⊢
  cases e with
  | true => simp at h
  | false =>
    simp only [Bool.false_eq_true, if_false] at h ⊢
    cases hl : c.lookup ty with
    | some prev => simp [hl] at h; exact ⟨rfl, h.2.2⟩
    | none =>
      simp only [hl, List.mem_append] at h
      rcases h with h | h
      · split at h <;> simp at h
      · exact absurd (parts_mem o true _ parts _ _ h) hn.1

theorem kept (o : Bool) (above : List (Node T)) (ps : List (Node T)) (c : Cache T) (hn : (ids (allParts above ps)).Nodup) (h0 : ps ≠ []) :
    ∃ p ∈ ps, ∀ m, ⟨p.id, some m, true⟩ ∉ (checkParts o true ps c).2 := by
  induction ps generalizing c with
  | nil => exact absurd rfl h0
  | cons p ps ih =>
    rw [allParts, ids_append, List.nodup_append] at hn
    have hout : ∀ b c' m fx, ⟨p.id, some m, fx⟩ ∉ (checkParts o b ps c').2 := fun b c' m fx h =>
      hn.2.2 _ (id_mem above p) _ (parts_mem o b above ps c' _ h) rfl
    rw [checkParts]
    cases hrm : (check o (!ps.isEmpty || !true) p c).1 with
    | false =>
      refine ⟨p, by simp, fun m hm => ?_⟩
      rcases List.mem_append.1 hm with hm | hm
      · have := check_own o _ above p c hn.1 m true hm
        rw [hrm] at this
        exact absurd this.1 (by simp)
      · exact hout _ _ _ _ hm
    | true =>
      cases hps : ps with
      | nil =>
        subst hps
        refine ⟨p, by simp, fun m hm => ?_⟩
        rcases List.mem_append.1 hm with hm | hm
        · have := check_own o _ above p c hn.1 m true hm
          simp at this
        · exact hout _ _ _ _ hm
      | cons q qs =>
        obtain ⟨x, hx, hk⟩ := ih (check o (!ps.isEmpty || !true) p c).2.1 hn.2.1 (by simp [hps])
        rw [hps] at hx hk hrm hn
        refine ⟨x, List.mem_cons_of_mem _ hx, fun m hm => ?_⟩
        rcases List.mem_append.1 hm with hm | hm
        · exact hn.2.2 _ (check_mem o _ above p c _ hm) _ (ids_mem_part above (q :: qs) x hx) rfl
        · simp only [hrm, if_true] at hm
          exact hk m hm

mutual
theorem kept_node (o w : Bool) (above : List (Node T)) : (n : Node T) → (c : Cache T) → (ids (n.all above)).Nodup →
    ∀ g ∈ n.all above, g.1.parts ≠ [] → ∃ p ∈ g.1.parts, ∀ m, ⟨p.id, some m, true⟩ ∉ (check o w n c).2.2
  | .mk id ty e u parts, c => by
    intro hn g hg h0
    rw [Node.all, ids, List.map_cons, List.nodup_cons] at hn
    have hgp : ∀ p ∈ g.1.parts, p.id ∈ ids (allParts (.mk id ty e u parts :: above) parts) := by
      rw [Node.all] at hg
      rcases List.mem_cons.1 hg with rfl | hg
      · exact ids_mem_part _ _
      · exact below_parts _ parts g hg
    rw [check]
    have hne : ∀ p ∈ g.1.parts, p.id ≠ id := fun p hp h => hn.1 (by rw [show (Node.mk id ty e u parts).id = p.id from h.symm]; exact hgp p hp)
    obtain ⟨p0, hp0⟩ := List.exists_mem_of_ne_nil _ h0
    cases e with
    | true => exact ⟨p0, hp0, by simp⟩
    | false =>
      simp only [Bool.false_eq_true, if_false]
      cases hl : c.lookup ty with
      | some prev => exact ⟨p0, hp0, fun m hm => by simp at hm; exact hne p0 hp0 hm.1⟩
      | none =>
        simp only
        have key : ∃ p ∈ g.1.parts, ∀ m, ⟨p.id, some m, true⟩ ∉ (checkParts o true parts ((ty, id) :: c)).2 := by
          rw [Node.all] at hg
          rcases List.mem_cons.1 hg with rfl | hg
          · exact kept o _ parts _ hn.2 h0
          · exact kept_parts o true _ parts _ hn.2 g hg h0
        obtain ⟨p, hp, hk⟩ := key
        refine ⟨p, hp, fun m hm => ?_⟩
        rcases List.mem_append.1 hm with hm | hm
        · split at hm <;> simp at hm
        · exact hk m hm
theorem kept_parts (o b : Bool) (above : List (Node T)) : (ps : List (Node T)) → (c : Cache T) → (ids (allParts above ps)).Nodup →
    ∀ g ∈ allParts above ps, g.1.parts ≠ [] → ∃ p ∈ g.1.parts, ∀ m, ⟨p.id, some m, true⟩ ∉ (checkParts o b ps c).2
  | [], c => by simp [allParts]
  | q :: ps, c => by
    intro hn g hg h0
    rw [allParts] at hg
    rw [allParts, ids_append, List.nodup_append] at hn
    rw [checkParts]
    rcases List.mem_append.1 hg with hg | hg
    · obtain ⟨p, hp, hk⟩ := kept_node o (!ps.isEmpty || !b) above q c hn.1 g hg h0
      refine ⟨p, hp, fun m hm => ?_⟩
      rcases List.mem_append.1 hm with hm | hm
      · exact hk m hm
      · exact hn.2.2 _ (below_node above q g hg p hp) _ (parts_mem o _ above ps _ _ hm) rfl
    · obtain ⟨p, hp, hk⟩ := kept_parts o (if (check o (!ps.isEmpty || !b) q c).1 then b else false) above ps (check o (!ps.isEmpty || !b) q c).2.1
        hn.2.1 g hg h0
      refine ⟨p, hp, fun m hm => ?_⟩
      rcases List.mem_append.1 hm with hm | hm
      · exact hn.2.2 _ (check_mem o _ above q c _ hm) _ (below_parts above ps g hg p hp) rfl
      · exact hk m hm
theorem below_node (above : List (Node T)) : (n : Node T) → ∀ g ∈ n.all above, ∀ p ∈ g.1.parts, p.id ∈ ids (n.all above)
  | .mk id ty e u parts => by
    intro g hg p hp
    rw [Node.all] at hg ⊢
    rw [ids, List.map_cons]
    refine List.mem_cons_of_mem _ ?_
    rcases List.mem_cons.1 hg with rfl | hg
    · exact ids_mem_part _ _ p hp
    · exact below_parts _ parts g hg p hp
theorem below_parts (above : List (Node T)) : (ps : List (Node T)) → ∀ g ∈ allParts above ps, ∀ p ∈ g.1.parts, p.id ∈ ids (allParts above ps)
  | [] => by simp [allParts]
  | q :: ps => by
    intro g hg p hp
    rw [allParts] at hg ⊢
    rw [ids_append, List.mem_append]
    rcases List.mem_append.1 hg with hg | hg
    · exact .inl (below_node above q g hg p hp)
    · exact .inr (below_parts above ps g hg p hp)
end

/-- C48 (fixes leave something).  In every group there is a constituent that no duplicate fix removes. -/
theorem C48_group_kept (optional : Bool) (top : List (Node T)) (hd : Distinct top) (g : Entry T) (hg : g ∈ allParts [] top)
    (h0 : g.1.parts ≠ []) : ∃ p ∈ g.1.parts, ∀ m, ⟨p.id, some m, true⟩ ∉ checkDuplicate optional top := by
  unfold checkDuplicate
  have key : ∀ (ps : List (Node T)) (c : Cache T), (ids (allParts [] ps)).Nodup → ∀ g ∈ allParts [] ps, g.1.parts ≠ [] →
      ∃ p ∈ g.1.parts, ∀ m, ⟨p.id, some m, true⟩ ∉ (checkTop optional ps c).2 := by
    intro ps
    induction ps with
    | nil => simp [allParts]
    | cons q ps ih =>
      intro c hn g hg h0
      rw [allParts] at hg
      rw [allParts, ids_append, List.nodup_append] at hn
      rw [checkTop]
      rcases List.mem_append.1 hg with hg | hg
      · obtain ⟨p, hp, hk⟩ := kept_node optional true [] q c hn.1 g hg h0
        refine ⟨p, hp, fun m hm => ?_⟩
        rcases List.mem_append.1 hm with hm | hm
        · exact hk m hm
        · exact hn.2.2 _ (below_node [] q g hg p hp) _ (top_mem optional ps _ _ hm) rfl
      · obtain ⟨p, hp, hk⟩ := ih (check optional true q c).2.1 hn.2.1 g hg h0
        refine ⟨p, hp, fun m hm => ?_⟩
        rcases List.mem_append.1 hm with hm | hm
        · exact hn.2.2 _ (check_mem optional _ [] q c _ hm) _ (below_parts [] ps g hg p hp) rfl
        · exact hk m hm
  exact key top [] hd g hg h0

/-! ## Meaning -/

section
variable {D : T → Prop} {gone : Nat → Prop}

mutual
theorem still_imp (above : List (Node T)) : (n : Node T) → (∀ k ∈ n.all above, k.1.parts ≠ [] → (D k.1.ty ↔ ∃ p ∈ k.1.parts, D p.ty)) →
    Still D gone n → D n.ty
  | .mk id ty e u parts => by
    intro hm h
    rw [Still] at h
    rcases h.2 with ⟨_, h⟩ | h
    · exact h
    · have hne : parts ≠ [] := by rintro rfl; exact h
      refine (hm (.mk id ty e u parts, above) (by simp [Node.all]) hne).2 ?_
      exact stillAny_imp (.mk id ty e u parts :: above) parts (fun k hk => hm k (by rw [Node.all]; simp [hk])) h
theorem stillAny_imp (above : List (Node T)) : (ps : List (Node T)) →
    (∀ k ∈ allParts above ps, k.1.parts ≠ [] → (D k.1.ty ↔ ∃ p ∈ k.1.parts, D p.ty)) → StillAny D gone ps → ∃ p ∈ ps, D p.ty
  | [] => by intro _ h; rw [StillAny] at h; exact h.elim
  | p :: ps => by
    intro hm h
    rw [StillAny] at h
    rcases h with h | h
    · exact ⟨p, by simp, still_imp above p (fun k hk => hm k (by rw [allParts]; simp [hk])) h⟩
    · obtain ⟨q, hq, hd⟩ := stillAny_imp above ps (fun k hk => hm k (by rw [allParts]; simp [hk])) h
      exact ⟨q, by simp [hq], hd⟩
theorem still_of (above : List (Node T)) : (n : Node T) → (∀ k ∈ n.all above, k.1.parts ≠ [] → (D k.1.ty ↔ ∃ p ∈ k.1.parts, D p.ty)) →
    (∀ i ∈ ids (n.all above), ¬ gone i) → D n.ty → Still D gone n
  | .mk id ty e u parts => by
    intro hm hg h
    rw [Still]
    refine ⟨hg id (by simp [ids, Node.all, Node.id]), ?_⟩
    by_cases hne : parts = []
    · exact .inl ⟨hne, h⟩
    · right
      obtain ⟨p, hp, hd⟩ := (hm (.mk id ty e u parts, above) (by simp [Node.all]) hne).1 h
      exact stillAny_of (.mk id ty e u parts :: above) parts (fun k hk => hm k (by rw [Node.all]; simp [hk]))
        (fun i hi => hg i (by rw [Node.all, ids, List.map_cons]; exact List.mem_cons_of_mem _ hi)) p hp hd
theorem stillAny_of (above : List (Node T)) : (ps : List (Node T)) →
    (∀ k ∈ allParts above ps, k.1.parts ≠ [] → (D k.1.ty ↔ ∃ p ∈ k.1.parts, D p.ty)) → (∀ i ∈ ids (allParts above ps), ¬ gone i) →
    ∀ p ∈ ps, D p.ty → StillAny D gone ps
  | [] => by simp
  | q :: ps => by
    intro hm hg p hp hd
    rw [StillAny]
    rw [allParts] at hm hg
    rw [ids_append] at hg
    rcases List.mem_cons.1 hp with he | hp
    · rw [he] at hd
      exact .inl (still_of above q (fun k hk => hm k (by simp [hk])) (fun i hi => hg i (by simp [hi])) hd)
    · exact .inr (stillAny_of above ps (fun k hk => hm k (by simp [hk])) (fun i hi => hg i (by simp [hi])) p hp hd)
end

theorem stillAny_mem (ps : List (Node T)) : StillAny D gone ps ↔ ∃ p ∈ ps, Still D gone p := by
  induction ps with
  | nil => simp [StillAny]
  | cons p ps ih => simp [StillAny, ih]

/-- What may be removed because of a list of reports. -/
def Removable (gone : Nat → Prop) (reps : List Report) (L : List (Entry T)) : Prop :=
  ∀ i ∈ ids L, gone i → Reported reps i ∨ ⟨i, none, true⟩ ∈ reps

mutual
theorem keeps (o w : Bool) (Q : Prop) (above : List (Node T)) : (n : Node T) → (c : Cache T) → (ids (n.all above)).Nodup →
    (∀ k ∈ n.all above, k.1.parts ≠ [] → (D k.1.ty ↔ ∃ p ∈ k.1.parts, D p.ty)) →
    (∀ k ∈ n.all above, ∀ a ∈ k.2, a.ty ≠ k.1.ty) →
    (o = true → ∀ k ∈ n.all above, k.1.isUndefined = true → D k.1.ty → Q) →
    Removable gone (check o w n c).2.2 (n.all above) →
    (∀ t m, c.lookup t = some m → (∀ a ∈ above, a.ty ≠ t) → D t → Q) →
    (Still D gone n → Q) →
    (D n.ty → Q) ∧ ∀ t m, (check o w n c).2.1.lookup t = some m → (∀ a ∈ above, a.ty ≠ t) → D t → Q
  | .mk id ty e u parts, c => by
    intro hn hm hab hu hrem hc hl
    have hown : (Node.mk id ty e u parts, above) ∈ (Node.mk id ty e u parts).all above := by simp [Node.all]
    have hn' := hn
    rw [Node.all, ids, List.map_cons, List.nodup_cons] at hn'
    rw [check] at hrem ⊢
    cases e with
    | true =>
      simp only [if_true] at hrem ⊢
      refine ⟨fun hd => hl (still_of above _ hm (fun i hi hg => ?_) hd), hc⟩
      rcases hrem i hi hg with ⟨_, _, h⟩ | h <;> simp at h
    | false =>
      simp only [Bool.false_eq_true, if_false] at hrem ⊢
      cases hlk : c.lookup ty with
      | some prev =>
        simp only [hlk] at hrem ⊢
        exact ⟨fun hd => hc ty prev hlk (fun a ha => hab _ hown a ha) hd, hc⟩
      | none =>
        simp only [hlk] at hrem ⊢
        have hm' : ∀ k ∈ allParts (.mk id ty false u parts :: above) parts, k.1.parts ≠ [] → (D k.1.ty ↔ ∃ p ∈ k.1.parts, D p.ty) :=
          fun k hk => hm k (by rw [Node.all]; simp [hk])
        -- `gone` applies to this node only as an unnecessary `undefined`
        have hgone : gone id → D ty → Q := by
          intro hg hd
          have hid : id ∈ ids ((Node.mk id ty false u parts).all above) := by simp [ids, Node.all, Node.id]
          have hmemp : ∀ r ∈ (checkParts o true parts ((ty, id) :: c)).2, r.node ≠ id := by
            intro r hr h
            exact hn'.1 (by rw [show (Node.mk id ty false u parts).id = r.node from h.symm]; exact parts_mem o true _ parts _ r hr)
          rcases hrem id hid hg with ⟨m, fx, h⟩ | h
          · rcases List.mem_append.1 h with h | h
            · split at h <;> simp at h
            · exact absurd rfl (hmemp _ h)
          · rcases List.mem_append.1 h with h | h
            · split at h
              · rename_i hou
                rw [Bool.and_eq_true] at hou
                exact hu hou.1 _ hown hou.2 hd
              · simp at h
            · exact absurd rfl (hmemp _ h)
        have hrem' : Removable gone (checkParts o true parts ((ty, id) :: c)).2 (allParts (.mk id ty false u parts :: above) parts) := by
          intro i hi hg
          have hne : i ≠ id := by rintro rfl; exact hn'.1 hi
          rcases hrem i (by rw [Node.all, ids, List.map_cons]; exact List.mem_cons_of_mem _ hi) hg with ⟨m, fx, h⟩ | h
          · rcases List.mem_append.1 h with h | h
            · split at h <;> simp at h
            · exact .inl ⟨m, fx, h⟩
          · rcases List.mem_append.1 h with h | h
            · split at h
              · simp at h; exact absurd h hne
              · simp at h
            · exact .inr h
        have hc' : ∀ t m, List.lookup t ((ty, id) :: c) = some m → (∀ a ∈ Node.mk id ty false u parts :: above, a.ty ≠ t) → D t → Q := by
          intro t m ht ha hd
          have hne : t ≠ ty := fun h => ha _ List.mem_cons_self h.symm
          rw [List.lookup_cons, beq_eq_false_iff_ne.2 hne] at ht
          exact hc t m ht (fun a h => ha a (by simp [h])) hd
        have hl' : StillAny D gone parts → Q := by
          intro hs
          by_cases hg : gone id
          · have hne : parts ≠ [] := by rintro rfl; exact hs
            exact hgone hg ((hm _ hown hne).2 (stillAny_imp _ parts hm' hs))
          · exact hl (by rw [Still]; exact ⟨hg, .inr hs⟩)
        obtain ⟨h1, h2⟩ := keepsParts o true Q (.mk id ty false u parts :: above) parts ((ty, id) :: c) hn'.2 hm'
          (fun k hk => hab k (by rw [Node.all]; simp [hk])) (fun ho k hk => hu ho k (by rw [Node.all]; simp [hk])) hrem' hc' hl'
        have hD : D ty → Q := by
          intro hd
          by_cases hg : gone id
          · exact hgone hg hd
          · by_cases hne : parts = []
            · exact hl (by rw [Still]; exact ⟨hg, .inl ⟨hne, hd⟩⟩)
            · obtain ⟨p, hp, hpd⟩ := (hm _ hown hne).1 hd
              exact h1 p hp hpd
        refine ⟨hD, fun t m ht ha hd => ?_⟩
        by_cases hte : t = ty
        · exact hD (hte ▸ hd)
        · refine h2 t m ht (fun a h => ?_) hd
          rcases List.mem_cons.1 h with rfl | h
          · exact fun h => hte h.symm
          · exact ha a h
theorem keepsParts (o b : Bool) (Q : Prop) (above : List (Node T)) : (ps : List (Node T)) → (c : Cache T) → (ids (allParts above ps)).Nodup →
    (∀ k ∈ allParts above ps, k.1.parts ≠ [] → (D k.1.ty ↔ ∃ p ∈ k.1.parts, D p.ty)) →
    (∀ k ∈ allParts above ps, ∀ a ∈ k.2, a.ty ≠ k.1.ty) →
    (o = true → ∀ k ∈ allParts above ps, k.1.isUndefined = true → D k.1.ty → Q) →
    Removable gone (checkParts o b ps c).2 (allParts above ps) →
    (∀ t m, c.lookup t = some m → (∀ a ∈ above, a.ty ≠ t) → D t → Q) →
    (StillAny D gone ps → Q) →
    (∀ p ∈ ps, D p.ty → Q) ∧ ∀ t m, (checkParts o b ps c).1.lookup t = some m → (∀ a ∈ above, a.ty ≠ t) → D t → Q
  | [], c => by
    intro _ _ _ _ _ hc _
    exact ⟨by simp, by rw [checkParts]; exact hc⟩
  | p :: ps, c => by
    intro hn hm hab hu hrem hc hl
    rw [allParts] at hn hm hab hu hrem
    rw [ids_append, List.nodup_append] at hn
    rw [checkParts] at hrem ⊢
    rw [StillAny] at hl
    have hrem1 : Removable gone (check o (!ps.isEmpty || !b) p c).2.2 (p.all above) := by
      intro i hi hg
      have hno : ∀ r ∈ (checkParts o (if (check o (!ps.isEmpty || !b) p c).1 then b else false) ps (check o (!ps.isEmpty || !b) p c).2.1).2, r.node ≠ i := by
        intro r hr h
        exact hn.2.2 i hi i (h ▸ parts_mem o _ above ps _ r hr) rfl
      rcases hrem i (by rw [ids_append]; simp [hi]) hg with ⟨m, fx, h⟩ | h
      · rcases List.mem_append.1 h with h | h
        · exact .inl ⟨m, fx, h⟩
        · exact absurd rfl (hno _ h)
      · rcases List.mem_append.1 h with h | h
        · exact .inr h
        · exact absurd rfl (hno _ h)
    have hrem2 : Removable gone (checkParts o (if (check o (!ps.isEmpty || !b) p c).1 then b else false) ps (check o (!ps.isEmpty || !b) p c).2.1).2
        (allParts above ps) := by
      intro i hi hg
      have hno : ∀ r ∈ (check o (!ps.isEmpty || !b) p c).2.2, r.node ≠ i := by
        intro r hr h
        exact hn.2.2 i (h ▸ check_mem o _ above p _ r hr) i hi rfl
      rcases hrem i (by rw [ids_append]; simp [hi]) hg with ⟨m, fx, h⟩ | h
      · rcases List.mem_append.1 h with h | h
        · exact absurd rfl (hno _ h)
        · exact .inl ⟨m, fx, h⟩
      · rcases List.mem_append.1 h with h | h
        · exact absurd rfl (hno _ h)
        · exact .inr h
    obtain ⟨h1, h2⟩ := keeps o (!ps.isEmpty || !b) Q above p c hn.1 (fun k hk => hm k (by simp [hk])) (fun k hk => hab k (by simp [hk]))
      (fun ho k hk => hu ho k (by simp [hk])) hrem1 hc (fun h => hl (.inl h))
    obtain ⟨h3, h4⟩ := keepsParts o (if (check o (!ps.isEmpty || !b) p c).1 then b else false) Q above ps (check o (!ps.isEmpty || !b) p c).2.1
      hn.2.1 (fun k hk => hm k (by simp [hk])) (fun k hk => hab k (by simp [hk])) (fun ho k hk => hu ho k (by simp [hk])) hrem2 h2
      (fun h => hl (.inr h))
    refine ⟨fun q hq => ?_, h4⟩
    rcases List.mem_cons.1 hq with rfl | hq
    · exact h1
    · exact h3 q hq
end
end

theorem keepsTop {D : T → Prop} {gone : Nat → Prop} (o : Bool) (Q : Prop) : (ps : List (Node T)) → (c : Cache T) → (ids (allParts [] ps)).Nodup →
    (∀ k ∈ allParts [] ps, k.1.parts ≠ [] → (D k.1.ty ↔ ∃ p ∈ k.1.parts, D p.ty)) →
    (∀ k ∈ allParts [] ps, ∀ a ∈ k.2, a.ty ≠ k.1.ty) →
    (o = true → ∀ k ∈ allParts [] ps, k.1.isUndefined = true → D k.1.ty → Q) →
    Removable gone (checkTop o ps c).2 (allParts [] ps) →
    (∀ t m, c.lookup t = some m → D t → Q) → (StillAny D gone ps → Q) → ∀ p ∈ ps, D p.ty → Q
  | [], c => by simp
  | p :: ps, c => by
    intro hn hm hab hu hrem hc hl
    rw [allParts] at hn hm hab hu hrem
    rw [ids_append, List.nodup_append] at hn
    rw [checkTop] at hrem
    rw [StillAny] at hl
    have hrem1 : Removable gone (check o true p c).2.2 (p.all []) := by
      intro i hi hg
      have hno : ∀ r ∈ (checkTop o ps (check o true p c).2.1).2, r.node ≠ i := by
        intro r hr h
        exact hn.2.2 i hi i (h ▸ top_mem o ps _ r hr) rfl
      rcases hrem i (by rw [ids_append]; simp [hi]) hg with ⟨m, fx, h⟩ | h
      · rcases List.mem_append.1 h with h | h
        · exact .inl ⟨m, fx, h⟩
        · exact absurd rfl (hno _ h)
      · rcases List.mem_append.1 h with h | h
        · exact .inr h
        · exact absurd rfl (hno _ h)
    have hrem2 : Removable gone (checkTop o ps (check o true p c).2.1).2 (allParts [] ps) := by
      intro i hi hg
      have hno : ∀ r ∈ (check o true p c).2.2, r.node ≠ i := by
        intro r hr h
        exact hn.2.2 i (h ▸ check_mem o _ [] p _ r hr) i hi rfl
      rcases hrem i (by rw [ids_append]; simp [hi]) hg with ⟨m, fx, h⟩ | h
      · rcases List.mem_append.1 h with h | h
        · exact absurd rfl (hno _ h)
        · exact .inl ⟨m, fx, h⟩
      · rcases List.mem_append.1 h with h | h
        · exact absurd rfl (hno _ h)
        · exact .inr h
    obtain ⟨h1, h2⟩ := keeps o true Q [] p c hn.1 (fun k hk => hm k (by simp [hk])) (fun k hk => hab k (by simp [hk]))
      (fun ho k hk => hu ho k (by simp [hk])) hrem1 (fun t m ht _ => hc t m ht) (fun h => hl (.inl h))
    have h3 := keepsTop o Q ps (check o true p c).2.1 hn.2.1 (fun k hk => hm k (by simp [hk])) (fun k hk => hab k (by simp [hk]))
      (fun ho k hk => hu ho k (by simp [hk])) hrem2 (fun t m ht => h2 t m ht (by simp)) (fun h => hl (.inr h))
    intro q hq
    rcases List.mem_cons.1 hq with rfl | hq
    · exact h1
    · exact h3 q hq

/-- C48 (meaning).  Take any value of a union (`D`: the types it is in) and remove any of the reported constituents: the value is in the
rest exactly if it was in the union, or it is `undefined` and the union is the type of an optional parameter (`Extra`) — provided no
group has the type of something in it (`C48_hazard` shows what happens otherwise). -/
theorem C48_union (optional : Bool) (top : List (Node T)) (hd : Distinct top) (D : T → Prop) (Extra : Prop) (hm : Meaning D top)
    (hu : ∀ k ∈ allParts [] top, k.1.isUndefined = true → D k.1.ty → Extra)
    (hab : ∀ k ∈ allParts [] top, ∀ a ∈ k.2, a.ty ≠ k.1.ty)
    (gone : Nat → Prop) (hg : ∀ i, gone i → ∃ r ∈ checkDuplicate optional top, r.node = i) :
    ((∃ p ∈ top, Still D gone p) ∨ (optional = true ∧ Extra)) ↔ ((∃ p ∈ top, D p.ty) ∨ (optional = true ∧ Extra)) := by
  constructor
  · rintro (h | h)
    · exact .inl (stillAny_imp [] top hm ((stillAny_mem top).2 h))
    · exact .inr h
  · rintro (⟨p, hp, h⟩ | h)
    · refine keepsTop (gone := gone) optional ((∃ p ∈ top, Still D gone p) ∨ (optional = true ∧ Extra)) top [] hd hm hab
        (fun ho k hk h1 h2 => .inr ⟨ho, hu k hk h1 h2⟩) ?_ (by simp) (fun h => .inl ((stillAny_mem top).1 h)) p hp h
      intro i hi hgi
      obtain ⟨⟨n, pv, fx⟩, hr, rfl⟩ := hg i hgi
      cases pv with
      | some m => exact .inl ⟨m, fx, hr⟩
      | none =>
        right
        obtain ⟨k, hk, hki⟩ := C48_only optional top hd _ hr
        simp only at hki
        subst hki
        have := (C48_unnecessary optional top hd k hk fx).1 hr
        rw [this.2.1] at hr
        exact hr
    · exact .inr h

mutual
theorem inAll_iff (In : T → Prop) (gone : Nat → Prop) : (n : Node T) → (InAll In gone n ↔ ¬ Still (fun t => ¬ In t) gone n)
  | .mk id ty e u parts => by
    rw [InAll, Still, inAllParts_iff In gone parts]
    by_cases h : gone id <;> by_cases h2 : parts = [] <;> simp [h, h2, StillAny]
theorem inAllParts_iff (In : T → Prop) (gone : Nat → Prop) : (ps : List (Node T)) → (InAllParts In gone ps ↔ ¬ StillAny (fun t => ¬ In t) gone ps)
  | [] => by simp [InAllParts, StillAny]
  | p :: ps => by rw [InAllParts, StillAny, inAll_iff In gone p, inAllParts_iff In gone ps, not_or]
end

/-- C48 (meaning, intersections).  A value is in an intersection exactly if it is in what remains of it. -/
theorem C48_intersection (top : List (Node T)) (hd : Distinct top) (In : T → Prop)
    (hm : ∀ n ∈ allParts [] top, n.1.parts ≠ [] → (In n.1.ty ↔ ∀ p ∈ n.1.parts, In p.ty))
    (hab : ∀ k ∈ allParts [] top, ∀ a ∈ k.2, a.ty ≠ k.1.ty)
    (gone : Nat → Prop) (hg : ∀ i, gone i → ∃ r ∈ checkDuplicate false top, r.node = i) :
    (∀ p ∈ top, InAll In gone p) ↔ ∀ p ∈ top, In p.ty := by
  have h := C48_union false top hd (fun t => ¬ In t) True
    (by intro n hn h0; have := hm n hn h0; simp only [this]; simp) (fun _ _ _ _ => trivial) hab gone hg
  simp only [Bool.false_eq_true, false_and, or_false] at h
  have h' := not_congr h
  simp only [not_exists, not_and] at h'
  constructor
  · intro ha p hp
    have := h'.1 (fun p hp => (inAll_iff In gone p).1 (ha p hp)) p hp
    exact Classical.not_not.1 this
  · intro ha p hp
    exact (inAll_iff In gone p).2 (h'.2 (fun p hp h => h (ha p hp)) p hp)

/-- C48 (finding).  `A | (never | B)`: the group has the type `B`, so `B` in it is reported as a duplicate of the group, with a fix that
leaves `A | (never)`: the values of `B` are lost. -/
theorem C48_hazard :
    let top : List (Node Nat) := [.mk 0 10 false false [], .mk 1 20 false false [.mk 2 30 false false [], .mk 3 20 false false []]]
    Distinct top ∧ checkDuplicate false top = [⟨3, some 1, true⟩] ∧ Meaning (· = 20) top ∧
      (∃ p ∈ top, p.ty = 20) ∧ ¬ ∃ p ∈ top, Still (· = 20) (· = 3) p := by
  refine ⟨show List.Nodup _ by decide, by decide, ?_, ⟨_, List.mem_cons_of_mem _ List.mem_cons_self, rfl⟩, ?_⟩
  · intro n hn h0
    simp only [allParts, Node.all, List.append_nil, List.cons_append, List.nil_append, List.mem_cons, List.not_mem_nil, or_false] at hn
    rcases hn with rfl | rfl | rfl | rfl
    · simp [Node.parts] at h0
    · simp [Node.parts, Node.ty]
    · simp [Node.parts] at h0
    · simp [Node.parts] at h0
  · rintro ⟨p, hp, h⟩
    simp only [List.mem_cons, List.not_mem_nil, or_false] at hp
    rcases hp with rfl | rfl <;> simp [Still, StillAny] at h

/-! ## The fix -/

theorem scanBefore_found (pos : Nat) (before rest : List Token) (sep : Token) (hb : ∀ t ∈ before, t.start < pos) (hs : sep.isSeparator = true)
    (hsp : sep.start < pos) (hr : ∀ t ∈ rest.head?, pos ≤ t.start) (f : Option Nat) (b : List Token) :
    scanBefore pos (before ++ sep :: rest) f b = (some sep.start, []) := by
  induction before generalizing f b with
  | nil =>
    simp only [List.nil_append, scanBefore, if_neg (Nat.not_le.2 hsp), hs, if_true]
    cases rest with
    | nil => rfl
    | cons t rest => simp [scanBefore, hr t (by simp)]
  | cons t before ih =>
    have ih := ih fun t ht => hb t (by simp [ht])
    simp only [List.cons_append, scanBefore, if_neg (Nat.not_le.2 (hb t (by simp)))]
    split
    · exact ih _ _
    · split <;> exact ih _ _

theorem scanBefore_none (pos : Nat) (tokens : List Token) (h : ∀ t ∈ tokens, t.start < pos → t.isSeparator = false) (b : List Token) :
    (scanBefore pos tokens none b).1 = none := by
  induction tokens generalizing b with
  | nil => rfl
  | cons t ts ih =>
    have ih := ih fun t ht => h t (by simp [ht])
    simp only [scanBefore]
    split
    · rfl
    · rename_i hlt
      rw [if_neg (by rw [h t (by simp) (Nat.not_le.1 hlt)]; simp)]
      split <;> exact ih _

/-- C48 (fix).  A constituent after a separator goes with that separator: `a | c z` becomes `a  z`. -/
theorem C48_fix_before (a ws c z : Bytes) (sepByte : UInt8) (before rest after : List Token) (sep : Token) (parentEnd : Nat)
    (hs : sep.isSeparator = true) (hpos : sep.start = a.length) (hb : ∀ t ∈ before, t.start ≤ a.length)
    (hr : ∀ t ∈ rest.head?, a.length + 1 ≤ t.start) :
    let site : Site := ⟨a.length + 1, (a ++ [sepByte] ++ ws).length, (a ++ [sepByte] ++ ws ++ c).length, parentEnd⟩
    ∃ fixes, fix site (before ++ sep :: rest) after = some fixes ∧ ∃ sorted, fixes.Perm sorted ∧ Disjoint sorted ∧
      editAll (a ++ [sepByte] ++ ws ++ c ++ z) sorted = a ++ ws ++ z := by
  intro site
  refine ⟨[⟨[], (a ++ [sepByte] ++ ws).length, (a ++ [sepByte] ++ ws ++ c).length⟩, ⟨[], a.length, (a.length : Int) + 1⟩], ?_, ?_⟩
  · unfold fix
    simp only [site]
    rw [scanBefore_found (a.length + 1) before rest sep (fun t ht => Nat.lt_succ_of_le (hb t ht)) hs (by omega) hr]
    simp [closing, hpos]
  · refine Seg.apply [.keep a, .sub [sepByte] [], .keep ws, .sub c [], .keep z] _ _ _ ?_ ?_ ?_
    · simp [Seg.old]
    · simp [Seg.new]
    · refine List.Perm.trans (List.Perm.swap _ _ _) (List.Perm.of_eq ?_)
      simp [Seg.edits]; omega

/-- C48 (fix).  A first constituent goes with the separator after it: `a c | z` becomes `a  z`. -/
theorem C48_fix_after (a c ws z : Bytes) (sepByte : UInt8) (pos : Nat) (tokens rest : List Token) (sep : Token) (parentEnd : Nat)
    (hs : sep.isSeparator = true) (hpos : sep.start = (a ++ c ++ ws).length) (hstop : sep.stop = sep.start + 1) (hend : sep.start < parentEnd)
    (hn : ∀ t ∈ tokens, t.start < pos → t.isSeparator = false) :
    let site : Site := ⟨pos, a.length, (a ++ c).length, parentEnd⟩
    ∃ fixes, fix site tokens (sep :: rest) = some fixes ∧ Disjoint fixes ∧ editAll (a ++ c ++ ws ++ [sepByte] ++ z) fixes = a ++ ws ++ z := by
  intro site
  have hf : fix site tokens (sep :: rest) = some [⟨[], a.length, (a ++ c).length⟩, removeToken sep] := by
    unfold fix
    have := scanBefore_none pos tokens hn []
    simp only [site]
    cases h : scanBefore pos tokens none [] with
    | mk f b =>
      rw [h] at this
      simp only at this
      subst this
      simp [scanAfter, Nat.not_le.2 hend, hs]
  refine ⟨_, hf, ?_⟩
  have he : [⟨[], (a.length : Int), (a ++ c).length⟩, removeToken sep] =
      Seg.edits 0 [.keep a, .sub c [], .keep ws, .sub [sepByte] [], .keep z] := by
    simp [Seg.edits, removeToken, hstop, hpos]; omega
  have h1 := Seg.disjoint [.keep a, .sub c [], .keep ws, .sub [sepByte] [], .keep z] 0
  have h2 := Seg.editAll [.keep a, .sub c [], .keep ws, .sub [sepByte] [], .keep z] []
  rw [he]
  refine ⟨h1, ?_⟩
  simpa [Seg.old, Seg.new] using h2

/-- C48 (finding).  If the scanner yields no separator before the constituent (it does not, after a template literal type, whose end it
takes for the beginning of another template) and none right after it, the fixer panics. -/
theorem C48_fix_panics (s : Site) (tokens after : List Token) (hn : ∀ t ∈ tokens, t.start < s.pos → t.isSeparator = false)
    (ha : ∀ t ∈ after.head?, t.start ≥ s.parentEnd ∨ (t.isSeparator = false ∧ t.kind ≠ .closeParen)) :
    fix s tokens after = none := by
  unfold fix
  have := scanBefore_none s.pos tokens hn []
  cases h : scanBefore s.pos tokens none [] with
  | mk f b =>
    rw [h] at this
    simp only at this
    subst this
    cases after with
    | nil => simp [scanAfter]
    | cons t ts =>
      rcases ha t (by simp) with h | ⟨h1, h2⟩
      · simp [scanAfter, h]
      · by_cases hp : t.start ≥ s.parentEnd
        · simp [scanAfter, hp]
        · simp [scanAfter, hp, h1, h2]

/-! ## Instances -/

/-- `A | (B | A) | B | (A | B)`: the `A` and `B` in and after the first group are reported, and the second group as a duplicate of the first. -/
def exTop : List (Node Nat) := [.mk 0 1 false false [], .mk 1 12 false false [.mk 2 2 false false [], .mk 3 1 false false []],
  .mk 4 2 false false [], .mk 5 12 false false [.mk 6 1 false false [], .mk 7 2 false false []]]

example : Distinct exTop := show List.Nodup _ by decide
example : checkDuplicate false exTop = [⟨3, some 0, true⟩, ⟨4, some 2, true⟩, ⟨5, some 1, true⟩] := by decide
/-- No group of it has the type of something in it, and it has a meaning for a value of type 1. -/
example : (∀ k ∈ allParts [] exTop, ∀ a ∈ k.2, a.ty ≠ k.1.ty) ∧ Meaning (fun t => t = 1 ∨ t = 12) exTop := by
  refine ⟨by decide, ?_⟩
  intro n hn h0
  simp only [exTop, allParts, Node.all, List.append_nil, List.cons_append, List.nil_append, List.mem_cons, List.not_mem_nil, or_false] at hn
  rcases hn with rfl | rfl | rfl | rfl | rfl | rfl | rfl | rfl <;> simp_all [Node.parts, Node.ty]

/-- `A | (A | A)`: in the group, only the first `A` gets a fix. -/
example : checkDuplicate false [.mk 0 2 false false [], .mk 1 1 false false [.mk 2 1 false false [], .mk 3 1 false false []]] =
    [⟨2, some 1, true⟩, ⟨3, some 1, false⟩] := by decide
/-- `(x?: string | undefined)` -/
example : checkDuplicate true [.mk 0 1 false false [], .mk 1 9 false true []] = [⟨1, none, true⟩] := by decide

end Tsgolint.Duplicates
