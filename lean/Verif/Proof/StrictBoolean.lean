import Verif.Spec.StrictBoolean
/-! # Lemmas for C59 -/
namespace Tsgolint.StrictBoolean

/-- The nodes reached from a node through parentheses and logical operators. -/
def spine : Node → List Nat
  | .paren i e => i :: spine e
  | .logic i l r => i :: (spine l ++ spine r)
  | .cond i _ _ _ => [i]
  | .other i _ => [i]

def spineConds (c : Bool) : Node → List Nat
  | .paren _ e => spineConds c e
  | .logic _ l r => spineConds true l ++ spineConds c r
  | .cond i _ _ _ => if c then [i] else []
  | .other i _ => if c then [i] else []

mutual
def inner : Node → List Nat
  | .paren _ e => inner e
  | .logic _ l r => inner l ++ inner r
  | .cond _ b t a => inners b ++ (spineConds true t ++ inner t) ++ inners a
  | .other _ ks => inners ks

def inners : List Node → List Nat
  | [] => []
  | n :: ns => (spineConds false n ++ inner n) ++ inners ns
end

theorem spine_ids (n : Node) : spine n ⊆ ids n := by
  match n with
  | .paren i e => exact List.cons_subset_cons _ (spine_ids e)
  | .logic i l r =>
    refine List.cons_subset_cons _ (List.append_subset.2 ⟨fun a h => ?_, fun a h => ?_⟩)
    · exact List.mem_append_left _ (spine_ids l h)
    · exact List.mem_append_right _ (spine_ids r h)
  | .cond i b t a => simp [spine, ids]
  | .other i ks => simp [spine, ids]

theorem id_spine (n : Node) : n.id ∈ spine n := by cases n <;> simp [Node.id, spine]

theorem traverse_done (c : Bool) (n : Node) (s : St) (h : n.id ∈ s.traversed) : traverse c n s = s := by
  rw [traverse.eq_def]
  simp [h]

theorem traverse_fresh (c : Bool) (n : Node) (s : St) (hn : (ids n).Nodup) (hf : ∀ a ∈ spine n, a ∉ s.traversed) :
    (∀ a, a ∈ (traverse c n s).traversed ↔ a ∈ spine n ∨ a ∈ s.traversed) ∧
    (∀ a, (traverse c n s).checked.count a = s.checked.count a + (spineConds c n).count a) := by
  have hid : (List.contains s.traversed n.id) = false := by
    have := hf _ (id_spine n)
    simpa using this
  match n with
  | .paren i e =>
    rw [traverse.eq_def]
    simp only [hid, Bool.false_eq_true, if_false]
    have hn' := List.nodup_cons.1 hn
    obtain ⟨h1, h2⟩ := traverse_fresh c e { s with traversed := i :: s.traversed } hn'.2 (by
      intro a ha hm
      rcases List.mem_cons.1 hm with rfl | hm
      · exact hn'.1 (spine_ids e ha)
      · exact hf a (List.mem_cons_of_mem _ ha) hm)
    refine ⟨fun a => ?_, fun a => ?_⟩
    · simp only [Node.id, h1, spine, List.mem_cons, ← or_assoc]
      constructor <;> rintro ((h | h) | h) <;> simp [h]
    · simpa [Node.id, spineConds] using h2 a
  | .logic i l r =>
    rw [traverse.eq_def]
    simp only [hid, Bool.false_eq_true, if_false]
    have hn' := List.nodup_cons.1 hn
    obtain ⟨hl, hr, hd⟩ := List.nodup_append.1 hn'.2
    obtain ⟨h1, h2⟩ := traverse_fresh true l { s with traversed := i :: s.traversed } hl (by
      intro a ha hm
      rcases List.mem_cons.1 hm with rfl | hm
      · exact hn'.1 (List.mem_append_left _ (spine_ids l ha))
      · exact hf a (List.mem_cons_of_mem _ (List.mem_append_left _ ha)) hm)
    obtain ⟨h3, h4⟩ := traverse_fresh c r (traverse true l { s with traversed := i :: s.traversed }) hr (by
      intro a ha hm
      rcases (h1 a).1 hm with hm | hm
      · exact hd a (spine_ids l hm) a (spine_ids r ha) rfl
      rcases List.mem_cons.1 hm with rfl | hm
      · exact hn'.1 (List.mem_append_right _ (spine_ids r ha))
      · exact hf a (List.mem_cons_of_mem _ (List.mem_append_right _ ha)) hm)
    refine ⟨fun a => ?_, fun a => ?_⟩
    · simp only [Node.id, h3, h1, spine, List.mem_cons, List.mem_append]
      constructor
      · rintro (h | h | h | h) <;> simp [h]
      · rintro ((h | h | h) | h) <;> simp [h]
    · have e1 := h2 a
      have e2 := h4 a
      simp only [Node.id, spineConds, List.count_append] at e1 e2 ⊢
      omega
  | .cond i b t a =>
    rw [traverse.eq_def]
    simp only [hid, Bool.false_eq_true, if_false]
    cases c <;> simp [Node.id, spine, spineConds, List.count_cons]
  | .other i ks =>
    rw [traverse.eq_def]
    simp only [hid, Bool.false_eq_true, if_false]
    cases c <;> simp [Node.id, spine, spineConds, List.count_cons]

/-- What a visit does, if the node's spine was traversed before (`done`) or nothing of it was. -/
def Visited (done : Bool) (n : Node) (s s' : St) : Prop :=
  (∀ a, a ∉ ids n → (a ∈ s'.traversed ↔ a ∈ s.traversed)) ∧
  (∀ a, s'.checked.count a = s.checked.count a + ((if done then 0 else (spineConds false n).count a) + (inner n).count a))

def Status (done : Bool) (n : Node) (s : St) : Prop :=
  ∀ a ∈ ids n, a ∈ s.traversed ↔ (done = true ∧ a ∈ spine n)

mutual
theorem visit_spec (n : Node) (done : Bool) (s : St) (hn : (ids n).Nodup) (hs : Status done n s) : Visited done n s (visit n s) := by
  match n with
  | .paren i e =>
    have hn' := List.nodup_cons.1 hn
    have h := visit_spec e done s hn'.2 (by
      intro a ha
      rw [hs a (List.mem_cons_of_mem _ ha)]
      have : a ≠ i := fun h => hn'.1 (h ▸ ha)
      simp [spine, this])
    rw [visit]
    refine ⟨fun a ha => h.1 a (fun h' => ha (List.mem_cons_of_mem _ h')), fun a => ?_⟩
    simpa [listen, inner, spineConds] using h.2 a
  | .logic i l r =>
    have hn' := List.nodup_cons.1 hn
    obtain ⟨hl, hr, hd⟩ := List.nodup_append.1 hn'.2
    -- after the listener, both sides have been traversed
    have key : ∃ s1, listen (.logic i l r) s = s1 ∧ Status true l s1 ∧ Status true r s1 ∧
        (∀ a, a ∉ ids (.logic i l r) → (a ∈ s1.traversed ↔ a ∈ s.traversed)) ∧
        (∀ a, s1.checked.count a = s.checked.count a + (if done then 0 else (spineConds false (.logic i l r)).count a)) := by
      cases done with
      | true =>
        have hil : l.id ∈ s.traversed := (hs _ (List.mem_cons_of_mem _ (List.mem_append_left _ (spine_ids _ (id_spine l))))).2
          ⟨rfl, List.mem_cons_of_mem _ (List.mem_append_left _ (id_spine l))⟩
        have hir : r.id ∈ s.traversed := (hs _ (List.mem_cons_of_mem _ (List.mem_append_right _ (spine_ids _ (id_spine r))))).2
          ⟨rfl, List.mem_cons_of_mem _ (List.mem_append_right _ (id_spine r))⟩
        refine ⟨s, ?_, ?_, ?_, fun a _ => Iff.rfl, fun a => by simp⟩
        · rw [listen, traverse_done true l s hil, traverse_done false r s hir]
        · intro a ha
          rw [hs a (List.mem_cons_of_mem _ (List.mem_append_left _ ha))]
          have h1 : a ≠ i := fun h => hn'.1 (h ▸ List.mem_append_left _ ha)
          have h2 : a ∉ spine r := fun h => hd a ha a (spine_ids r h) rfl
          simp [spine, h1, h2]
        · intro a ha
          rw [hs a (List.mem_cons_of_mem _ (List.mem_append_right _ ha))]
          have h1 : a ≠ i := fun h => hn'.1 (h ▸ List.mem_append_right _ ha)
          have h2 : a ∉ spine l := fun h => hd a (spine_ids l h) a ha rfl
          simp [spine, h1, h2]
      | false =>
        have fresh : ∀ a ∈ ids (.logic i l r), a ∉ s.traversed := by
          intro a ha hm
          simpa using (hs a ha).1 hm
        obtain ⟨h1, h2⟩ := traverse_fresh true l s hl (fun a ha =>
          fresh a (List.mem_cons_of_mem _ (List.mem_append_left _ (spine_ids l ha))))
        obtain ⟨h3, h4⟩ := traverse_fresh false r (traverse true l s) hr (by
          intro a ha hm
          rcases (h1 a).1 hm with hm | hm
          · exact hd a (spine_ids l hm) a (spine_ids r ha) rfl
          · exact fresh a (List.mem_cons_of_mem _ (List.mem_append_right _ (spine_ids r ha))) hm)
        refine ⟨_, rfl, ?_, ?_, ?_, ?_⟩
        · intro a ha
          have f1 := fresh a (List.mem_cons_of_mem _ (List.mem_append_left _ ha))
          have h2 : a ∉ spine r := fun h => hd a ha a (spine_ids r h) rfl
          simp [listen, h3, h1, f1, h2]
        · intro a ha
          have f1 := fresh a (List.mem_cons_of_mem _ (List.mem_append_right _ ha))
          have h2 : a ∉ spine l := fun h => hd a (spine_ids l h) a ha rfl
          simp [listen, h3, h1, f1, h2]
        · intro a ha
          have f1 : a ∉ spine l := fun h => ha (List.mem_cons_of_mem _ (List.mem_append_left _ (spine_ids l h)))
          have f2 : a ∉ spine r := fun h => ha (List.mem_cons_of_mem _ (List.mem_append_right _ (spine_ids r h)))
          simp [listen, h3, h1, f1, f2]
        · intro a
          have e1 := h2 a
          have e2 := h4 a
          simp only [listen, spineConds, List.count_append, Bool.false_eq_true, if_false] at e1 e2 ⊢
          omega
    obtain ⟨s1, e1, sl, sr, k1, k2⟩ := key
    have v1 := visit_spec l true s1 hl sl
    have v2 := visit_spec r true (visit l s1) hr (by
      intro a ha
      rw [v1.1 a (fun h => hd a h a ha rfl)]
      exact sr a ha)
    rw [visit, e1]
    refine ⟨fun a ha => ?_, fun a => ?_⟩
    · rw [v2.1 a (fun h => ha (List.mem_cons_of_mem _ (List.mem_append_right _ h))),
        v1.1 a (fun h => ha (List.mem_cons_of_mem _ (List.mem_append_left _ h))), k1 a ha]
    · have x1 := v1.2 a
      have x2 := v2.2 a
      have x3 := k2 a
      simp only [if_true, inner, List.count_append] at x1 x2 x3 ⊢
      omega
  | .cond i b t af =>
    have hn' := List.nodup_cons.1 hn
    obtain ⟨hbt, ha, hd2⟩ := List.nodup_append.1 hn'.2
    obtain ⟨hb, ht, hd1⟩ := List.nodup_append.1 hbt
    have sub_b : ∀ a ∈ idss b, a ∈ ids (.cond i b t af) := fun a h => List.mem_cons_of_mem _ (List.mem_append_left _ (List.mem_append_left _ h))
    have sub_t : ∀ a ∈ ids t, a ∈ ids (.cond i b t af) := fun a h => List.mem_cons_of_mem _ (List.mem_append_left _ (List.mem_append_right _ h))
    have sub_a : ∀ a ∈ idss af, a ∈ ids (.cond i b t af) := fun a h => List.mem_cons_of_mem _ (List.mem_append_right _ h)
    have fresh : ∀ a ∈ idss b ++ ids t ++ idss af, a ∉ s.traversed := by
      intro a ha' hm
      have := ((hs a (List.mem_cons_of_mem _ ha')).1 hm).2
      simp only [spine, List.mem_singleton] at this
      exact hn'.1 (this ▸ ha')
    have f_t : ∀ a ∈ ids t, a ∉ s.traversed := fun a h => fresh a (List.mem_append_left _ (List.mem_append_right _ h))
    have f_b : ∀ a ∈ idss b, a ∉ s.traversed := fun a h => fresh a (List.mem_append_left _ (List.mem_append_left _ h))
    have f_a : ∀ a ∈ idss af, a ∉ s.traversed := fun a h => fresh a (List.mem_append_right _ h)
    obtain ⟨h1, h2⟩ := traverse_fresh true t s ht (fun a h => f_t a (spine_ids t h))
    have v1 := visits_spec b (traverse true t s) hb (by
      intro a h hm
      rcases (h1 a).1 hm with hm | hm
      · exact hd1 a h a (spine_ids t hm) rfl
      · exact f_b a h hm)
    have v2 := visit_spec t true (visits b (traverse true t s)) ht (by
      intro a h
      rw [v1.1 a (fun h' => hd1 a h' a h rfl), h1]
      simp [f_t a h])
    have v3 := visits_spec af (visit t (visits b (traverse true t s))) ha (by
      intro a h hm
      have nb : a ∉ idss b := fun h' => hd2 a (List.mem_append_left _ h') a h rfl
      have nt : a ∉ ids t := fun h' => hd2 a (List.mem_append_right _ h') a h rfl
      rw [v2.1 a nt, v1.1 a nb, h1] at hm
      rcases hm with hm | hm
      · exact nt (spine_ids t hm)
      · exact f_a a h hm)
    rw [visit]
    simp only [listen]
    refine ⟨fun a h => ?_, fun a => ?_⟩
    · have na : a ∉ spine t := fun h' => h (sub_t a (spine_ids t h'))
      rw [v3.1 a (fun h' => h (sub_a a h')), v2.1 a (fun h' => h (sub_t a h')), v1.1 a (fun h' => h (sub_b a h')), h1]
      simp [na]
    · have x0 := h2 a
      have x1 := v1.2 a
      have x2 := v2.2 a
      have x3 := v3.2 a
      have : (if done = true then 0 else List.count a (spineConds false (.cond i b t af))) = 0 := by
        cases done <;> simp [spineConds]
      simp only [if_true, inner, List.count_append] at x0 x1 x2 x3 ⊢
      omega
  | .other i ks =>
    have hn' := List.nodup_cons.1 hn
    have v := visits_spec ks s hn'.2 (by
      intro a h hm
      have := ((hs a (List.mem_cons_of_mem _ h)).1 hm).2
      simp only [spine, List.mem_singleton] at this
      exact hn'.1 (this ▸ h))
    rw [visit]
    simp only [listen]
    refine ⟨fun a h => v.1 a (fun h' => h (List.mem_cons_of_mem _ h')), fun a => ?_⟩
    have x := v.2 a
    have : (if done = true then 0 else List.count a (spineConds false (.other i ks))) = 0 := by
      cases done <;> simp [spineConds]
    simp only [inner] at x ⊢
    omega

theorem visits_spec (ns : List Node) (s : St) (hn : (idss ns).Nodup) (hf : ∀ a ∈ idss ns, a ∉ s.traversed) :
    (∀ a, a ∉ idss ns → (a ∈ (visits ns s).traversed ↔ a ∈ s.traversed)) ∧
    (∀ a, (visits ns s).checked.count a = s.checked.count a + (inners ns).count a) := by
  match ns with
  | [] => simp [visits, inners]
  | n :: ns =>
    obtain ⟨h1, h2, hd⟩ := List.nodup_append.1 hn
    have v := visit_spec n false s h1 (fun a ha => by simp [hf a (List.mem_append_left _ ha)])
    have vs := visits_spec ns (visit n s) h2 (by
      intro a ha hm
      rw [v.1 a (fun h => hd a h a ha rfl)] at hm
      exact hf a (List.mem_append_right _ ha) hm)
    rw [visits]
    refine ⟨fun a ha => ?_, fun a => ?_⟩
    · rw [vs.1 a (fun h => ha (List.mem_append_right _ h)), v.1 a (fun h => ha (List.mem_append_left _ h))]
    · have x1 := v.2 a
      have x2 := vs.2 a
      simp only [inners, List.count_append, Bool.false_eq_true, if_false] at x1 x2 ⊢
      omega
end

theorem spineConds_count (c : Bool) (n : Node) (a : Nat) : (spineConds c n).count a ≤ (spine n).count a := by
  match n with
  | .paren i e =>
    have := spineConds_count c e a
    simp only [spineConds, spine, List.count_cons]; omega
  | .logic i l r =>
    have h1 := spineConds_count true l a
    have h2 := spineConds_count c r a
    simp only [spineConds, spine, List.count_cons, List.count_append]; omega
  | .cond i b t af => cases c <;> simp [spineConds, spine]
  | .other i ks => cases c <;> simp [spineConds, spine]

mutual
theorem inner_count (n : Node) (a : Nat) : (spine n).count a + (inner n).count a ≤ (ids n).count a := by
  match n with
  | .paren i e =>
    have := inner_count e a
    simp only [spine, inner, ids, List.count_cons]; omega
  | .logic i l r =>
    have h1 := inner_count l a
    have h2 := inner_count r a
    simp only [spine, inner, ids, List.count_cons, List.count_append]; omega
  | .cond i b t af =>
    have h1 := inner_count t a
    have h2 := spineConds_count true t a
    have h3 := inners_count b a
    have h4 := inners_count af a
    simp only [spine, inner, ids, List.count_cons, List.count_append, List.count_nil]; omega
  | .other i ks =>
    have h3 := inners_count ks a
    simp only [spine, inner, ids, List.count_cons, List.count_nil]; omega

theorem inners_count (ns : List Node) (a : Nat) : (inners ns).count a ≤ (idss ns).count a := by
  match ns with
  | [] => simp [inners, idss]
  | n :: ns =>
    have h1 := inner_count n a
    have h2 := spineConds_count false n a
    have h3 := inners_count ns a
    simp only [inners, idss, List.count_append]; omega
end

theorem At.trans {root c₀ n c} {m : Node} {d : Bool} (h : At root c₀ n c) (h' : At n c m d) : At root c₀ m d := by
  induction h' with
  | root => exact h
  | paren _ ih => exact .paren ih
  | left _ ih => exact .left ih
  | right _ ih => exact .right ih
  | test _ ih => exact .test ih
  | before _ hm ih => exact .before ih hm
  | after _ hm ih => exact .after ih hm
  | kid _ hm ih => exact .kid ih hm

theorem spineConds_at (c : Bool) (n : Node) (a : Nat) (h : a ∈ spineConds c n) : ∃ m, At n c m true ∧ Atom m ∧ m.id = a := by
  match n with
  | .paren i e =>
    obtain ⟨m, h1, h2⟩ := spineConds_at c e a h
    exact ⟨m, (At.paren .root).trans h1, h2⟩
  | .logic i l r =>
    rcases List.mem_append.1 h with h | h
    · obtain ⟨m, h1, h2⟩ := spineConds_at true l a h
      exact ⟨m, (At.left .root).trans h1, h2⟩
    · obtain ⟨m, h1, h2⟩ := spineConds_at c r a h
      exact ⟨m, (At.right .root).trans h1, h2⟩
  | .cond i b t af =>
    cases c with
    | false => simp [spineConds] at h
    | true =>
      simp only [spineConds, if_true, List.mem_singleton] at h
      exact ⟨_, .root, .cond, h.symm⟩
  | .other i ks =>
    cases c with
    | false => simp [spineConds] at h
    | true =>
      simp only [spineConds, if_true, List.mem_singleton] at h
      exact ⟨_, .root, .other, h.symm⟩

mutual
theorem inner_at (c : Bool) (n : Node) (a : Nat) (h : a ∈ inner n) : ∃ m, At n c m true ∧ Atom m ∧ m.id = a := by
  match n with
  | .paren i e =>
    rw [inner] at h
    obtain ⟨m, h1, h2⟩ := inner_at c e a h
    exact ⟨m, (At.paren .root).trans h1, h2⟩
  | .logic i l r =>
    rw [inner] at h
    rcases List.mem_append.1 h with h | h
    · obtain ⟨m, h1, h2⟩ := inner_at true l a h
      exact ⟨m, (At.left .root).trans h1, h2⟩
    · obtain ⟨m, h1, h2⟩ := inner_at c r a h
      exact ⟨m, (At.right .root).trans h1, h2⟩
  | .cond i b t af =>
    rw [inner] at h
    simp only [List.mem_append] at h
    rcases h with (h | h | h) | h
    · obtain ⟨k, hk, m, h1, h2⟩ := inners_at b a h
      exact ⟨m, (At.before .root hk).trans h1, h2⟩
    · obtain ⟨m, h1, h2⟩ := spineConds_at true t a h
      exact ⟨m, (At.test .root).trans h1, h2⟩
    · obtain ⟨m, h1, h2⟩ := inner_at true t a h
      exact ⟨m, (At.test .root).trans h1, h2⟩
    · obtain ⟨k, hk, m, h1, h2⟩ := inners_at af a h
      exact ⟨m, (At.after .root hk).trans h1, h2⟩
  | .other i ks =>
    rw [inner] at h
    obtain ⟨k, hk, m, h1, h2⟩ := inners_at ks a h
    exact ⟨m, (At.kid .root hk).trans h1, h2⟩

theorem inners_at (ns : List Node) (a : Nat) (h : a ∈ inners ns) : ∃ n ∈ ns, ∃ m, At n false m true ∧ Atom m ∧ m.id = a := by
  match ns with
  | [] => simp [inners] at h
  | n :: ns =>
    rw [inners] at h
    simp only [List.mem_append] at h
    rcases h with (h | h) | h
    · exact ⟨n, List.mem_cons_self .., spineConds_at false n a h⟩
    · exact ⟨n, List.mem_cons_self .., inner_at false n a h⟩
    · obtain ⟨k, hk, h'⟩ := inners_at ns a h
      exact ⟨k, List.mem_cons_of_mem _ hk, h'⟩
end

theorem inners_mem {ns : List Node} {n : Node} (h : n ∈ ns) : spineConds false n ⊆ inners ns ∧ inner n ⊆ inners ns := by
  induction ns with
  | nil => cases h
  | cons k ks ih =>
    rw [inners]
    rcases List.mem_cons.1 h with rfl | h
    · exact ⟨fun a ha => List.mem_append_left _ (List.mem_append_left _ ha), fun a ha => List.mem_append_left _ (List.mem_append_right _ ha)⟩
    · exact ⟨fun a ha => List.mem_append_right _ ((ih h).1 ha), fun a ha => List.mem_append_right _ ((ih h).2 ha)⟩

/-- Everything at and below a position is in the lists of the root. -/
theorem at_lists {root : Node} {c₀ : Bool} {n : Node} {c : Bool} (h : At root c₀ n c) :
    ∀ a, a ∈ spineConds c n ++ inner n → a ∈ spineConds c₀ root ++ inner root := by
  induction h with
  | root => exact fun a h => h
  | paren _ ih => intro a h; exact ih a (by simpa [spineConds, inner] using h)
  | left _ ih =>
    intro a h
    apply ih
    simp only [spineConds, inner, List.mem_append] at h ⊢
    rcases h with h | h <;> simp [h]
  | right _ ih =>
    intro a h
    apply ih
    simp only [spineConds, inner, List.mem_append] at h ⊢
    rcases h with h | h <;> simp [h]
  | test _ ih =>
    intro a h
    apply ih
    simp only [inner, List.mem_append] at h ⊢
    rcases h with h | h <;> simp [h]
  | before _ hm ih =>
    intro a h
    apply ih
    have := inners_mem hm
    simp only [inner, List.mem_append] at h ⊢
    rcases h with h | h
    · simp [this.1 h]
    · simp [this.2 h]
  | after _ hm ih =>
    intro a h
    apply ih
    have := inners_mem hm
    simp only [inner, List.mem_append] at h ⊢
    rcases h with h | h
    · simp [this.1 h]
    · simp [this.2 h]
  | kid _ hm ih =>
    intro a h
    apply ih
    have := inners_mem hm
    simp only [inner, List.mem_append] at h ⊢
    rcases h with h | h
    · simp [this.1 h]
    · simp [this.2 h]

/-! ## Analysis of types -/

def Prim (v : Variant) : Prop := v = .boolean ∨ v = .number ∨ v = .string ∨ v = .bigint
instance (v : Variant) : Decidable (Prim v) := by unfold Prim; infer_instance

structure AccInv (ps : List PartInfo) (a : Acc) : Prop where
  nodup : a.variants.Nodup
  mem : ∀ v, v ∈ a.variants ↔ ∃ p ∈ ps, p.variant = v
  nullable : a.isNullable = true ↔ ∃ p ∈ ps, p.variant = .nullish
  enum : a.isEnum = true ↔ ∃ p ∈ ps, p.isEnum = true
  met : a.metNotTruthy = true ↔ ∃ p ∈ ps, Prim p.variant ∧ p.isTruthy = false
  truthy : a.isTruthy = true ↔ (∃ p ∈ ps, Prim p.variant) ∧ a.metNotTruthy = false

theorem AccInv.step {ps : List PartInfo} {a : Acc} (h : AccInv ps a) (p : PartInfo) : AccInv (ps ++ [p]) (a.step p) := by
  obtain ⟨nodup, mem, nullable, enum, met, truthy⟩ := h
  obtain ⟨vs, nl, en, tr, me⟩ := a
  obtain ⟨v, pt, pe⟩ := p
  simp only at nodup mem nullable enum met truthy
  have fields : Acc.step ⟨vs, nl, en, tr, me⟩ ⟨v, pt, pe⟩ =
      ⟨if vs.contains v then vs else v :: vs, nl || decide (v = .nullish), en || pe,
        if Prim v ∧ me = false then pt else tr, if Prim v ∧ me = false then !pt else me⟩ := by
    unfold Acc.step Prim
    by_cases h1 : v = .nullish
    · subst h1
      cases pe <;> simp
    · cases pe <;> simp only [h1, Bool.false_eq_true, if_false, if_true, decide_false, Bool.or_false, Bool.or_true] <;>
        (by_cases h2 : v = .boolean ∨ v = .number ∨ v = .string ∨ v = .bigint
         · cases me <;> simp [h2]
         · simp [h2])
  rw [fields]
  refine ⟨?_, ?_, ?_, ?_, ?_, ?_⟩
  · simp only
    by_cases hc : vs.contains v = true
    · rw [if_pos hc]; exact nodup
    · rw [if_neg hc]
      exact List.nodup_cons.2 ⟨by simpa using hc, nodup⟩
  · intro w
    simp only
    have e : (∃ p ∈ ps ++ [⟨v, pt, pe⟩], p.variant = w) ↔ w ∈ vs ∨ v = w := by
      rw [mem w]; simp [or_and_right, exists_or]
    rw [e]
    by_cases hc : vs.contains v = true
    · rw [if_pos hc]
      constructor
      · exact .inl
      · rintro (h | rfl)
        · exact h
        · simpa using hc
    · rw [if_neg hc, List.mem_cons]
      constructor
      · rintro (rfl | h)
        · exact .inr rfl
        · exact .inl h
      · rintro (h | rfl)
        · exact .inr h
        · exact .inl rfl
  · simp only [Bool.or_eq_true, decide_eq_true_eq, nullable]
    simp [or_and_right, exists_or]
  · simp only [Bool.or_eq_true, enum]
    simp [or_and_right, exists_or]
  · simp only
    have e : (∃ p ∈ ps ++ [⟨v, pt, pe⟩], Prim p.variant ∧ p.isTruthy = false) ↔ me = true ∨ (Prim v ∧ pt = false) := by
      rw [met]; simp [or_and_right, exists_or]
    rw [e]
    by_cases hp : Prim v <;> cases me <;> cases pt <;> simp [hp]
  · simp only
    have e : (∃ p ∈ ps ++ [⟨v, pt, pe⟩], Prim p.variant) ↔ (∃ p ∈ ps, Prim p.variant) ∨ Prim v := by
      simp [or_and_right, exists_or]
    rw [e]
    by_cases hp : Prim v <;> cases me <;> cases pt <;> simp [hp, truthy]

theorem foldl_inv (qs ps : List PartInfo) (a : Acc) (h : AccInv ps a) : AccInv (ps ++ qs) (qs.foldl Acc.step a) := by
  induction qs generalizing ps a with
  | nil => simpa using h
  | cons q qs ih =>
    have := ih _ _ (h.step q)
    simpa using this

theorem acc_inv (ps : List PartInfo) : AccInv ps (ps.foldl Acc.step {}) := by
  have := foldl_inv ps [] {} ⟨List.nodup_nil, by simp, by simp, by simp, by simp, by simp⟩
  simpa using this

theorem pick_iff (vs : List Variant) (nl : Bool) (hn : vs.Nodup) (hnl : nl = true ↔ Variant.nullish ∈ vs) (v : Variant)
    (h1 : v ≠ .nullish) (h2 : v ≠ .mixed) : pick vs nl = v ↔ v ∈ vs ∧ ∀ w ∈ vs, w = v ∨ w = .nullish := by
  match vs with
  | [] => simpa [pick] using fun h => h2 h.symm
  | [x] =>
    simp only [pick, List.mem_singleton, forall_eq]
    constructor
    · rintro rfl; simp
    · rintro ⟨rfl, _⟩; rfl
  | [x, y] =>
    have hxy : x ≠ y := by simpa using hn
    unfold pick
    simp only [List.mem_cons, List.not_mem_nil, or_false, forall_eq_or_imp, forall_eq] at hnl ⊢
    cases nl with
    | true =>
      have := hnl.1 rfl
      by_cases hx : x = .nullish
      · subst hx
        simp only [ne_eq, not_true_eq_false, if_true, if_false]
        constructor
        · rintro rfl; simp
        · rintro ⟨rfl | rfl, h⟩
          · exact absurd rfl h1
          · rfl
      · have hy : y = .nullish := by
          rcases this with h | h
          · exact absurd h.symm hx
          · exact h.symm
        subst hy
        simp only [ne_eq, hx, not_false_eq_true, if_true]
        constructor
        · rintro rfl; simp
        · rintro ⟨rfl | rfl, h⟩
          · rfl
          · exact absurd rfl h1
    | false =>
      have hn : ¬(Variant.nullish = x ∨ Variant.nullish = y) := fun h => by simpa using hnl.2 h
      simp only [Bool.false_eq_true, if_false]
      constructor
      · intro h; exact absurd h.symm h2
      · rintro ⟨h, h', h''⟩
        exfalso
        rcases h' with rfl | rfl
        · rcases h'' with rfl | rfl
          · exact hxy rfl
          · exact hn (.inr rfl)
        · exact hn (.inl rfl)
  | x :: y :: z :: rest =>
    have hn' : x ≠ y ∧ x ≠ z ∧ y ≠ z := by
      simp only [List.nodup_cons, List.mem_cons, not_or] at hn
      exact ⟨hn.1.1, hn.1.2.1, hn.2.1.1⟩
    have : pick (x :: y :: z :: rest) nl = .mixed := rfl
    rw [this]
    constructor
    · intro h; exact absurd h.symm h2
    · rintro ⟨-, h⟩
      exfalso
      have hx := h x (by simp)
      have hy := h y (by simp)
      have hz := h z (by simp)
      rcases hx with rfl | rfl <;> rcases hy with rfl | rfl <;> rcases hz with rfl | rfl <;> simp_all

theorem pick_nullish (vs : List Variant) (nl : Bool) (hn : vs.Nodup) :
    pick vs nl = .nullish ↔ Variant.nullish ∈ vs ∧ ∀ w ∈ vs, w = .nullish := by
  match vs with
  | [] => simp [pick]
  | [x] => simp [pick]; exact fun h => h.symm
  | [x, y] =>
    have hxy : x ≠ y := by simpa using hn
    simp only [List.mem_cons, List.not_mem_nil, or_false, forall_eq_or_imp, forall_eq]
    have : ¬(x = .nullish ∧ y = .nullish) := fun h => hxy (h.1.trans h.2.symm)
    unfold pick
    cases nl <;> simp only [Bool.false_eq_true, if_false, if_true]
    · simp [this]
    · by_cases hx : x = .nullish
      · subst hx; simp
      · simp [hx]
  | x :: y :: z :: rest =>
    have : pick (x :: y :: z :: rest) nl = .mixed := rfl
    rw [this]
    simp only [List.nodup_cons, List.mem_cons, not_or] at hn
    simp only [reduceCtorEq, false_iff]
    rintro ⟨-, h⟩
    exact hn.1.1 ((h x (by simp)).trans (h y (by simp)).symm)

theorem leaf_values (f : Flags) (hok : f.Ok) (he : f.enum = false) (v : Val) (hv : f.Has v) :
    ((analyzeLeaf f).variant = .nullish → v = .nullish) ∧
    ((analyzeLeaf f).variant = .boolean → ∃ b, v = .bool b ∧ ((analyzeLeaf f).isTruthy = true → b = true)) ∧
    ((analyzeLeaf f).variant = .string → ∃ b, v = .string b ∧ ((analyzeLeaf f).isTruthy = true → b = false)) ∧
    ((analyzeLeaf f).variant = .number → ∃ b, v = .number b ∧ ((analyzeLeaf f).isTruthy = true → b = false)) ∧
    ((analyzeLeaf f).variant = .bigint → ∃ b, v = .bigint b ∧ ((analyzeLeaf f).isTruthy = true → b = false)) ∧
    ((analyzeLeaf f).variant = .object → v = .object) ∧ (analyzeLeaf f).variant ≠ .never ∧ (analyzeLeaf f).variant ≠ .mixed := by
  obtain ⟨one, two⟩ := hok
  obtain ⟨tp, an, un, ne, nu, bo, en, sl, st, nm, bi, sy, ob, tr, tl⟩ := f
  simp only at he
  subst he
  simp only [Flags.Kinds, Bool.false_or, List.pairwise_cons, List.mem_cons, List.not_mem_nil, or_false, forall_eq_or_imp, forall_eq,
    List.Pairwise.nil, and_true, Bool.or_eq_true] at one two
  cases hv with
  | nullish h => simp only at h; subst h; simp_all [analyzeLeaf]
  | boolean b h h' => simp only at h h'; subst h; simp_all [analyzeLeaf]
  | enumString e h => simp at h
  | enumNumber e h => simp at h
  | string b h h' => simp only at h h'; subst h; simp_all [analyzeLeaf]
  | number b h h' => simp only at h h'; subst h; simp_all [analyzeLeaf]
  | bigint b h h' => simp only at h h'; subst h; simp_all [analyzeLeaf]
  | symbol h => simp only at h; subst h; simp_all [analyzeLeaf]
  | object h => simp only at h; subst h; simp_all [analyzeLeaf]
  | top v h => simp only at h; rcases h with rfl | rfl | rfl <;> simp_all [analyzeLeaf]

theorem anyBoolean_iff (ts : List Ty) : anyBoolean ts = true ↔ ∃ t ∈ ts, (analyzePart t).variant = .boolean := by
  induction ts with
  | nil => simp [anyBoolean]
  | cons t ts ih =>
    rw [anyBoolean]
    by_cases h : (analyzePart t).variant = .boolean <;> simp [h, ih]

/-- A value of a boolean part is a boolean. -/
theorem boolean_values (t : Ty) (hok : t.Ok) (v : Val) (hv : t.Has v) (h : (analyzePart t).variant = .boolean) :
    ∃ b, v = .bool b ∧ ((analyzePart t).isTruthy = true → b = true) := by
  match t with
  | .leaf f =>
    rw [analyzePart] at h ⊢
    cases hok with
    | leaf hok =>
      cases hv with
      | leaf hv =>
        cases he : f.enum with
        | false => exact (leaf_values f hok he v hv).2.1 h
        | true =>
          exfalso
          have hb : f.boolean = false := by
            cases hb : f.boolean with
            | false => rfl
            | true =>
              obtain ⟨one, -⟩ := hok
              simp [Flags.Kinds, he, hb] at one
          obtain ⟨tp, an, un, ne, nu, bo, en, sl, st, nm, bi, sy, ob, tr, tl⟩ := f
          simp only at he hb
          subst he hb
          revert h
          simp only [analyzeLeaf, Bool.false_eq_true, if_false, if_true]
          cases tp <;> cases an <;> cases un <;> cases ne <;> cases nu <;> cases sl <;> simp
  | .inter ts =>
    rw [analyzePart] at h ⊢
    have hb : anyBoolean ts = true := by
      cases hb : anyBoolean ts with
      | true => rfl
      | false => simp [hb] at h
    obtain ⟨t, ht, hbt⟩ := (anyBoolean_iff ts).1 hb
    cases hok with
    | inter hok =>
      cases hv with
      | inter hv =>
        obtain ⟨b, hb, -⟩ := boolean_values t (hok t ht) v (hv t ht) hbt
        exact ⟨b, hb, by simp⟩
termination_by sizeOf t

theorem enum_of (f : Flags) (hok : f.Ok) (h : (analyzeLeaf f).isEnum = false) : f.enum = false := by
  cases he : f.enum with
  | false => rfl
  | true =>
    obtain ⟨one, -⟩ := hok
    obtain ⟨tp, an, un, ne, nu, bo, en, sl, st, nm, bi, sy, ob, tr, tl⟩ := f
    simp only at he
    subst he
    simp only [Flags.Kinds, Bool.true_or, List.pairwise_cons, List.mem_cons, List.not_mem_nil, or_false, forall_eq_or_imp, forall_eq,
      List.Pairwise.nil, and_true] at one
    simp_all [analyzeLeaf]

/-- The values of a part, by its class. -/
theorem part_values (t : Ty) (hok : t.Ok) (he : (analyzePart t).isEnum = false) (v : Val) (hv : t.Has v) :
    ((analyzePart t).variant = .nullish → v = .nullish) ∧
    ((analyzePart t).variant = .boolean → ∃ b, v = .bool b ∧ ((analyzePart t).isTruthy = true → b = true)) ∧
    ((analyzePart t).variant = .string → ∃ b, v = .string b ∧ ((analyzePart t).isTruthy = true → b = false)) ∧
    ((analyzePart t).variant = .number → ∃ b, v = .number b ∧ ((analyzePart t).isTruthy = true → b = false)) ∧
    ((analyzePart t).variant = .bigint → ∃ b, v = .bigint b ∧ ((analyzePart t).isTruthy = true → b = false)) ∧
    ((analyzePart t).variant = .object → (∃ f, t = .leaf f) → v = .object) ∧ (analyzePart t).variant ≠ .never ∧
    (analyzePart t).variant ≠ .mixed := by
  match t with
  | .leaf f =>
    cases hok with
    | leaf hok =>
      cases hv with
      | leaf hv =>
        simp only [analyzePart] at he ⊢
        obtain ⟨h1, h2, h3, h4, h5, h6, h7⟩ := leaf_values f hok (enum_of f hok he) v hv
        exact ⟨h1, h2, h3, h4, h5, fun h _ => h6 h, h7⟩
  | .inter ts =>
    refine ⟨?_, boolean_values _ hok v hv, ?_, ?_, ?_, ?_, ?_, ?_⟩ <;>
      (simp only [analyzePart]; cases anyBoolean ts <;> simp)

theorem analyze_spec (parts : List Ty) : AccInv (parts.map analyzePart) ((parts.map analyzePart).foldl Acc.step {}) := acc_inv _

end Tsgolint.StrictBoolean
