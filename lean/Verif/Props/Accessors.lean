import Verif.Spec.Accessors
/-! # C67: related-getter-setter-pairs -/
namespace Tsgolint.Accessors
variable {T : Type}

theorem put_some {α : Type} (m : Names α) (n n' : String) (x y : α) : put m n x n' = some y ↔ (n' = n ∧ x = y) ∨ (n' ≠ n ∧ m n' = some y) := by
  unfold put
  split <;> simp_all

/-- Every pair has members of the class (or of the maps) with the same name. -/
theorem pairs_sound (ms : List (Member T)) (gs : Names (Getter T)) (ss : Names (Setter T)) (G : Getter T → Prop) (S : Setter T → Prop)
    (hg : ∀ n g, gs n = some g → g.name = n ∧ G g) (hs : ∀ n s, ss n = some s → s.name = n ∧ S s)
    (hmg : ∀ g, .getter g ∈ ms → g.type ≠ none → G g) (hms : ∀ s, .setter s ∈ ms → s.params.length = 1 → S s) :
    ∀ p ∈ pairs ms gs ss, p.1.name = p.2.name ∧ G p.1 ∧ S p.2 := by
  induction ms generalizing gs ss with
  | nil => simp [pairs]
  | cons m ms ih =>
    have hmg' : ∀ g, .getter g ∈ ms → g.type ≠ none → G g := fun g h => hmg g (List.mem_cons_of_mem _ h)
    have hms' : ∀ s, .setter s ∈ ms → s.params.length = 1 → S s := fun s h => hms s (List.mem_cons_of_mem _ h)
    cases m with
    | other => exact ih gs ss hg hs hmg' hms'
    | getter g =>
      simp only [pairs]
      split
      · exact ih gs ss hg hs hmg' hms'
      · next hty =>
        have hG := hmg g (by simp) (by simpa using hty)
        split
        · next s h =>
          intro p hp
          rcases List.mem_cons.1 hp with rfl | hp
          · exact ⟨(hs _ _ h).1.symm, hG, (hs _ _ h).2⟩
          · exact ih gs ss hg hs hmg' hms' p hp
        · refine ih _ _ ?_ hs hmg' hms'
          intro n g' h'
          rcases (put_some ..).1 h' with ⟨rfl, rfl⟩ | ⟨-, h'⟩
          · exact ⟨rfl, hG⟩
          · exact hg n g' h'
    | setter s =>
      simp only [pairs]
      split
      · exact ih gs ss hg hs hmg' hms'
      · next hty =>
        have hS := hms s (by simp) (by simpa using hty)
        split
        · next g h =>
          intro p hp
          rcases List.mem_cons.1 hp with rfl | hp
          · exact ⟨(hg _ _ h).1, (hg _ _ h).2, hS⟩
          · exact ih gs ss hg hs hmg' hms' p hp
        · refine ih _ _ hg ?_ hmg' hms'
          intro n s' h'
          rcases (put_some ..).1 h' with ⟨rfl, rfl⟩ | ⟨-, h'⟩
          · exact ⟨rfl, hS⟩
          · exact hs n s' h'

/-- With distinct names each pair is found. -/
theorem pairs_complete (ms : List (Member T)) (gs : Names (Getter T)) (ss : Names (Setter T)) (hd : Distinct ms)
    (hg : ∀ n g, gs n = some g → ∀ g', .getter g' ∈ ms → g'.name ≠ n)
    (hs : ∀ n s, ss n = some s → ∀ s', .setter s' ∈ ms → s'.name ≠ n) (g : Getter T) (s : Setter T) (hn : g.name = s.name)
    (hty : g.type ≠ none) (hpa : s.params.length = 1)
    (h : (.getter g ∈ ms ∧ .setter s ∈ ms) ∨ (gs g.name = some g ∧ .setter s ∈ ms) ∨ (.getter g ∈ ms ∧ ss s.name = some s)) :
    (g, s) ∈ pairs ms gs ss := by
  induction ms generalizing gs ss with
  | nil => simp at h
  | cons m ms ih =>
    obtain ⟨hd1, hd2⟩ := List.pairwise_cons.1 hd
    have hg' : ∀ n g, gs n = some g → ∀ g', .getter g' ∈ ms → g'.name ≠ n := fun n g h g' hm => hg n g h g' (List.mem_cons_of_mem _ hm)
    have hs' : ∀ n s, ss n = some s → ∀ s', .setter s' ∈ ms → s'.name ≠ n := fun n s h s' hm => hs n s h s' (List.mem_cons_of_mem _ hm)
    cases m with
    | other =>
      refine ih gs ss hd2 hg' hs' ?_
      simpa using h
    | getter g0 =>
      simp only [pairs]
      split
      · next hno =>
        have hne : g0 ≠ g := by rintro rfl; simp at hno; exact hty hno
        refine ih gs ss hd2 hg' hs' ?_
        simpa [hne.symm] using h
      · split
        · next s0 hs0 =>
          by_cases hne : g = g0
          · subst hne
            have hss : ss s.name = some s0 := by rw [← hn]; exact hs0
            rcases h with ⟨-, h⟩ | ⟨h1, -⟩ | ⟨-, h⟩
            · exact absurd rfl (hs _ _ hss s h)
            · exact absurd rfl (hg _ _ h1 g (by simp))
            · rw [hss] at h; cases h; simp
          · refine List.mem_cons_of_mem _ (ih gs ss hd2 hg' hs' ?_)
            simpa [hne] using h
        · next hs0 =>
          refine ih _ ss hd2 ?_ hs' ?_
          · intro n g1 h1 g2 h2
            rcases (put_some ..).1 h1 with ⟨rfl, rfl⟩ | ⟨-, h1⟩
            · exact Ne.symm (hd1 _ h2)
            · exact hg' n g1 h1 g2 h2
          · by_cases hne : g = g0
            · subst hne
              right; left
              refine ⟨by simp [put], ?_⟩
              rcases h with ⟨-, h⟩ | ⟨h1, -⟩ | ⟨-, h⟩
              · simpa using h
              · exact absurd rfl (hg _ _ h1 g (by simp))
              · rw [← hn, hs0] at h; cases h
            · rcases h with ⟨h1, h2⟩ | ⟨h1, h2⟩ | ⟨h1, h2⟩
              · left; exact ⟨by simpa [hne] using h1, by simpa using h2⟩
              · right; left
                refine ⟨?_, by simpa using h2⟩
                have : g0.name ≠ g.name := hg _ _ h1 g0 (by simp)
                exact (put_some ..).2 (.inr ⟨fun h => this h.symm, h1⟩)
              · right; right; exact ⟨by simpa [hne] using h1, h2⟩
    | setter s0 =>
      simp only [pairs]
      split
      · next hno =>
        have hne : s0 ≠ s := by rintro rfl; exact hno hpa
        refine ih gs ss hd2 hg' hs' ?_
        simpa [hne.symm] using h
      · split
        · next g0 hg0 =>
          by_cases hne : s = s0
          · subst hne
            have hgg : gs g.name = some g0 := by rw [hn]; exact hg0
            rcases h with ⟨h, -⟩ | ⟨h, -⟩ | ⟨-, h1⟩
            · exact absurd rfl (hg _ _ hgg g h)
            · rw [hgg] at h; cases h; simp
            · exact absurd rfl (hs _ _ h1 s (by simp))
          · refine List.mem_cons_of_mem _ (ih gs ss hd2 hg' hs' ?_)
            simpa [hne] using h
        · next hg0 =>
          refine ih gs _ hd2 hg' ?_ ?_
          · intro n s1 h1 s2 h2
            rcases (put_some ..).1 h1 with ⟨rfl, rfl⟩ | ⟨-, h1⟩
            · exact Ne.symm (hd1 _ h2)
            · exact hs' n s1 h1 s2 h2
          · by_cases hne : s = s0
            · subst hne
              right; right
              refine ⟨?_, by simp [put]⟩
              rcases h with ⟨h, -⟩ | ⟨h, -⟩ | ⟨-, h1⟩
              · simpa using h
              · rw [hn, hg0] at h; cases h
              · exact absurd rfl (hs _ _ h1 s (by simp))
            · rcases h with ⟨h1, h2⟩ | ⟨h1, h2⟩ | ⟨h1, h2⟩
              · left; exact ⟨by simpa using h1, by simpa [hne] using h2⟩
              · right; left; exact ⟨h1, by simpa [hne] using h2⟩
              · right; right
                refine ⟨by simpa using h1, ?_⟩
                have : s0.name ≠ s.name := hs _ _ h2 s0 (by simp)
                exact (put_some ..).2 (.inr ⟨fun h => this h.symm, h2⟩)

/-- C67 (sound).  A getter is reported only if it has a declared type and the class has a setter of the same name with one parameter to whose type it is
not assignable. -/
theorem C67_sound (assignable : T → T → Bool) (members : List (Member T)) (g : Getter T) (h : g ∈ report assignable members) :
    ∃ t s u, HasGetter members g t ∧ HasSetter members s u ∧ g.name = s.name ∧ assignable t u = false := by
  simp only [report, List.mem_map, List.mem_filter] at h
  obtain ⟨⟨g', s⟩, ⟨hp, hm⟩, rfl⟩ := h
  obtain ⟨hn, ⟨hg1, hg2⟩, hs1, hs2⟩ := pairs_sound members (fun _ => none) (fun _ => none) (fun g => .getter g ∈ members ∧ g.type ≠ none)
    (fun s => .setter s ∈ members ∧ s.params.length = 1) (by simp) (by simp) (fun g h1 h2 => ⟨h1, h2⟩) (fun s h1 h2 => ⟨h1, h2⟩) _ hp
  obtain ⟨t, ht⟩ := Option.ne_none_iff_exists'.1 hg2
  obtain ⟨u, hu⟩ := List.length_eq_one_iff.1 hs2
  simp only at ht hu
  exact ⟨t, s, u, ⟨hg1, ht⟩, ⟨hs1, hu⟩, hn, by simpa [mismatch, ht, hu] using hm⟩

/-- C67 (complete).  If no name is used for two getters or two setters, every getter whose type is not assignable to the parameter of its setter is
reported, in whatever order they are declared. -/
theorem C67_complete (assignable : T → T → Bool) (members : List (Member T)) (hd : Distinct members) (g : Getter T) (s : Setter T) (t u : T)
    (hg : HasGetter members g t) (hs : HasSetter members s u) (hn : g.name = s.name) (ha : assignable t u = false) : g ∈ report assignable members := by
  have := pairs_complete members (fun _ => none) (fun _ => none) hd (by simp) (by simp) g s hn (by simp [hg.2]) (by simp [hs.2]) (.inl ⟨hg.1, hs.1⟩)
  simp only [report, List.mem_map, List.mem_filter]
  exact ⟨(g, s), ⟨this, by simp [mismatch, hg.2, hs.2, ha]⟩, rfl⟩

/-! ## Cases -/

def le (a b : Nat) : Bool := decide (a ≤ b)
def members : List (Member Nat) := [.setter { name := "y", params := [0], id := 0 }, .getter { name := "x", type := some 2, id := 1 }, .other,
  .setter { name := "x", params := [1], id := 2 }, .getter { name := "y", type := some 0, id := 3 }]

example : (report le members).map (·.id) = [1] := by decide
example : Distinct members := by simp [Distinct, members]
example : HasGetter members { name := "x", type := some 2, id := 1 } 2 := ⟨by simp [members], rfl⟩

/-- C67 (finding).  Static and instance members are not told apart: with both kinds the static getter is never compared with the static setter, and the
instance getter is reported because of the static setter. -/
theorem C67_hazard_static :
    let sg : Getter Nat := { name := "x", type := some 2, isStatic := true, id := 0 }
    let ig : Getter Nat := { name := "x", type := some 1, id := 1 }
    let ss : Setter Nat := { name := "x", params := [0], isStatic := true, id := 2 }
    let is : Setter Nat := { name := "x", params := [1], id := 3 }
    report le [.getter sg, .getter ig, .setter ss, .setter is] = [ig] := by
  decide

end Tsgolint.Accessors
