import Verif.Spec.UnsafePlaces
import Verif.Props.UnsafeAssignment
/-!
# C84: the places no-unsafe-assignment looks at
-/
namespace Tsgolint.UnsafePlaces
open UnsafeAssignment

theorem full_leaf [DecidableEq T] (E : Env T) (b : Bool) (v : Value T) (r : Receiver T) (n : Nat) (c : Comparison) :
    checkFull E b v r (.leaf n) c = alone (checkAssignment E b v r c) := by
  unfold checkFull
  cases checkAssignment E b v r c <;> rfl

/-- C84 (places).  A diagnostic about the assigned value appears exactly at a place where something is assigned that is unsafe there;
diagnostics about parts of a pattern appear exactly if the assignment as a whole is not reported, for the parts that take `any`. -/
theorem C84_places [DecidableEq T] (E : Env T) (newMap noImplicitThis : Bool) (p : Place T) (hj : Judges E newMap)
    (hh : ∀ v r t c, Assigns p v r t c → Honest E v) :
    (∀ d, (look E noImplicitThis p).1 = some d ↔ ∃ v r t c, Assigns p v r t c ∧ Unsafe E newMap noImplicitThis v r c d) ∧
    (∀ x, x ∈ (look E noImplicitThis p).2 ↔ ∃ v r pat c, Assigns p v r (some pat) c ∧ (∀ d, ¬ Unsafe E newMap noImplicitThis v r c d) ∧
      Reports E v.type pat x) := by
  -- a place without assignment
  have nothing : (∀ v r t c, ¬ Assigns p v r t c) → look E noImplicitThis p = alone none →
      (∀ d, (look E noImplicitThis p).1 = some d ↔ ∃ v r t c, Assigns p v r t c ∧ Unsafe E newMap noImplicitThis v r c d) ∧
      (∀ x, x ∈ (look E noImplicitThis p).2 ↔ ∃ v r pat c, Assigns p v r (some pat) c ∧ (∀ d, ¬ Unsafe E newMap noImplicitThis v r c d) ∧
        Reports E v.type pat x) := by
    intro h e
    rw [e]
    refine ⟨fun d => ⟨(fun h' => nomatch h'), ?_⟩, fun x => ⟨(fun h' => nomatch h'), ?_⟩⟩
    · rintro ⟨v, r, t, c, h', _⟩; exact absurd h' (h v r t c)
    · rintro ⟨v, r, t, c, h', _⟩; exact absurd h' (h v r _ c)
  -- a place without pattern
  have one : ∀ v r c, Assigns p v r none c → (∀ v' r' t' c', Assigns p v' r' t' c' → v' = v ∧ r' = r ∧ t' = none ∧ c' = c) →
      look E noImplicitThis p = alone (checkAssignment E noImplicitThis v r c) →
      (∀ d, (look E noImplicitThis p).1 = some d ↔ ∃ v r t c, Assigns p v r t c ∧ Unsafe E newMap noImplicitThis v r c d) ∧
      (∀ x, x ∈ (look E noImplicitThis p).2 ↔ ∃ v r pat c, Assigns p v r (some pat) c ∧ (∀ d, ¬ Unsafe E newMap noImplicitThis v r c d) ∧
        Reports E v.type pat x) := by
    intro v r c ha hu e
    have key := C84_assignment E newMap noImplicitThis v r c (hh _ _ _ _ ha) hj
    rw [e]
    refine ⟨fun d => ?_, fun x => ⟨(fun h' => nomatch h'), ?_⟩⟩
    · rw [show (alone (checkAssignment E noImplicitThis v r c)).1 = checkAssignment E noImplicitThis v r c from rfl, key d]
      constructor
      · intro h; exact ⟨v, r, none, c, ha, h⟩
      · rintro ⟨v', r', t', c', ha', h⟩
        obtain ⟨rfl, rfl, rfl, rfl⟩ := hu _ _ _ _ ha'
        exact h
    · rintro ⟨v', r', t', c', ha', _⟩
      exact nomatch (hu _ _ _ _ ha').2.2.1
  -- a place with a pattern
  have full : ∀ v r pat c, Assigns p v r (some pat) c → (∀ v' r' t' c', Assigns p v' r' t' c' → v' = v ∧ r' = r ∧ t' = some pat ∧ c' = c) →
      look E noImplicitThis p = checkFull E noImplicitThis v r pat c →
      (∀ d, (look E noImplicitThis p).1 = some d ↔ ∃ v r t c, Assigns p v r t c ∧ Unsafe E newMap noImplicitThis v r c d) ∧
      (∀ x, x ∈ (look E noImplicitThis p).2 ↔ ∃ v r pat c, Assigns p v r (some pat) c ∧ (∀ d, ¬ Unsafe E newMap noImplicitThis v r c d) ∧
        Reports E v.type pat x) := by
    intro v r pat c ha hu e
    have key := C84_assignment E newMap noImplicitThis v r c (hh _ _ _ _ ha) hj
    have hf := C84_full E noImplicitThis v r pat c
    have hnone : checkAssignment E noImplicitThis v r c = none ↔ ∀ d, ¬ Unsafe E newMap noImplicitThis v r c d := by
      constructor
      · intro h d hd; rw [← key d, h] at hd; exact nomatch hd
      · intro h
        cases hc : checkAssignment E noImplicitThis v r c with
        | none => rfl
        | some d => exact absurd ((key d).1 hc) (h d)
    rw [e]
    refine ⟨fun d => ?_, fun x => ?_⟩
    · rw [hf.1 d, key d]
      constructor
      · intro h; exact ⟨v, r, some pat, c, ha, h⟩
      · rintro ⟨v', r', t', c', ha', h⟩
        obtain ⟨rfl, rfl, rfl, rfl⟩ := hu _ _ _ _ ha'
        exact h
    · rw [hf.2 x, hnone]
      constructor
      · rintro ⟨h1, h2⟩; exact ⟨v, r, pat, c, ha, h1, h2⟩
      · rintro ⟨v', r', p', c', ha', h⟩
        obtain ⟨rfl, rfl, hp, rfl⟩ := hu _ _ _ _ ha'
        cases hp
        exact h
  match p with
  | .property false (some v) r => exact one v r .none .property (by intro _ _ _ _ h; cases h; exact ⟨rfl, rfl, rfl, rfl⟩) rfl
  | .property true (some v) r => exact one v r .basic .annotatedProperty (by intro _ _ _ _ h; cases h; exact ⟨rfl, rfl, rfl, rfl⟩) rfl
  | .property _ none _ => exact nothing (by intro _ _ _ _ h; cases h) rfl
  | .binary true v r q => exact full v r q .basic .binary (by intro _ _ _ _ h; cases h; exact ⟨rfl, rfl, rfl, rfl⟩) rfl
  | .binary false v r q => exact nothing (by intro _ _ _ _ h; cases h) rfl
  | .element (some v) r q => exact full v r q .basic .element (by intro _ _ _ _ h; cases h; exact ⟨rfl, rfl, rfl, rfl⟩) rfl
  | .element none _ _ => exact nothing (by intro _ _ _ _ h; cases h) rfl
  | .parameter a (some v) r q => exact full v r q .basic .parameter (by intro _ _ _ _ h; cases h; exact ⟨rfl, rfl, rfl, rfl⟩) rfl
  | .parameter _ none _ _ => exact nothing (by intro _ _ _ _ h; cases h) rfl
  | .shorthand (some v) r n =>
    exact one v r .basic .shorthand (by intro _ _ _ _ h; cases h; exact ⟨rfl, rfl, rfl, rfl⟩) (full_leaf E noImplicitThis v r n .basic)
  | .shorthand none _ _ => exact nothing (by intro _ _ _ _ h; cases h) rfl
  | .variable false (some v) r q => exact full v r q .none .variable (by intro _ _ _ _ h; cases h; exact ⟨rfl, rfl, rfl, rfl⟩) rfl
  | .variable true (some v) r q => exact full v r q .basic .annotatedVariable (by intro _ _ _ _ h; cases h; exact ⟨rfl, rfl, rfl, rfl⟩) rfl
  | .variable _ none _ _ => exact nothing (by intro _ _ _ _ h; cases h) rfl
  | .attribute (some v) r => exact one v r .contextual .attribute (by intro _ _ _ _ h; cases h; exact ⟨rfl, rfl, rfl, rfl⟩) rfl
  | .attribute none _ => exact nothing (by intro _ _ _ _ h; cases h) rfl
  | .other => exact nothing (by intro _ _ _ _ h; cases h) rfl

example : look sample true (.variable false (some (value 0)) ⟨2, none⟩ (.leaf 1)) = (some ⟨.anyAssignment, 0, 2, true⟩, []) := by decide
example : (look sample true (.binary true (value 3) ⟨3, none⟩ (.array 1 [.elem (.leaf 2)]))).2 = [⟨2, 0, .element⟩] := by decide
example : look sample true (.property true (some (value 6)) ⟨7, none⟩) = (some ⟨.unsafeAssignment, 6, 7, false⟩, []) := by decide
example : look sample true (.property false (some (value 6)) ⟨7, none⟩) = (none, []) := by decide
example : look sample true (.binary false (value 0) ⟨2, none⟩ (.leaf 1)) = (none, []) := by decide
example : ∀ v r t c, Assigns (.property true (some (value 6)) ⟨7, none⟩ : Place (Fin 8)) v r t c → Honest sample v := by
  intro v r t c h
  cases h
  exact ⟨by simp [value, Sender.skipParens], by simp [value, Sender.skipParens]⟩

end Tsgolint.UnsafePlaces
