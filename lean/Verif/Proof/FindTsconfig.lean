import Verif.Spec.FindTsconfig
import Verif.Props.Bfs
namespace Tsgolint.FindTsconfig
open Tsgolint.Bfs

theorem matchesFile_iff (e : Env) (h : PathsOk e) (f : String) : matchesFile e f = true ↔ e.toPath f = e.path := by
  unfold matchesFile
  have h1 := h.same f
  have h2 := h.base f
  cases hs : e.sameName f e.path
  · simp only [Bool.false_eq_true, ↓reduceIte]
    cases hb : e.sameName (e.base f) (e.base e.path)
    · simp; intro hp; rw [h2 hp] at hb; cases hb
    · simp
  · simp [h1 hs]

theorem stops_iff (e : Env) (h : PathsOk e) (n : String) : Stops (visit e) n ↔ Includes e n := by
  unfold Stops visit Includes
  cases hc : e.config n with
  | none => simp
  | some c =>
    simp only [Option.some.injEq, exists_eq_left']
    by_cases h0 : c.fileNames.length = 0
    · have : c.fileNames = [] := List.length_eq_zero_iff.1 h0
      simp [this]
    · simp only [h0, ↓reduceIte]
      cases hco : c.composite <;> cases hpm : c.possiblyMatches <;> simp [matchesFile_iff e h]

theorem not_fallback (e : Env) (n : String) : ¬ IsFallback (visit e) n := by
  unfold IsFallback visit
  split
  · simp
  · split
    · simp
    · split
      · simp
      · split <;> simp

theorem refs_step {e : Env} {a b b' : String} {d : Nat} (h : Refs e a d b) (hm : b' ∈ neighbors e b) : Refs e a (d + 1) b' := by
  unfold neighbors at hm
  cases hc : e.config b with
  | none => simp [hc] at hm
  | some c =>
    simp only [hc] at hm
    split at hm
    · exact .step h hc ‹_› hm
    · simp at hm

theorem walk_refs {e : Env} {old : List String} {a b : String} {d : Nat} (h : Walk (neighbors e) old a d b) : Refs e a d b := by
  induction h with
  | start _ => exact .self
  | step _ hm _ ih => exact refs_step ih hm

/-- Every visited config was examined in vain and all it references was visited too. -/
def Closed (e : Env) (V : List String) : Prop := (∀ n ∈ V, ¬ Stops (visit e) n) ∧ ∀ n ∈ V, ∀ m ∈ neighbors e n, m ∈ V

/-- A reference chain to a config that includes the file cannot touch configs examined in vain. -/
theorem refs_walk {e : Env} {V : List String} (hV : Closed e V) {a b : String} {d : Nat} (h : Refs e a d b) :
    b ∈ V ∨ Walk (neighbors e) V a d b := by
  induction h with
  | self =>
    by_cases ha : a ∈ V
    · exact Or.inl ha
    · exact Or.inr (.start ha)
  | @step d b b' c _ hc hr hm ih =>
    have hn : b' ∈ neighbors e b := by simp [neighbors, hc, hr, hm]
    rcases ih with h | h
    · exact Or.inl (hV.2 b h b' hn)
    · by_cases hb : b' ∈ V
      · exact Or.inl hb
      · exact Or.inr (.step h hn hb)

theorem closed_extend {e : Env} {V : List String} (hV : Closed e V) {a : String} {fuel : Nat}
    {r : Result String × List String} (h : bfs fuel a (neighbors e) (visit e) V = some r) (hs : r.1.stopped = false) :
    Closed e r.2 ∧ (∀ n ∈ r.2, n ∈ V ∨ ∃ d, Refs e a d n) ∧ (∀ n d, Refs e a d n → n ∈ r.2) ∧ r.1.path = [] := by
  obtain ⟨trace, ht, hmem, hf⟩ := C14_fallback _ _ _ _ _ _ h hs
  have hns : ∀ n d, Walk (neighbors e) V a d n → ¬ Stops (visit e) n := by
    intro n d hw hn
    rw [(C14_stops_iff _ _ _ _ _ _ h).2 ⟨n, d, hw, hn⟩] at hs
    cases hs
  have hreach : ∀ n d, Refs e a d n → n ∈ r.2 := by
    intro n d hr
    rw [ht, List.mem_append]
    rcases refs_walk hV hr with h | h
    · exact Or.inl h
    · exact Or.inr ((hmem n).2 ⟨d, h⟩)
  refine ⟨⟨?_, ?_⟩, ?_, hreach, ?_⟩
  · intro n hn
    rw [ht, List.mem_append] at hn
    rcases hn with hn | hn
    · exact hV.1 n hn
    · obtain ⟨d, hw⟩ := (hmem n).1 hn; exact hns n d hw
  · intro n hn m hm
    rw [ht, List.mem_append] at hn
    rcases hn with hn | hn
    · rw [ht, List.mem_append]; exact Or.inl (hV.2 n hn m hm)
    · obtain ⟨d, hw⟩ := (hmem n).1 hn
      exact hreach m (d + 1) (refs_step (walk_refs hw) hm)
  · intro n hn
    rw [ht, List.mem_append] at hn
    rcases hn with hn | hn
    · exact Or.inl hn
    · obtain ⟨d, hw⟩ := (hmem n).1 hn; exact Or.inr ⟨d, walk_refs hw⟩
  · rcases hf with ⟨h, _⟩ | ⟨a', n, b, _, hfb, _⟩
    · exact h
    · exact absurd hfb (not_fallback e n)

/-- What the search returns from a given config upwards. -/
def Outcome (e : Env) (nearest : String) (r : String) : Prop :=
  (∃ i a d, Above e nearest i a ∧ Refs e a d r ∧ Stops (visit e) r ∧
      (∀ j b, j < i → Above e nearest j b → ∀ d' c, Refs e b d' c → ¬ Stops (visit e) c) ∧
      (∀ d' c, Refs e a d' c → Stops (visit e) c → d ≤ d')) ∨
  (r = "" ∧ ∀ j b, Above e nearest j b → ∀ d' c, Refs e b d' c → ¬ Stops (visit e) c)

theorem nextUp_iff (e : Env) (a b : String) : NextUp e a b ↔ b ≠ "" ∧ b = ancestor e a := by
  unfold NextUp ancestor
  simp only
  split <;> rename_i h <;> grind

theorem nextUp_ancestor {e : Env} {a : String} (h : ancestor e a ≠ "") : NextUp e a (ancestor e a) := (nextUp_iff e a _).2 ⟨h, rfl⟩

theorem above_fun {e : Env} {n : String} {i : Nat} {a b : String} (h : Above e n i a) (h' : Above e n i b) : a = b := by
  induction h generalizing b with
  | here => cases h'; rfl
  | up _ hn ih =>
    cases h' with
    | up h2 hn2 => cases ih h2; rw [((nextUp_iff ..).1 hn).2, ((nextUp_iff ..).1 hn2).2]

theorem above_shift {e : Env} {n : String} {i : Nat} {a : String} (h : Above e n (i + 1) a) : Above e (ancestor e n) i a := by
  generalize hk : i + 1 = k at h
  induction h generalizing i with
  | here => omega
  | @up j a b h' hne ih =>
    cases j with
    | zero =>
      have : i = 0 := by omega
      subst this
      cases h'; rw [((nextUp_iff ..).1 hne).2]; exact .here
    | succ j =>
      have : i = j + 1 := by omega
      subst this
      exact .up (ih rfl) hne

theorem above_unshift {e : Env} {n : String} (hne : ancestor e n ≠ "") {i : Nat} {a : String}
    (h : Above e (ancestor e n) i a) : Above e n (i + 1) a := by
  induction h with
  | here => exact .up .here (nextUp_ancestor hne)
  | up _ h ih => exact .up ih h

theorem findWithReferences_outcome (e : Env) (fuel n : Nat) (name : String) (V : List String) (hV : Closed e V) (r : String)
    (h : findWithReferences e fuel n name V none = some r) : Outcome e name r := by
  induction n generalizing name V with
  | zero => simp [findWithReferences] at h
  | succ n ih =>
    rw [findWithReferences] at h
    cases hb : bfs fuel name (neighbors e) (visit e) V with
    | none => simp [hb] at h
    | some sv =>
      obtain ⟨s, V'⟩ := sv
      simp only [hb] at h
      cases hs : s.stopped with
      | true =>
        simp only [hs, ↓reduceIte, Option.some.injEq] at h
        obtain ⟨x, t, g1, g2, g3, g4, g5, g6⟩ := C14_shortest_path _ _ _ _ _ _ hb hs
        simp only at g2
        have hx : r = x := by rw [← h, g2.1]; rfl
        subst hx
        left
        refine ⟨0, name, _, .here, walk_refs g3, g1, by omega, ?_⟩
        intro d' c hr hc
        rcases refs_walk hV hr with hin | hw
        · exact absurd hc (hV.1 c hin)
        · have := g4 c d' hw hc
          simp only at this ⊢; omega
      | false =>
        obtain ⟨hC, hM, hR, hP⟩ := closed_extend hV hb hs
        simp only at hP hC hR
        have hno : ∀ d' c, Refs e name d' c → ¬ Stops (visit e) c := fun d' c hr => hC.1 c (hR c d' hr)
        simp only [hs, Bool.false_eq_true, ↓reduceIte, hP, List.head?_nil, Option.getD_none, ne_eq, not_true_eq_false] at h
        have h : (if ¬ ancestor e name = "" then findWithReferences e fuel n (ancestor e name) V' none else some "") = some r := by
          split at h
          · rename_i hx; cases hx
          · exact h
        by_cases ha : ancestor e name = ""
        · simp only [ha, not_true_eq_false, ↓reduceIte, Option.some.injEq] at h
          right
          refine ⟨h.symm, ?_⟩
          intro j b hj
          cases j with
          | zero => cases hj; exact hno
          | succ j =>
            have : ∀ j, ¬ ∃ b, Above e name (j + 1) b := by
              intro j
              induction j with
              | zero => rintro ⟨b, hb⟩; cases hb with | up h1 h2 => cases h1; have := (nextUp_iff ..).1 h2; exact this.1 (this.2.trans ha)
              | succ j ih => rintro ⟨b, hb⟩; cases hb with | up h1 h2 => exact ih ⟨_, h1⟩
            exact absurd ⟨b, hj⟩ (this j)
        · simp only [ha, not_false_eq_true, ↓reduceIte] at h
          rcases ih _ _ hC h with ⟨i, a, d, h1, h2, h3, h4, h5⟩ | ⟨h1, h2⟩
          · left
            refine ⟨i + 1, a, d, above_unshift ha h1, h2, h3, ?_, h5⟩
            intro j b hj hb
            cases j with
            | zero => cases hb; exact hno
            | succ j => exact h4 j b (by omega) (above_shift hb)
          · right
            refine ⟨h1, ?_⟩
            intro j b hb
            cases j with
            | zero => cases hb; exact hno
            | succ j => exact h2 j b (above_shift hb)

theorem findWithReferences_terminates (e : Env) (U : List String) (rank : String → Nat)
    (hrank : ∀ a, ancestor e a ≠ "" → rank (ancestor e a) < rank a) (nearest : String)
    (hU : ∀ i a d b, Above e nearest i a → Refs e a d b → b ∈ U) (fuel : Nat) (hf : U.length + 1 ≤ fuel)
    (n i : Nat) (name : String) (hi : Above e nearest i name) (hn : rank name < n) (V : List String) (fb : Option String) :
    ∃ r, findWithReferences e fuel n name V fb = some r := by
  induction n generalizing i name V fb with
  | zero => omega
  | succ n ih =>
    rw [findWithReferences]
    obtain ⟨sv, hb⟩ := C14_terminates (neighbors e) (visit e) name V U (fun b d hw => hU i name d b hi (walk_refs hw))
    obtain ⟨s, V'⟩ := sv
    simp only [hb fuel hf]
    split
    · exact ⟨_, rfl⟩
    · split
      · exact ⟨_, rfl⟩
      · split
        · rename_i ha
          exact ih (i + 1) _ (.up hi (nextUp_ancestor ha)) (by have := hrank name ha; omega) _ _
        · exact ⟨_, rfl⟩

/-- The same environment with other `disableSolutionSearching` flags. -/
def setFlag (e : Env) (g : String → Bool) : Env :=
  { e with config := fun n => (e.config n).map fun c => { c with disableSolutionSearching := g n } }

theorem visit_setFlag (e : Env) (g : String → Bool) : visit (setFlag e g) = visit e := by
  funext n
  have hc : (setFlag e g).config n = (e.config n).map fun c => { c with disableSolutionSearching := g n } := rfl
  have hm : matchesFile (setFlag e g) = matchesFile e := rfl
  unfold visit
  rw [hc, hm]
  cases e.config n <;> rfl

theorem neighbors_setFlag (e : Env) (g : String → Bool) : neighbors (setFlag e g) = neighbors e := by
  funext n
  have hc : (setFlag e g).config n = (e.config n).map fun c => { c with disableSolutionSearching := g n } := rfl
  unfold neighbors
  rw [hc]
  cases e.config n <;> rfl

theorem findWithReferences_setFlag (e : Env) (g : String → Bool) (fuel n : Nat) (name : String) (V : List String) :
    findWithReferences (setFlag e g) fuel n name V none = findWithReferences e fuel n name V none := by
  induction n generalizing name V with
  | zero => rfl
  | succ n ih =>
    rw [findWithReferences, findWithReferences, visit_setFlag, neighbors_setFlag]
    cases hb : bfs fuel name (neighbors e) (visit e) V with
    | none => rfl
    | some sv =>
      obtain ⟨s, V'⟩ := sv
      simp only
      cases hs : s.stopped with
      | true => rfl
      | false =>
        obtain ⟨trace, ht, hmem, hf⟩ := C14_fallback _ _ _ _ _ _ hb hs
        have hP : s.path = [] := by
          rcases hf with ⟨h, _⟩ | ⟨a', n, b, _, hfb, _⟩
          · exact h
          · exact absurd hfb (not_fallback e n)
        simp only [Bool.false_eq_true, ↓reduceIte, hP, List.head?_nil, Option.getD_none, ne_eq, not_true_eq_false]
        have ha : ancestor (setFlag e g) name = ancestor e name := rfl
        rw [ha, ih]
        split <;> split <;> simp_all

end Tsgolint.FindTsconfig
