import Verif.Spec.NonNullable
import Verif.Props.TypeGraph
import Verif.Proof.StableFix
/-! # C66: non-nullable-type-assertion-style -/
namespace Tsgolint.NonNullable
open Tsgolint.TypeGraph Tsgolint.Fixer
variable {T : Type} [DecidableEq T]

theorem mayBeNull_iff (E : Env T) (t : T) : couldBeNullable E t = true ↔ MayBeNull E t := by
  unfold couldBeNullable MayBeNull
  cases h : E.shape t with
  | param k => cases k <;> simp [mem_unionParts]
  | _ => simp [mem_unionParts]

theorem mem_setAdd (s : List T) (t x : T) : x ∈ setAdd s t ↔ x ∈ s ∨ x = t := by
  unfold setAdd
  split
  · next h =>
    have : t ∈ s := by simpa using h
    constructor
    · exact .inl
    · rintro (h | rfl)
      · exact h
      · exact this
  · simp

theorem mem_nonNullable (E : Env T) (l : List T) (x : T) : x ∈ nonNullableSet E l ↔ x ∈ l ∧ E.nullable x = false := by
  suffices ∀ s, x ∈ l.foldl (fun s t => if !E.nullable t then setAdd s t else s) s ↔ x ∈ s ∨ (x ∈ l ∧ E.nullable x = false) by
    simpa [nonNullableSet] using this []
  induction l with
  | nil => intro s; simp
  | cons a l ih =>
    intro s
    rw [List.foldl_cons, ih]
    cases h : E.nullable a with
    | true =>
      simp only [Bool.not_true, Bool.false_eq_true, if_false, List.mem_cons]
      constructor
      · rintro (h1 | ⟨h1, h2⟩)
        · exact .inl h1
        · exact .inr ⟨.inr h1, h2⟩
      · rintro (h1 | ⟨rfl | h1, h2⟩)
        · exact .inl h1
        · simp [h] at h2
        · exact .inr ⟨h1, h2⟩
    | false =>
      simp only [Bool.not_false, if_true, mem_setAdd, List.mem_cons]
      constructor
      · rintro ((h1 | rfl) | ⟨h1, h2⟩)
        · exact .inl h1
        · exact .inr ⟨.inl rfl, h⟩
        · exact .inr ⟨.inr h1, h2⟩
      · rintro (h1 | ⟨rfl | h1, h2⟩)
        · exact .inl (.inl h1)
        · exact .inl (.inr rfl)
        · exact .inr ⟨h1, h2⟩

theorem nonNullable_eq (E : Env T) (l : List T) (hl : l.Nodup) : nonNullableSet E l = l.filter fun t => !E.nullable t := by
  suffices ∀ s, (∀ x ∈ s, x ∉ l) → l.foldl (fun s t => if !E.nullable t then setAdd s t else s) s = s ++ l.filter fun t => !E.nullable t by
    simpa [nonNullableSet] using this [] (by simp)
  induction l with
  | nil => intro s _; simp
  | cons a l ih =>
    intro s hs
    rw [List.foldl_cons]
    have hn := List.nodup_cons.1 hl
    cases h : E.nullable a with
    | true =>
      rw [ih hn.2 _ (by simpa using fun x hx => (fun h => hs x hx (List.mem_cons_of_mem _ h)))]
      simp [h]
    | false =>
      have ha : setAdd s a = s ++ [a] := by
        unfold setAdd
        rw [if_neg]
        simpa using fun h : a ∈ s => hs a h (by simp)
      simp only [Bool.not_false, if_true, ha]
      rw [ih hn.2]
      · simp [h]
      · intro x hx
        rcases List.mem_append.1 hx with hx | hx
        · exact fun h => hs x hx (List.mem_cons_of_mem _ h)
        · rw [List.mem_singleton.1 hx]; exact hn.1

theorem assertedLoop_iff (E : Env T) (nonNull l s : List T) :
    (∀ r, assertedLoop E nonNull l s = some r → (∀ x, x ∈ r ↔ x ∈ s ∨ x ∈ l) ∧ ∀ x ∈ l, couldBeNullable E x = false ∧ x ∈ nonNull) ∧
    (assertedLoop E nonNull l s = none → ∃ x ∈ l, couldBeNullable E x = true ∨ x ∉ nonNull) := by
  induction l generalizing s with
  | nil => simp [assertedLoop]
  | cons a l ih =>
    unfold assertedLoop
    split
    · next h => 
      refine ⟨by simp, fun _ => ⟨a, by simp, ?_⟩⟩
      simpa using h
    · next h =>
      simp only [Bool.or_eq_true, Bool.not_eq_true', not_or, Bool.not_eq_true, Bool.not_eq_false, List.contains_eq_mem, decide_eq_true_eq] at h
      obtain ⟨h1, h2⟩ := ih (setAdd s a)
      constructor
      · intro r hr
        obtain ⟨h3, h4⟩ := h1 r hr
        refine ⟨fun x => by rw [h3, mem_setAdd, List.mem_cons, or_assoc], fun x hx => ?_⟩
        rcases List.mem_cons.1 hx with rfl | hx
        · exact h
        · exact h4 x hx
      · intro hn
        obtain ⟨x, hx, h5⟩ := h2 hn
        exact ⟨x, by simp [hx], h5⟩

/-- C66.  An assertion is reported exactly if it is no `as const`, neither type is `any` or `unknown`, the asserted type is the original type without null and
undefined — which the original type has — and no part of it may still stand for null or undefined.  (The parts of a union are distinct.) -/
theorem C66_reported (E : Env T) (isConst : Bool) (original asserted : T) (hu : ∀ ps, E.shape original = .union ps → ps.Nodup) :
    reported E isConst original asserted = true ↔ isConst = false ∧ ¬ Loose E original ∧ ¬ Loose E asserted ∧ OnlyRemovesNull E original asserted ∧
      ∀ p, UnionPart E.shape asserted p → ¬ MayBeNull E p := by
  have loose : ∀ t, (Loose E t → typesIfNotLoose E t = none) ∧ (¬ Loose E t → typesIfNotLoose E t = some (unionParts E.shape t)) := by
    intro t
    unfold Loose typesIfNotLoose
    cases E.shape t <;> simp
  have hnd : (unionParts E.shape original).Nodup := by
    unfold unionParts
    split
    · next h => exact hu _ h
    · simp
  unfold reported
  cases isConst with
  | true => simp
  | false =>
    by_cases h1 : Loose E original
    · simp [(loose original).1 h1, h1]
    · by_cases h2 : Loose E asserted
      · simp [(loose original).2 h1, (loose asserted).1 h2, h2]
      · simp only [Bool.false_eq_true, if_false, (loose original).2 h1, (loose asserted).2 h2, h1, h2, not_false_eq_true, true_and]
        have hlen : (nonNullableSet E (unionParts E.shape original)).length = (unionParts E.shape original).length ↔
            ¬ ∃ p, UnionPart E.shape original p ∧ E.nullable p = true := by
          rw [nonNullable_eq E _ hnd, List.length_filter_eq_length_iff]
          simp only [mem_unionParts]
          constructor
          · rintro h ⟨p, hp, hn⟩; simpa [hn] using h p hp
          · intro h p hp
            cases hn : E.nullable p with
            | false => rfl
            | true => exact absurd ⟨p, hp, hn⟩ h
        by_cases h3 : ∃ p, UnionPart E.shape original p ∧ E.nullable p = true
        · rw [if_neg (fun h => hlen.1 h h3)]
          obtain ⟨ha, hb⟩ := assertedLoop_iff E (nonNullableSet E (unionParts E.shape original)) (unionParts E.shape asserted) []
          have hcn : ∀ x, couldBeNullable E x = false ↔ ¬ MayBeNull E x := by intro x; rw [← mayBeNull_iff]; simp
          cases hl : assertedLoop E (nonNullableSet E (unionParts E.shape original)) (unionParts E.shape asserted) [] with
          | none =>
            obtain ⟨x, hx, h4⟩ := hb hl
            simp only [Bool.false_eq_true, false_iff]
            rintro ⟨⟨-, h5⟩, h6⟩
            rw [mem_unionParts] at hx
            rcases h4 with h4 | h4
            · exact h6 x hx ((mayBeNull_iff ..).1 h4)
            · apply h4
              rw [mem_nonNullable, mem_unionParts]
              exact (h5 x).1 hx
          | some s =>
            obtain ⟨hs, hm⟩ := ha s hl
            simp only [List.not_mem_nil, false_or] at hs
            simp only [List.all_eq_true, List.contains_eq_mem, decide_eq_true_eq, mem_nonNullable, hs, mem_unionParts]
            simp only [mem_nonNullable, mem_unionParts, hcn] at hm
            constructor
            · intro h
              exact ⟨⟨h3, fun p => ⟨fun hp => (hm p hp).2, fun hp => h p hp⟩⟩, fun p hp => (hm p hp).1⟩
            · rintro ⟨⟨-, h5⟩, -⟩ p hp
              exact (h5 p).2 hp
        · rw [if_pos (hlen.2 h3)]
          simp only [Bool.false_eq_true, false_iff]
          rintro ⟨⟨h, -⟩, -⟩
          exact h3 h

/-- C66.  The suggestion for `e as T`: `e!`, or `(e)!` if `e` does not bind tightly enough. -/
theorem C66_fix (pre expr asT post : Bytes) (higher : Bool) (he : expr ≠ []) (ha : asT ≠ []) :
    AppliesTo (pre ++ expr ++ asT ++ post)
      (fixes .as_ higher pre.length (pre ++ expr ++ asT).length pre.length pre.length (pre ++ expr).length)
      (pre ++ (if higher then expr ++ ascii "!" else ascii "(" ++ expr ++ ascii ")!") ++ post) := by
  have hla := List.length_pos_iff.2 ha
  have hle := List.length_pos_iff.2 he
  cases higher with
  | true =>
    have := Seg.applies_shuffle [.keep pre, .keep expr, .sub [] (ascii "!"), .sub asT [], .keep post]
      (fixes .as_ true pre.length (pre ++ expr ++ asT).length pre.length pre.length (pre ++ expr).length) (by
      have e : Seg.edits 0 [.keep pre, .keep expr, .sub [] (ascii "!"), .sub asT [], .keep post] =
          [⟨ascii "!", (pre ++ expr).length, (pre ++ expr).length⟩, ⟨[], (pre ++ expr).length, (pre ++ expr ++ asT).length⟩] := by
        simp [Seg.edits, Nat.add_assoc]
      rw [e]
      refine Shuffle.swap _ _ _ (.inr ?_)
      simp only [isAssertionExpression, if_true, List.length_append]; omega)
    simpa [Seg.old, Seg.new, List.append_assoc] using this
  | false =>
    have := Seg.applies_shuffle [.keep pre, .sub [] (ascii "("), .keep expr, .sub [] (ascii ")!"), .sub asT [], .keep post]
      (fixes .as_ false pre.length (pre ++ expr ++ asT).length pre.length pre.length (pre ++ expr).length) (by
      have e : Seg.edits 0 [.keep pre, .sub [] (ascii "("), .keep expr, .sub [] (ascii ")!"), .sub asT [], .keep post] =
          [⟨ascii "(", pre.length, pre.length⟩, ⟨ascii ")!", (pre ++ expr).length, (pre ++ expr).length⟩,
            ⟨[], (pre ++ expr).length, (pre ++ expr ++ asT).length⟩] := by
        simp [Seg.edits, Nat.add_assoc]
      rw [e]
      refine (Shuffle.swap _ _ _ (.inl ?_)).trans (Shuffle.cons _ (Shuffle.swap _ _ _ (.inr ?_))) <;>
        simp only [isAssertionExpression, if_true, List.length_append] <;> omega)
    simpa [Seg.old, Seg.new, List.append_assoc] using this

/-- C66 (finding).  For `<T>e` the suggestion keeps the assertion and only adds `!` (or `(…)!`): it does not do what it says. -/
theorem C66_hazard_angle (pre angle expr post : Bytes) (higher : Bool) (he : expr ≠ []) :
    AppliesTo (pre ++ angle ++ expr ++ post)
      (fixes .angle higher pre.length (pre ++ angle ++ expr).length (pre ++ angle).length (pre ++ angle).length (pre ++ angle ++ expr).length)
      (pre ++ angle ++ (if higher then expr ++ ascii "!" else ascii "(" ++ expr ++ ascii ")!") ++ post) := by
  have hle := List.length_pos_iff.2 he
  cases higher with
  | true =>
    have := Seg.applies_sorted [.keep pre, .keep angle, .keep expr, .sub [] [], .sub [] (ascii "!"), .keep post]
    simpa [Seg.old, Seg.new, Seg.edits, fixes, isAssertionExpression, List.append_assoc, Nat.add_assoc] using this
  | false =>
    have := Seg.applies_shuffle [.keep pre, .keep angle, .sub [] (ascii "("), .keep expr, .sub [] [], .sub [] (ascii ")!"), .keep post]
      (fixes .angle false pre.length (pre ++ angle ++ expr).length (pre ++ angle).length (pre ++ angle).length (pre ++ angle ++ expr).length) (by
      have e : Seg.edits 0 [.keep pre, .keep angle, .sub [] (ascii "("), .keep expr, .sub [] [], .sub [] (ascii ")!"), .keep post] =
          [⟨ascii "(", (pre ++ angle).length, (pre ++ angle).length⟩, ⟨[], (pre ++ angle ++ expr).length, (pre ++ angle ++ expr).length⟩,
            ⟨ascii ")!", (pre ++ angle ++ expr).length, (pre ++ angle ++ expr).length⟩] := by
        simp [Seg.edits, Nat.add_assoc]
      rw [e]
      refine Shuffle.swap _ _ _ (.inl ?_)
      simp only [isAssertionExpression, if_true, List.length_append]; omega)
    simpa [Seg.old, Seg.new, List.append_assoc] using this

/-! ## Cases: 0 = string, 1 = null, 2 = undefined, 3 = 0 | 1 | 2, 4 = an unconstrained type parameter, 5 = 4 | 1, 6 = any, 7 = 0 | 8 | 1, 9 = 8 | 0 -/

def sample : Env Nat where
  shape := fun t => if t = 3 then .union [0, 1, 2] else if t = 4 then .param none else if t = 5 then .union [4, 1] else if t = 6 then .any
    else if t = 7 then .union [0, 8, 1] else if t = 9 then .union [8, 0] else .other
  nullable := fun t => t == 1 || t == 2

example : reported sample false 3 0 = true := by decide
example : reported sample true 3 0 = false := by decide
example : reported sample false 5 4 = false := by decide
example : reported sample false 7 0 = false := by decide
example : reported sample false 7 9 = true := by decide
example : reported sample false 0 0 = false := by decide
example : reported sample false 6 0 = false := by decide
example : OnlyRemovesNull sample 7 9 :=
  ((C66_reported sample false 7 9 (by intro ps h; simp [sample] at h; subst h; decide)).1 (by decide)).2.2.2.1
example : MayBeNull sample 4 := .inl rfl

end Tsgolint.NonNullable
