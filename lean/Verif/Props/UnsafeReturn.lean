import Verif.Spec.UnsafeReturn
/-! # C83 -/
namespace Tsgolint.UnsafeReturn
open Tsgolint.TypeGraph (AnyClass)
variable {T : Type} [DecidableEq T]

theorem sanctioned_iff (E : Env T) (f : Fn T) (ret : T) : sanctioned E f ret f.signatures = true ↔ Sanctions E f ret := by
  have main : ∀ ss : List T, sanctioned E f ret ss = true ↔ ∃ s ∈ ss, s = ret ∨ E.anyOrUnknown s = true ∨
      (f.async = true ∧ (E.awaited s = E.awaited ret ∨ ∃ a, E.awaited s = some a ∧ E.anyOrUnknown a = true)) := by
    intro ss
    induction ss with
    | nil => simp [sanctioned]
    | cons s ss ih =>
      have hm : ((E.awaited s).map E.anyOrUnknown).getD false = true ↔ ∃ a, E.awaited s = some a ∧ E.anyOrUnknown a = true := by
        cases E.awaited s <;> simp
      have ex : ∀ P : T → Prop, (∃ x, x ∈ s :: ss ∧ P x) ↔ P s ∨ ∃ x, x ∈ ss ∧ P x := by intro P; simp
      rw [sanctioned, ex, ← hm]
      split
      · next h => simp only [Bool.or_eq_true, decide_eq_true_eq] at h; simp only [true_iff]; exact .inl (h.imp id .inl)
      · next h =>
        simp only [Bool.or_eq_true, decide_eq_true_eq, not_or] at h
        split
        · next h' =>
          simp only [Bool.and_eq_true, Bool.or_eq_true, decide_eq_true_eq] at h'
          simp only [true_iff]
          exact .inl (.inr (.inr h'))
        · next h' =>
          simp only [Bool.and_eq_true, Bool.or_eq_true, decide_eq_true_eq] at h'
          rw [ih]
          simp [h, h']
  rw [main]
  constructor
  · rintro ⟨s, hs, rfl | h | ⟨ha, h | ⟨a, h, h'⟩⟩⟩
    · exact .same hs
    · exact .top hs h
    · exact .awaitedSame ha hs h
    · exact .awaitedTop ha hs h h'
  · rintro (hs | ⟨hs, h⟩ | ⟨ha, hs, h⟩ | ⟨ha, hs, h, h'⟩)
    · exact ⟨ret, hs, .inl rfl⟩
    · exact ⟨_, hs, .inr (.inl h)⟩
    · exact ⟨_, hs, .inr (.inr ⟨ha, .inl h⟩)⟩
    · exact ⟨_, hs, .inr (.inr ⟨ha, .inr ⟨_, h, h'⟩⟩)⟩

omit [DecidableEq T] in
theorem accepted_iff (E : Env T) (f : Fn T) (c : AnyClass) : accepted E c f.signatures = true ↔ Accepts E f c := by
  have main : ∀ ss : List T, accepted E c ss = true ↔ ∃ s ∈ ss, (c = .any ∧ E.isUnknown s = true) ∨ (c = .anyArray ∧ E.isUnknownArray s = true) ∨
      (c = .promiseAny ∧ ∃ a, E.awaited s = some a ∧ E.isUnknown a = true) := by
    intro ss
    induction ss with
    | nil => simp [accepted]
    | cons s ss ih =>
      have hm : ((E.awaited s).map E.isUnknown).getD false = true ↔ ∃ a, E.awaited s = some a ∧ E.isUnknown a = true := by
        cases E.awaited s <;> simp
      have ex : ∀ P : T → Prop, (∃ x, x ∈ s :: ss ∧ P x) ↔ P s ∨ ∃ x, x ∈ ss ∧ P x := by intro P; simp
      rw [accepted, ex, ← hm]
      split
      · next h => simp only [Bool.and_eq_true, decide_eq_true_eq] at h; simp [h]
      · next h =>
        simp only [Bool.and_eq_true, decide_eq_true_eq] at h
        split
        · next h => simp only [Bool.and_eq_true, decide_eq_true_eq] at h; simp [h]
        · next h' =>
          simp only [Bool.and_eq_true, decide_eq_true_eq] at h'
          split
          · next h => simp only [Bool.and_eq_true, decide_eq_true_eq] at h; simp only [true_iff]; exact .inl (.inr (.inr h))
          · next h'' =>
            simp only [Bool.and_eq_true, decide_eq_true_eq] at h''
            rw [ih]
            simp [h, h', h'']
  rw [main]
  constructor
  · rintro ⟨s, hs, ⟨rfl, h⟩ | ⟨rfl, h⟩ | ⟨rfl, a, h, h'⟩⟩
    · exact .any hs h
    · exact .anyArray hs h
    · exact .promise hs h h'
  · rintro (⟨hs, h⟩ | ⟨hs, h⟩ | ⟨hs, h, h'⟩)
    · exact ⟨_, hs, .inl ⟨rfl, h⟩⟩
    · exact ⟨_, hs, .inr (.inl ⟨rfl, h⟩)⟩
    · exact ⟨_, hs, .inr (.inr ⟨rfl, _, h, h'⟩)⟩

/-- C83 (returning `any`).  A returned `any`, `any[]` or promise of `any` is reported exactly if it is inside a function that is not annotated with a type allowing it,
whose type accepts no `unknown` counterpart, and that is async if it returns a promise. -/
theorem C83_any (E : Env T) (fn : Option (Fn T)) (c : AnyClass) (ret : T) (blamesThis this : Bool) (w : What) :
    checkReturn E fn c ret blamesThis = some (.unsafe_ this w) ↔
      ∃ f, fn = some f ∧ c ≠ .safe ∧ ¬(f.annotated = true ∧ Sanctions E f ret) ∧ ¬ Accepts E f c ∧ (c = .promiseAny → f.async = true) ∧
        this = blamesThis ∧ Names E ret c w := by
  cases fn with
  | none => simp [checkReturn]
  | some f =>
    simp only [checkReturn, Option.some.injEq, exists_eq_left']
    rw [← sanctioned_iff, ← accepted_iff]
    generalize sanctioned E f ret f.signatures = san
    generalize accepted E c f.signatures = acc
    by_cases h1 : (f.annotated && san) = true
    · rw [if_pos h1]
      simp only [Bool.and_eq_true] at h1
      simp [h1]
    · rw [if_neg h1]
      simp only [Bool.and_eq_true] at h1
      by_cases h2 : c = .safe
      · have : c ≠ .safe ↔ False := by simp [h2]
        simp only [this, if_false, false_and, and_false, iff_false]
        cases f.signatures with
        | nil => simp
        | cons s ss => simp
      · rw [if_pos h2]
        cases acc with
        | true => simp
        | false =>
          have hn : ∀ w, Names E ret c w ↔ w = what E c ret := by
            intro w
            unfold Names what
            by_cases he : E.isError ret = true
            · simp [he]
            · cases c <;> simp_all
          simp only [Bool.false_eq_true, if_false, hn]
          by_cases h3 : (c = .promiseAny && !f.async) = true
          · rw [if_pos h3]
            simp only [Bool.and_eq_true, decide_eq_true_eq, Bool.not_eq_true'] at h3
            simp [h3]
          · rw [if_neg h3]
            simp only [Bool.and_eq_true, decide_eq_true_eq, Bool.not_eq_true', not_and, Bool.not_eq_false] at h3
            simp only [Option.some.injEq, Msg.unsafe_.injEq]
            constructor
            · rintro ⟨rfl, rfl⟩; exact ⟨h2, h1, by simp, h3, rfl, rfl⟩
            · rintro ⟨-, -, -, -, rfl, rfl⟩; exact ⟨rfl, rfl⟩

/-- C83 (other values).  Any other value is reported exactly if assigning it to the return type of the first signature is unsafe, unless an annotation allows it. -/
theorem C83_assignment (E : Env T) (fn : Option (Fn T)) (c : AnyClass) (ret : T) (blamesThis : Bool) (sender receiver : T) :
    checkReturn E fn c ret blamesThis = some (.assignment sender receiver) ↔
      ∃ f s ss, fn = some f ∧ c = .safe ∧ ¬(f.annotated = true ∧ Sanctions E f ret) ∧ f.signatures = s :: ss ∧ E.unsafe_ ret s = some (receiver, sender) := by
  cases fn with
  | none => simp [checkReturn]
  | some f =>
    simp only [checkReturn, Option.some.injEq, exists_and_left, exists_eq_left']
    rw [← sanctioned_iff]
    generalize sanctioned E f ret f.signatures = san
    by_cases h1 : (f.annotated && san) = true
    · rw [if_pos h1]
      simp only [Bool.and_eq_true] at h1
      simp [h1]
    · rw [if_neg h1]
      simp only [Bool.and_eq_true] at h1
      by_cases h2 : c = .safe
      · subst h2
        simp only [ne_eq, not_true_eq_false, if_false, true_and, h1, not_false_eq_true]
        cases f.signatures with
        | nil => simp
        | cons s ss =>
          simp only [Option.map_eq_some_iff, Prod.exists, Msg.assignment.injEq, List.cons.injEq]
          constructor
          · rintro ⟨a, b, h, rfl, rfl⟩; exact ⟨s, ss, ⟨rfl, rfl⟩, h⟩
          · rintro ⟨s', ss', ⟨rfl, rfl⟩, h⟩; exact ⟨_, _, h, rfl, rfl⟩
      · rw [if_pos h2]
        simp only [h2, false_and]
        split
        · simp
        · split <;> simp

/-- C83 (function).  The function meant is the innermost one around the expression. -/
theorem C83_function {F : Type} (as : List (Option F)) (f : F) :
    parentFunction as = some f ↔ ∃ pre post, as = pre ++ some f :: post ∧ ∀ a ∈ pre, a = none := by
  induction as with
  | nil => simp [parentFunction]
  | cons a as ih =>
    cases a with
    | some g =>
      rw [parentFunction]
      constructor
      · intro h; cases h; exact ⟨[], as, rfl, by simp⟩
      · rintro ⟨pre, post, h, hp⟩
        cases pre with
        | nil => cases h; rfl
        | cons b pre => cases h; cases hp (some g) (by simp)
    | none =>
      rw [parentFunction, ih]
      constructor
      · rintro ⟨pre, post, rfl, hp⟩; exact ⟨none :: pre, post, rfl, by simpa using hp⟩
      · rintro ⟨pre, post, h, hp⟩
        cases pre with
        | nil => cases h
        | cons b pre =>
          cases h
          exact ⟨pre, post, rfl, fun a ha => hp a (by simp [ha])⟩

omit [DecidableEq T] in
/-- C83 (label).  The labelled type is the annotation, or that of the first contextual signature written in this file with a return type. -/
theorem C83_label (annotation : Option ((Nat × Nat) × T)) (contextual : Bool) (ls : List (Labelled T)) (x : (Nat × Nat) × T) :
    expectedLabel annotation contextual ls = some x ↔ annotation = some x ∨ (annotation = none ∧ contextual = true ∧
      ∃ pre post, ls = pre ++ ⟨some x.1, x.2⟩ :: post ∧ ∀ l ∈ pre, l.local_ = none) := by
  unfold expectedLabel
  cases annotation with
  | some a => simp
  | none =>
    cases contextual with
    | false => simp
    | true =>
      simp only [Bool.not_true, Bool.false_eq_true, if_false, reduceCtorEq, true_and, false_or]
      induction ls with
      | nil => simp [expectedLabel.go]
      | cons l ls ih =>
        obtain ⟨loc, ret⟩ := l
        cases loc with
        | some r =>
          rw [expectedLabel.go]
          constructor
          · intro h; cases h; exact ⟨[], ls, rfl, by simp⟩
          · rintro ⟨pre, post, h, hp⟩
            cases pre with
            | nil => cases h; rfl
            | cons b pre => cases h; cases hp ⟨some r, ret⟩ (by simp)
        | none =>
          rw [expectedLabel.go, ih]
          constructor
          · rintro ⟨pre, post, rfl, hp⟩; exact ⟨⟨none, ret⟩ :: pre, post, rfl, by simpa using hp⟩
          · rintro ⟨pre, post, h, hp⟩
            cases pre with
            | nil => cases h
            | cons b pre =>
              cases h
              exact ⟨pre, post, rfl, fun a ha => hp a (by simp [ha])⟩

/-- C83 (finding).  A promise of `any` returned by a function that is not async is never reported, even if the function is annotated with a promise of something else. -/
theorem C83_hazard_promise (E : Env T) (f : Fn T) (ret : T) (b : Bool) (h : f.async = false) : checkReturn E (some f) .promiseAny ret b = none := by
  simp only [checkReturn, h]
  split
  · rfl
  · split
    · split <;> simp
    · next h => simp at h

/-! ## Cases -/

/-- Types: 0 `any`, 1 `unknown`, 2 `number`, 3 `Promise<any>`, 4 `Promise<unknown>`, 5 `unknown[]`, 6 `any[]`. -/
def sample : Env Nat where
  anyOrUnknown t := t ≤ 1
  isUnknown t := t == 1
  isUnknownArray t := t == 5
  awaited t := if t = 3 then some 0 else if t = 4 then some 1 else some t
  isError _ := false
  unsafe_ s r := if s == 6 && r == 2 then some (r, s) else none

example : checkReturn sample (some ⟨true, false, [2]⟩) .any 0 false = some (.unsafe_ false .any) := by decide
example : checkReturn sample (some ⟨true, false, [0]⟩) .any 0 false = none := by decide
example : checkReturn sample (some ⟨false, false, [0]⟩) .any 0 true = some (.unsafe_ true .any) := by decide
example : checkReturn sample (some ⟨false, true, [4]⟩) .promiseAny 3 false = none := by decide
example : checkReturn sample (some ⟨true, true, [4]⟩) .any 0 false = none := by decide
example : checkReturn sample (some ⟨false, true, [4]⟩) .any 0 false = some (.unsafe_ false .any) := by decide
example : checkReturn sample (some ⟨true, false, [2]⟩) .safe 6 false = some (.assignment 6 2) := by decide
example : checkReturn sample none .any 0 false = none := by decide
example : Sanctions sample ⟨true, true, [4]⟩ 0 := .awaitedTop (s := 4) (a := 1) rfl (by simp) rfl rfl
example : ¬ Accepts sample ⟨false, true, [4]⟩ .any := by rw [← accepted_iff]; decide
example : expectedLabel (T := Nat) none true [⟨none, 1⟩, ⟨some (3, 4), 2⟩] = some ((3, 4), 2) := by decide
example : parentFunction [none, some 1, some 2] = some 1 := by decide

end Tsgolint.UnsafeReturn
