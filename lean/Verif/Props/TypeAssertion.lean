import Verif.Spec.TypeAssertion
import Verif.Props.TypeGraph
/-! # C85 -/
namespace Tsgolint.TypeAssertion
open Tsgolint.TypeGraph (Shape Outcome isUnsafeAssignment Compared UnsafeAt)
variable {T : Type} [DecidableEq T]

theorem isAny_iff (E : Env T) (t : T) : isAny E t = true ↔ E.shape t = .any := by
  unfold isAny; split <;> simp_all

theorem isUnknown_iff (E : Env T) (t : T) : isUnknown E t = true ↔ E.shape t = .unknown := by
  unfold isUnknown; split <;> simp_all

omit [DecidableEq T] in
theorem fits_iff (E : Env T) (expr target : T) : E.assignable (source E expr) target = true ↔ Fits E expr target := by
  unfold source Fits
  constructor
  · intro h
    cases ho : E.objectLiteral expr with
    | true => exact ⟨_, .widened ho, by simpa [ho] using h⟩
    | false => exact ⟨_, .plain ho, by simpa [ho] using h⟩
  · rintro ⟨s, hs, h⟩
    cases hs with
    | plain ho => simp [ho, h]
    | widened ho => simp [ho, h]

theorem flow {E : Env T} {newMap : Bool} {f : T → T → Option (T × T)} (arity : ∀ a b, ¬ TypeGraph.Mismatch E.shape a b)
    (h : ∀ t r, ∃ n o, isUnsafeAssignment E.shape newMap n t r = some o ∧ ∀ p, f t r = some p ↔ o = .bad p.1 p.2) (t r : T) :
    (f t r = some (r, t) ∧ Leaks E newMap t r) ∨ (f t r = none ∧ ¬ Leaks E newMap t r) := by
  obtain ⟨n, o, ho, hun⟩ := h t r
  rcases TypeGraph.C39_exact E.shape newMap n _ _ o (fun a b _ => arity a b) ho with ⟨rfl, hl⟩ | ⟨rfl, hl⟩
  · exact .inl ⟨(hun (r, t)).2 rfl, hl⟩
  · refine .inr ⟨?_, hl⟩
    cases hx : f t r with
    | none => rfl
    | some p => cases (hun p).1 hx

omit [DecidableEq T] in
theorem leaks_plain {E : Env T} {newMap : Bool} {t r : T} (h : ∀ target as, E.shape t ≠ .ref target as) (hl : Leaks E newMap t r) : UnsafeAt E.shape t r := by
  obtain ⟨a, b, hab, hu⟩ := hl
  have : a = t ∧ b = r := by
    induction hab with
    | self => exact ⟨rfl, rfl⟩
    | arg i hc _ h3 _ _ _ ih =>
      exfalso
      have e : ∀ a b, Compared E.shape newMap t r a b → a = t := by
        intro a b hc
        induction hc with
        | self => rfl
        | arg i _ _ h3 _ _ _ ih => rw [ih] at h3; exact absurd h3 (h _ _)
      rw [e _ _ hc] at h3
      exact absurd h3 (h _ _)
  rw [this.1, this.2] at hu
  exact hu

/-- C85.  A type assertion is reported exactly for the stated reasons, with the message of the reason. -/
theorem C85_reported (E : Env T) (newMap : Bool) (hj : Judges E newMap) (expr asserted : T) (m : Msg T) :
    check E expr asserted = some m ↔ Reported E newMap expr asserted m := by
  have fin := flow hj.arity hj.inwards expr asserted
  have fback := flow hj.arity hj.back asserted expr
  have hself : ∀ t, E.shape t = .any → E.shape t = .unknown → False := by intro t h h'; rw [h] at h'; cases h'
  unfold check
  by_cases he : expr = asserted
  · rw [if_pos he]
    simp only [reduceCtorEq, false_iff]
    intro h
    cases h with
    | unknownToAny h1 h2 => rw [he] at h2; exact hself _ h1 h2
    | ofAny h => exact h he
    | toAny h => exact h he
    | unconstrained h => exact h.other he
    | constrained h => exact h.other he
    | narrower h => exact h.other he
  · rw [if_neg he]
    by_cases hk : (isAny E asserted && isUnknown E expr) = true
    · rw [if_pos hk]
      rw [Bool.and_eq_true, isAny_iff, isUnknown_iff] at hk
      have n1 : ¬ Leaks E newMap expr asserted := by
        intro h
        have := (leaks_plain (by intro _ _ h; rw [hk.2] at h; cases h) h).1
        rw [hk.2] at this; cases this
      have n2 : ¬ Leaks E false asserted expr := by
        intro h
        exact (leaks_plain (by intro _ _ h; rw [hk.1] at h; cases h) h).2.2 hk.2
      constructor
      · intro h; cases h; exact .unknownToAny hk.1 hk.2
      · intro h
        cases h with
        | unknownToAny => rfl
        | ofAny _ h => exact absurd h n1
        | toAny _ _ h => exact absurd h n2
        | unconstrained h => exact absurd hk h.known
        | constrained h => exact absurd hk h.known
        | narrower h => exact absurd hk h.known
    · rw [if_neg hk]
      rw [Bool.and_eq_true, isAny_iff, isUnknown_iff] at hk
      rcases fin with ⟨f1, l1⟩ | ⟨f1, l1⟩
      · rw [f1]
        simp only [Option.some.injEq]
        constructor
        · rintro rfl; exact .ofAny he l1
        · intro h
          cases h with
          | unknownToAny h1 h2 => exact absurd ⟨h1, h2⟩ hk
          | ofAny => rfl
          | toAny _ h => exact absurd l1 h
          | unconstrained h => exact absurd l1 h.clean
          | constrained h => exact absurd l1 h.clean
          | narrower h => exact absurd l1 h.clean
      · rw [f1]
        simp only
        rcases fback with ⟨f2, l2⟩ | ⟨f2, l2⟩
        · rw [f2]
          simp only [Option.some.injEq]
          constructor
          · rintro rfl; exact .toAny he l1 l2
          · intro h
            cases h with
            | unknownToAny h1 h2 => exact absurd ⟨h1, h2⟩ hk
            | ofAny _ h => exact absurd h l1
            | toAny => rfl
            | unconstrained h => exact absurd l2 h.cleanBack
            | constrained h => exact absurd l2 h.cleanBack
            | narrower h => exact absurd l2 h.cleanBack
        · rw [f2]
          simp only
          by_cases hf : E.assignable (source E expr) asserted = true
          · rw [if_pos hf]
            rw [fits_iff] at hf
            simp only [reduceCtorEq, false_iff]
            intro h
            cases h with
            | unknownToAny h1 h2 => exact absurd ⟨h1, h2⟩ hk
            | ofAny _ h => exact absurd h l1
            | toAny _ _ h => exact absurd h l2
            | unconstrained h => exact absurd hf h.unfit
            | constrained h => exact absurd hf h.unfit
            | narrower h => exact absurd hf h.unfit
          · rw [if_neg hf]
            rw [fits_iff] at hf
            have u : Unfit E newMap expr asserted := ⟨he, hk, l1, l2, hf⟩
            have mk : Reported E newMap expr asserted (narrow E expr asserted) := by
              unfold narrow
              split
              · next h => exact .unconstrained u h
              · next c h =>
                split
                · next h' => exact .constrained u h ((fits_iff ..).1 h')
                · next h' =>
                  refine .narrower u (by rw [h]; simp) ?_
                  intro c' hc
                  rw [h] at hc; cases hc
                  rwa [← fits_iff]
              · next h1 h2 => exact .narrower u h1 (fun c hc => absurd hc (h2 c))
            simp only [Option.some.injEq]
            constructor
            · rintro rfl; exact mk
            · intro h
              cases h with
              | unknownToAny h1 h2 => exact absurd ⟨h1, h2⟩ hk
              | ofAny _ h => exact absurd h l1
              | toAny _ _ h => exact absurd h l2
              | unconstrained _ h => simp [narrow, h]
              | constrained _ h h' => rw [← fits_iff] at h'; simp [narrow, h, h']
              | narrower _ h h' =>
                unfold narrow
                split
                · next h'' => exact absurd h'' h
                · next c h'' => have := h' c h''; rw [← fits_iff] at this; simp [this]
                · rfl

/-- C85 (accepted).  An assertion is not reported exactly if it asserts the type the expression has, or one the expression fits with no `any` on either side. -/
theorem C85_accepted (E : Env T) (newMap : Bool) (hj : Judges E newMap) (expr asserted : T) :
    check E expr asserted = none ↔ expr = asserted ∨
      (¬(E.shape asserted = .any ∧ E.shape expr = .unknown) ∧ ¬ Leaks E newMap expr asserted ∧ ¬ Leaks E false asserted expr ∧ Fits E expr asserted) := by
  have fin := flow hj.arity hj.inwards expr asserted
  have fback := flow hj.arity hj.back asserted expr
  unfold check
  by_cases he : expr = asserted
  · simp [he]
  · rw [if_neg he]
    by_cases hk : (isAny E asserted && isUnknown E expr) = true
    · rw [if_pos hk]
      rw [Bool.and_eq_true, isAny_iff, isUnknown_iff] at hk
      simp [he, hk]
    · rw [if_neg hk]
      rw [Bool.and_eq_true, isAny_iff, isUnknown_iff] at hk
      rcases fin with ⟨f1, l1⟩ | ⟨f1, l1⟩
      · simp [f1, l1, he]
      · rcases fback with ⟨f2, l2⟩ | ⟨f2, l2⟩
        · simp [f1, f2, l2, he]
        · simp only [f1, f2]
          rw [← fits_iff]
          by_cases hf : E.assignable (source E expr) asserted = true <;> simp [hf, he, hk, l1, l2]

/-! ## Cases -/

/-- Types: 0 `any`, 1 `unknown`, 2 `number`, 3 `1`, 4 `Set<any>`, 5 `Set<number>`, 6 `T extends number`, 7 `T`. -/
def shape : Fin 8 → Shape (Fin 8)
  | 0 => .any
  | 1 => .unknown
  | 4 => .ref 4 (some [0])
  | 5 => .ref 4 (some [2])
  | 6 => .param (some 2)
  | 7 => .param none
  | _ => .other

def verdict (t r : Fin 8) : Option (Fin 8 × Fin 8) := match isUnsafeAssignment shape false 10 t r with
  | some (.bad r t) => some (r, t)
  | _ => none

def sample : Env (Fin 8) where
  shape := shape
  isError _ := false
  objectLiteral _ := false
  widened := id
  assignable t r := t == r || (t == 3 && r == 2)
  flowsIn := verdict
  flowsBack := verdict

theorem sample_judges : Judges sample false := by
  have comp : ∀ t r, ∃ n o, isUnsafeAssignment sample.shape false n t r = some o ∧ ∀ p, verdict t r = some p ↔ o = .bad p.1 p.2 := by
    intro t r
    have all : ∀ t r : Fin 8, (isUnsafeAssignment shape false 10 t r).isSome = true := by decide
    obtain ⟨o, ho⟩ := Option.isSome_iff_exists.1 (all t r)
    refine ⟨10, o, ho, fun p => ?_⟩
    simp only [verdict, ho]
    cases o with
    | bad a b => simp [Prod.ext_iff]
    | safe => simp
    | panic => simp
  refine ⟨comp, comp, ?_⟩
  rintro a b ⟨target, as, bs, h1, h2, h3⟩
  have len : ∀ (a target : Fin 8) as, shape a = .ref target (some as) → as.length = 1 := by
    intro a target as h
    match a with
    | 0 | 1 | 2 | 3 | 6 | 7 => simp [shape] at h
    | 4 | 5 => simp [shape] at h; rw [← h.2]; rfl
  have := len _ _ _ h1
  have := len _ _ _ h2
  omega

example : check sample 0 2 = some (.ofAny false) := by decide
example : check sample 2 0 = some (.toAny false) := by decide
example : check sample 1 0 = some (.toAny false) := by decide
example : check sample 4 5 = some (.ofAny false) := by decide
example : check sample 5 4 = some (.toAny false) := by decide
example : check sample 3 2 = none := by decide
example : check sample 2 3 = some (.narrower 3) := by decide
example : check sample 3 6 = some (.toConstrained 6) := by decide
example : check sample 3 7 = some (.toUnconstrained 7) := by decide
example : Reported sample false 3 6 (.toConstrained 6) := by rw [← C85_reported _ _ sample_judges]; decide

end Tsgolint.TypeAssertion
