import Verif.Spec.PromiseAsync
import Verif.Proof.Fuel
import Verif.Proof.StableFix
/-! # C72: promise-function-async -/
namespace Tsgolint.PromiseAsync
open Tsgolint.TypeGraph Tsgolint.Fixer
variable {T : Type}

theorem named_iff (E : Env T) (o : Opts) (t : T) : isNamed E o (E.target t) = true ↔ Named E o t := by
  unfold isNamed Named allowedNames
  cases E.symbol (E.target t) <;> simp

/-- C72 (declared return types).  When the check ends, it says exactly whether the type is a promise throughout. -/
theorem C72_wholly (E : Env T) (o : Opts) (n : Nat) : ∀ (t : T) (b : Bool), containsAll E o true n t = some b → (b = true ↔ Wholly E o t) := by
  induction n with
  | zero => intro t b h; simp [containsAll] at h
  | succ n ih =>
    intro t b h
    simp only [containsAll] at h
    cases hl : E.loose t with
    | true =>
      simp [hl] at h; subst h
      simp only [Bool.false_eq_true, false_iff]
      intro h; cases h <;> simp_all
    | false =>
      cases hn : isNamed E o (E.target t) with
      | true => simp [hl, hn] at h; subst h; simp [Wholly.named hl ((named_iff ..).1 hn)]
      | false =>
        have hn' : ¬ Named E o t := by rw [← named_iff, hn]; simp
        simp only [hl, hn, Bool.false_eq_true, if_false, viewMatches] at h
        cases hv : E.view (E.target t) with
        | union ps =>
          simp only [hv, if_true] at h
          rw [every?_spec (fun p _ c hc => ih p c hc) h]
          refine ⟨fun h => .parts hl (.inl hv) h, fun h => ?_⟩
          cases h with
          | named _ h => exact absurd h hn'
          | parts _ h1 h2 => rcases h1 with h1 | h1 <;> rw [hv] at h1 <;> cases h1; exact h2
          | base _ h1 => rw [hv] at h1; cases h1
        | intersection ps =>
          simp only [hv, if_true] at h
          rw [every?_spec (fun p _ c hc => ih p c hc) h]
          refine ⟨fun h => .parts hl (.inr hv) h, fun h => ?_⟩
          cases h with
          | named _ h => exact absurd h hn'
          | parts _ h1 h2 => rcases h1 with h1 | h1 <;> rw [hv] at h1 <;> cases h1; exact h2
          | base _ h1 => rw [hv] at h1; cases h1
        | classOrInterface bs =>
          simp only [hv, if_true] at h
          rw [some?_spec (fun p _ c hc => ih p c hc) h]
          refine ⟨fun ⟨p, h1, h2⟩ => .base hl hv h1 h2, fun h => ?_⟩
          cases h with
          | named _ h => exact absurd h hn'
          | parts _ h1 h2 => rcases h1 with h1 | h1 <;> rw [hv] at h1 <;> cases h1
          | base _ h1 h2 h3 => rw [hv] at h1; cases h1; exact ⟨_, h2, h3⟩
        | other =>
          simp only [hv] at h
          cases h
          simp only [Bool.false_eq_true, false_iff]
          intro h
          cases h with
          | named _ h => exact hn' h
          | parts _ h1 h2 => rcases h1 with h1 | h1 <;> rw [hv] at h1 <;> cases h1
          | base _ h1 h2 h3 => rw [hv] at h1; cases h1

/-- C72 (inferred return types).  When the check ends, it says exactly whether the type is possibly a promise. -/
theorem C72_possibly (E : Env T) (o : Opts) (n : Nat) : ∀ (t : T) (b : Bool), containsAll E o false n t = some b → (b = true ↔ Possibly E o t) := by
  induction n with
  | zero => intro t b h; simp [containsAll] at h
  | succ n ih =>
    intro t b h
    simp only [containsAll] at h
    cases hl : E.loose t with
    | true =>
      simp [hl] at h; subst h
      simp only [Bool.false_eq_true, false_iff]
      intro h; cases h <;> simp_all
    | false =>
      cases hn : isNamed E o (E.target t) with
      | true => simp [hl, hn] at h; subst h; simp [Possibly.named hl ((named_iff ..).1 hn)]
      | false =>
        have hn' : ¬ Named E o t := by rw [← named_iff, hn]; simp
        simp only [hl, hn, Bool.false_eq_true, if_false, viewMatches] at h
        cases hv : E.view (E.target t) with
        | union ps =>
          simp only [hv] at h
          rw [some?_spec (fun p _ c hc => ih p c hc) h]
          refine ⟨fun ⟨p, h1, h2⟩ => .part hl (.inl hv) h1 h2, fun h => ?_⟩
          cases h with
          | named _ h => exact absurd h hn'
          | part _ h1 h2 h3 => rcases h1 with h1 | h1 <;> rw [hv] at h1 <;> cases h1; exact ⟨_, h2, h3⟩
          | bases _ h1 => rw [hv] at h1; cases h1
        | intersection ps =>
          simp only [hv] at h
          rw [some?_spec (fun p _ c hc => ih p c hc) h]
          refine ⟨fun ⟨p, h1, h2⟩ => .part hl (.inr hv) h1 h2, fun h => ?_⟩
          cases h with
          | named _ h => exact absurd h hn'
          | part _ h1 h2 h3 => rcases h1 with h1 | h1 <;> rw [hv] at h1 <;> cases h1; exact ⟨_, h2, h3⟩
          | bases _ h1 => rw [hv] at h1; cases h1
        | classOrInterface bs =>
          simp only [hv] at h
          cases hb : bs.isEmpty with
          | true =>
            simp only [hb, if_true] at h
            cases h
            simp only [Bool.false_eq_true, false_iff]
            intro h
            cases h with
            | named _ h => exact hn' h
            | part _ h1 h2 => rcases h1 with h1 | h1 <;> rw [hv] at h1 <;> cases h1
            | bases _ h1 h2 h3 => rw [hv] at h1; cases h1; simp_all
          | false =>
            simp only [hb, Bool.false_eq_true, if_false] at h
            rw [every?_spec (fun p _ c hc => ih p c hc) h]
            refine ⟨fun h => .bases hl hv (by intro h; simp [h] at hb) h, fun h => ?_⟩
            cases h with
            | named _ h => exact absurd h hn'
            | part _ h1 h2 => rcases h1 with h1 | h1 <;> rw [hv] at h1 <;> cases h1
            | bases _ h1 h2 h3 => rw [hv] at h1; cases h1; exact h3
        | other =>
          simp only [hv] at h
          cases h
          simp only [Bool.false_eq_true, false_iff]
          intro h
          cases h with
          | named _ h => exact hn' h
          | part _ h1 h2 => rcases h1 with h1 | h1 <;> rw [hv] at h1 <;> cases h1
          | bases _ h1 h2 h3 => rw [hv] at h1; cases h1

theorem viewMatches_mono (E : Env T) (m : Bool) {g g' : T → Option Bool} (hg : ∀ p c, g p = some c → g' p = some c) (t : T) (b : Bool)
    (h : viewMatches E m g t = some b) : viewMatches E m g' t = some b := by
  unfold viewMatches at h ⊢
  cases hv : E.view t with
  | union ps => cases m <;> simp only [hv, Bool.false_eq_true, if_false, if_true] at h ⊢; exact some?_mono hg h; exact every?_mono hg h
  | intersection ps => cases m <;> simp only [hv, Bool.false_eq_true, if_false, if_true] at h ⊢; exact some?_mono hg h; exact every?_mono hg h
  | classOrInterface bs =>
    cases m with
    | true => simp only [hv, if_true] at h ⊢; exact some?_mono hg h
    | false => cases hb : bs.isEmpty <;> simp only [hv, hb, Bool.false_eq_true, if_false, if_true] at h ⊢; exact every?_mono hg h; exact h
  | other => simp only [hv] at h ⊢; exact h

theorem containsAll_mono (E : Env T) (o : Opts) (m : Bool) (n : Nat) : ∀ t b, containsAll E o m n t = some b → containsAll E o m (n + 1) t = some b := by
  induction n with
  | zero => intro t b h; simp [containsAll] at h
  | succ n ih =>
    intro t b h
    rw [containsAll] at h ⊢
    split
    · next h1 => rw [if_pos h1] at h; exact h
    · next h1 =>
      rw [if_neg h1] at h
      split
      · next h2 => rw [if_pos h2] at h; exact h
      · next h2 => rw [if_neg h2] at h; exact viewMatches_mono E m ih _ _ h

/-- C72 (termination).  The check ends on every type that is not, through parts and base types, below itself. -/
theorem C72_terminates (E : Env T) (o : Opts) (m : Bool) (t : T) (h : Acc (Below E) t) : ∃ n b, containsAll E o m n t = some b := by
  induction h with
  | intro t _ ih =>
    have all : ∀ ps : List T, (∀ p ∈ ps, Below E p t) → ∃ n, ∀ p ∈ ps, ∃ c, containsAll E o m n p = some c := by
      intro ps hps
      obtain ⟨n, hn⟩ := enough_mono (fun n p => containsAll E o m n p) (fun n a b => containsAll_mono E o m n a b) ps fun q hq => ih q (hps q hq)
      exact ⟨n, hn n (Nat.le_refl n)⟩
    suffices ∃ n b, viewMatches E m (containsAll E o m n) (E.target t) = some b by
      obtain ⟨n, b, hb⟩ := this
      refine ⟨n + 1, ?_⟩
      rw [containsAll]
      split
      · exact ⟨_, rfl⟩
      · split
        · exact ⟨_, rfl⟩
        · exact ⟨b, hb⟩
    unfold viewMatches
    cases hv : E.view (E.target t) with
    | union ps =>
      obtain ⟨n, hn⟩ := all ps fun p hp => .inl ⟨ps, .inl hv, hp⟩
      cases m with
      | true => obtain ⟨b, hb⟩ := every?_total hn; exact ⟨n, b, hb⟩
      | false => obtain ⟨b, hb⟩ := some?_total hn; exact ⟨n, b, hb⟩
    | intersection ps =>
      obtain ⟨n, hn⟩ := all ps fun p hp => .inl ⟨ps, .inr hv, hp⟩
      cases m with
      | true => obtain ⟨b, hb⟩ := every?_total hn; exact ⟨n, b, hb⟩
      | false => obtain ⟨b, hb⟩ := some?_total hn; exact ⟨n, b, hb⟩
    | classOrInterface bs =>
      obtain ⟨n, hn⟩ := all bs fun p hp => .inr ⟨bs, hv, hp⟩
      cases m with
      | true => obtain ⟨b, hb⟩ := some?_total hn; exact ⟨n, b, hb⟩
      | false =>
        cases hb : bs.isEmpty with
        | true => exact ⟨0, false, by simp [hb]⟩
        | false => obtain ⟨b, hb'⟩ := every?_total hn; exact ⟨n, b, by simp [hb, hb']⟩
    | other => exact ⟨0, _, rfl⟩

theorem contains_spec (E : Env T) (o : Opts) (m : Bool) (n : Nat) (t : T) (b : Bool) (h : containsAll E o m n t = some b) :
    b = true ↔ if m then Wholly E o t else Possibly E o t := by
  cases m with
  | true => exact C72_wholly E o n t b h
  | false => exact C72_possibly E o n t b h

theorem signatureLoop_spec (E : Env T) (o : Opts) (e : Bool) (n : Nat) : ∀ (rs : List T) (every : Bool) (r : Option Bool),
    signatureLoop E o e n rs every = some r →
    (r = none ↔ o.allowAny = false ∧ ∃ t ∈ rs, E.loose t = true) ∧
    (∀ b, r = some b → (b = true ↔ every = true ∧ ∀ t ∈ rs, if e then Wholly E o t else Possibly E o t)) := by
  intro rs
  induction rs with
  | nil => intro every r h; simp [signatureLoop] at h; subst h; simp
  | cons t rs ih =>
    intro every r h
    simp only [signatureLoop] at h
    split at h
    · next h1 =>
      cases h
      simp only [Bool.and_eq_true, Bool.not_eq_true'] at h1
      simp [h1]
    · next h1 =>
      have h1' : (o.allowAny = false ∧ ∃ u ∈ t :: rs, E.loose u = true) ↔ (o.allowAny = false ∧ ∃ u ∈ rs, E.loose u = true) := by
        simp only [Bool.and_eq_true, Bool.not_eq_true', not_and, Bool.not_eq_true] at h1
        constructor
        · rintro ⟨h2, u, h3, h4⟩
          rcases List.mem_cons.1 h3 with rfl | h3
          · simp [h1 h2] at h4
          · exact ⟨h2, u, h3, h4⟩
        · rintro ⟨h2, u, h3, h4⟩; exact ⟨h2, u, by simp [h3], h4⟩
      rw [h1']
      cases every with
      | false =>
        simp only [Bool.false_eq_true, if_false] at h
        obtain ⟨h2, h3⟩ := ih _ _ h
        refine ⟨h2, fun b hb => ?_⟩
        rw [h3 b hb]; simp
      | true =>
        simp only [if_true] at h
        cases hc : containsAll E o e n t with
        | none => simp [hc] at h
        | some c =>
          simp only [hc] at h
          obtain ⟨h2, h3⟩ := ih _ _ h
          refine ⟨h2, fun b hb => ?_⟩
          rw [h3 b hb, contains_spec E o e n t c hc]
          simp

theorem hybridLoop_spec (E : Env T) (o : Opts) (n : Nat) : ∀ (rs : List T) (b : Bool), hybridLoop E o n rs = some b →
    (b = true ↔ ∃ r ∈ rs, ∃ ps, E.unionTypes r = some ps ∧ ∃ p ∈ ps, ¬ Wholly E o p) := by
  intro rs
  induction rs with
  | nil => intro b h; simp [hybridLoop] at h; subst h; simp
  | cons r rs ih =>
    intro b h
    simp only [hybridLoop] at h
    cases hu : E.unionTypes r with
    | none =>
      simp only [hu] at h
      rw [ih b h]
      simp [hu]
    | some ps =>
      simp only [hu] at h
      cases he : every? (containsAll E o true n) ps with
      | none => simp [he] at h
      | some c =>
        have hs := every?_spec (fun p _ c hc => C72_wholly E o n p c hc) he
        cases c with
        | true =>
          simp only [he] at h
          rw [ih b h]
          have := hs.1 rfl
          constructor
          · rintro ⟨r', h1, h2⟩; exact ⟨r', by simp [h1], h2⟩
          · rintro ⟨r', h1, qs, h2, p, h3, h4⟩
            rcases List.mem_cons.1 h1 with rfl | h1
            · rw [hu] at h2; cases h2; exact absurd (this p h3) h4
            · exact ⟨r', h1, qs, h2, p, h3, h4⟩
        | false =>
          simp only [he] at h
          cases h
          simp only [true_iff]
          have : ¬ ∀ p ∈ ps, Wholly E o p := fun h => by simpa using hs.2 h
          simp only [Classical.not_forall] at this
          obtain ⟨p, hp, h⟩ := this
          exact ⟨r, by simp, ps, hu, p, hp, h⟩

theorem validate_spec (E : Env T) (o : Opts) (n : Nat) (f : Fn T) (r : Outcome) (h : validateNode E o n f = some r) :
    let looked := f.isAsync = false ∧ f.hasBody = true ∧ f.returns ≠ []
    (r = .plain ↔ looked ∧ Untyped E o f) ∧
    (r = .fix ↔ looked ∧ ¬ Untyped E o f ∧ ReturnsPromise E o f ∧ ¬ Hybrid E o f) ∧
    (r = .suggestion ↔ looked ∧ ¬ Untyped E o f ∧ ReturnsPromise E o f ∧ Hybrid E o f) := by
  obtain ⟨kind, isAsync, isAbstract, hasBody, explicit, returns⟩ := f
  simp only [validateNode] at h
  cases isAsync with
  | true => simp at h; subst h; simp
  | false =>
    cases hasBody with
    | false => simp at h; subst h; simp
    | true =>
      cases returns with
      | nil => simp at h; subst h; simp
      | cons t ts =>
        simp only [Bool.not_true, Bool.or_self, Bool.false_eq_true, if_false, List.isEmpty_cons] at h
        simp only [Untyped, ReturnsPromise, Hybrid, ne_eq, reduceCtorEq, not_false_eq_true, true_and]
        generalize t :: ts = rs at h ⊢
        cases hs : signatureLoop E o explicit n rs true with
        | none => simp [hs] at h
        | some x =>
          obtain ⟨h1, h2⟩ := signatureLoop_spec E o explicit n rs true x hs
          simp only [hs] at h
          cases x with
          | none =>
            simp only [Option.some.injEq] at h
            subst h
            have := h1.1 rfl
            simp only [this]
            simp
          | some b =>
            have hu : ¬ (o.allowAny = false ∧ ∃ u ∈ rs, E.loose u = true) := fun h => by simpa using h1.2 h
            have hb := h2 b rfl
            simp only [true_and] at hb
            cases b with
            | false =>
              have hb' : ¬ ∀ r ∈ rs, if explicit = true then Wholly E o r else Possibly E o r := fun h => by simpa using hb.2 h
              simp only [Option.some.injEq] at h
              subst h
              simp only [hu, hb']
              simp
            | true =>
              have hb' := hb.1 rfl
              cases explicit with
              | true =>
                simp only [if_true, Option.some.injEq] at h hb'
                subst h
                simp only [hu]
                simp
                exact hb'
              | false =>
                simp only [Bool.false_eq_true, if_false] at h hb'
                cases hh : hybridLoop E o n rs with
                | none => simp [hh] at h
                | some c =>
                  have hc := hybridLoop_spec E o n rs c hh
                  simp only [hh] at h
                  cases c with
                  | true =>
                    have hy := hc.1 rfl
                    simp only [Option.some.injEq] at h
                    subst h
                    simp only [hu, hy]
                    simp
                    exact hb'
                  | false =>
                    have hy : ¬ ∃ r ∈ rs, ∃ ps, E.unionTypes r = some ps ∧ ∃ p ∈ ps, ¬ Wholly E o p := fun h => by simpa using hc.2 h
                    simp only [Option.some.injEq] at h
                    subst h
                    simp only [hu, hy]
                    simp
                    exact hb'

/-- C72 (reports).  Of the functions looked at: without a fix are reported those one signature of which returns `any` or `unknown`, unless that
is allowed; with a fix those every signature of which returns a promise; with a suggestion those of them whose inferred return type is a union
that has other parts too. -/
theorem C72_report (E : Env T) (o : Opts) (n : Nat) (f : Fn T) (r : Outcome) (h : check E o n f = some r) :
    (r = .plain ↔ LookedAt o f ∧ Untyped E o f) ∧
    (r = .fix ↔ LookedAt o f ∧ ¬ Untyped E o f ∧ ReturnsPromise E o f ∧ ¬ Hybrid E o f) ∧
    (r = .suggestion ↔ LookedAt o f ∧ ¬ Untyped E o f ∧ ReturnsPromise E o f ∧ Hybrid E o f) := by
  unfold LookedAt
  unfold check at h
  cases hk : f.kind with
  | arrow =>
    cases ho : o.checkArrowFunctions <;> simp only [hk, ho, Bool.false_eq_true, if_false, if_true] at h
    · cases h; simp
    · simpa using validate_spec E o n f r h
  | functionDeclaration =>
    cases ho : o.checkFunctionDeclarations <;> simp only [hk, ho, Bool.false_eq_true, if_false, if_true] at h
    · cases h; simp
    · simpa using validate_spec E o n f r h
  | functionExpression =>
    cases ho : o.checkFunctionExpressions <;> simp only [hk, ho, Bool.false_eq_true, if_false, if_true] at h
    · cases h; simp
    · simpa using validate_spec E o n f r h
  | method =>
    cases ho : o.checkMethodDeclarations <;> simp only [hk, ho, Bool.false_eq_true, if_false, if_true] at h
    · cases h; simp
    · cases ha : f.isAbstract <;> simp only [ha, Bool.false_eq_true, if_false, if_true] at h
      · simpa using validate_spec E o n f r h
      · cases h; simp

/-- C72.  With a return type written down nothing is a suggestion, and async functions are never reported. -/
theorem C72_async (E : Env T) (o : Opts) (n : Nat) (f : Fn T) (h : f.isAsync = true ∨ f.hasBody = false) : check E o n f = some .nothing := by
  have : validateNode E o n f = some .nothing := by
    unfold validateNode
    rcases h with h | h <;> simp [h]
  unfold check
  rw [this]
  cases f.kind <;> simp

/-- C72 (fix).  `async` is put directly before the name of a method, after the last modifier of a function declaration, and before the function otherwise. -/
theorem C72_fix (pre a b : Bytes) (k : Kind) (m : Option Nat) :
    (k = .method → AppliesTo (pre ++ a ++ b) [insertAsync k pre.length (pre ++ a).length m] (pre ++ a ++ ascii " async " ++ b)) ∧
    (AppliesTo (pre ++ a ++ b) [insertAsync .functionDeclaration pre.length 0 (some (pre ++ a).length)] (pre ++ a ++ ascii " async" ++ b)) ∧
    (AppliesTo (pre ++ a ++ b) [insertAsync .functionDeclaration (pre ++ a).length 0 none] (pre ++ a ++ ascii " async " ++ b)) ∧
    (k = .arrow ∨ k = .functionExpression → AppliesTo (pre ++ a ++ b) [insertAsync k (pre ++ a).length 0 m] (pre ++ a ++ ascii " async " ++ b)) := by
  have h1 : AppliesTo (pre ++ a ++ b) [⟨ascii " async ", (pre ++ a).length, (pre ++ a).length⟩] (pre ++ a ++ ascii " async " ++ b) := by
    have := Seg.applies_sorted [.keep (pre ++ a), .sub [] (ascii " async "), .keep b]
    simpa [Seg.old, Seg.new, Seg.edits, List.append_assoc] using this
  have h2 : AppliesTo (pre ++ a ++ b) [⟨ascii " async", (pre ++ a).length, (pre ++ a).length⟩] (pre ++ a ++ ascii " async" ++ b) := by
    have := Seg.applies_sorted [.keep (pre ++ a), .sub [] (ascii " async"), .keep b]
    simpa [Seg.old, Seg.new, Seg.edits, List.append_assoc] using this
  refine ⟨?_, h2, h1, ?_⟩
  · rintro rfl; exact h1
  · rintro (rfl | rfl) <;> exact h1

/-! ## Cases: 0 = Promise<number> (target 1), 2 = number, 3 = 0 | 2, 4 = any, 5 = a class extending 0, 6 = 0 | 5 -/

def sample : Env Nat where
  loose := fun t => t == 4
  target := fun t => if t = 0 then 1 else t
  symbol := fun t => if t = 1 then some "Promise" else if t = 5 then some "Mine" else none
  view := fun t => if t = 3 then .union [0, 2] else if t = 6 then .union [0, 5] else if t = 1 then .classOrInterface [] else
    if t = 5 then .classOrInterface [0] else .other
  unionTypes := fun t => if t = 3 then some [0, 2] else if t = 6 then some [0, 5] else none

example : check sample {} 3 ⟨.arrow, false, false, true, false, [3]⟩ = some .suggestion := by decide
example : check sample {} 3 ⟨.arrow, false, false, true, true, [3]⟩ = some .nothing := by decide
example : check sample {} 3 ⟨.arrow, false, false, true, false, [6]⟩ = some .fix := by decide
example : check sample {} 3 ⟨.arrow, false, false, true, true, [6]⟩ = some .fix := by decide
example : check sample {} 3 ⟨.method, false, true, true, true, [6]⟩ = some .nothing := by decide
example : check sample { allowAny := false } 3 ⟨.method, false, false, true, true, [2, 4]⟩ = some .plain := by decide
example : check sample {} 3 ⟨.method, false, false, true, true, [0, 4]⟩ = some .nothing := by decide
example : Hybrid sample {} ⟨.arrow, false, false, true, false, [3]⟩ :=
  ((C72_report sample {} 3 ⟨.arrow, false, false, true, false, [3]⟩ .suggestion (by decide)).2.2.1 rfl).2.2.2
example : Wholly sample {} 6 := (C72_wholly sample {} 3 6 true (by decide)).1 rfl
example : Acc (Below sample) 2 := Acc.intro _ fun u h => by
  rcases h with ⟨ps, h1 | h1, _⟩ | ⟨bs, h1, _⟩ <;> simp [sample] at h1

end Tsgolint.PromiseAsync
