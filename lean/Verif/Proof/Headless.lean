import Verif.Spec.Headless
import Verif.Props.Pipeline
import Verif.Props.Workload
import Verif.Props.Worker
import Verif.Props.Run
import Verif.Props.Emit
namespace Tsgolint.Headless
open Tsgolint.Emit Tsgolint.Report
variable {Node : Type}

theorem split_ne_nil (sep : Char) (s : List Char) : split sep s ≠ [] := by
  cases s with
  | nil => simp [split]
  | cons c cs => unfold split; split <;> (try split) <;> simp

theorem split_clean (sep : Char) (s : List Char) : ∀ p ∈ split sep s, sep ∉ p := by
  induction s with
  | nil => simp [split]
  | cons c cs ih =>
    unfold split
    split
    · intro p hp; rcases List.mem_cons.1 hp with rfl | hp
      · simp
      · exact ih p hp
    · rename_i hne
      split
      · intro p hp; simp at hp; subst hp; simp; exact fun h => hne h.symm
      · rename_i q qs hq
        intro p hp
        rcases List.mem_cons.1 hp with rfl | hp
        · have := ih q (by rw [hq]; simp)
          simp only [List.mem_cons, not_or]; exact ⟨fun h => hne h.symm, this⟩
        · exact ih p (by rw [hq]; simp [hp])

theorem join_cons (sep : Char) (p : List Char) (ps : List (List Char)) (h : ps ≠ []) : join sep (p :: ps) = p ++ sep :: join sep ps := by
  cases ps with
  | nil => exact absurd rfl h
  | cons q qs => rfl

theorem join_split (sep : Char) (s : List Char) : join sep (split sep s) = s := by
  induction s with
  | nil => rfl
  | cons c cs ih =>
    unfold split
    split
    · rename_i h; subst h; rw [join_cons _ _ _ (split_ne_nil _ _), ih]; rfl
    · split
      · rename_i h; exact absurd h (split_ne_nil _ _)
      · rename_i q qs hq
        rw [hq] at ih
        cases qs with
        | nil => simp [join] at ih ⊢; exact ih
        | cons r rs => simp [join] at ih ⊢; exact ih

theorem split_join (sep : Char) (ps : List (List Char)) (hne : ps ≠ []) (h : ∀ p ∈ ps, sep ∉ p) : split sep (join sep ps) = ps := by
  have one : ∀ p : List Char, sep ∉ p → ∀ rest, split sep (p ++ sep :: rest) = p :: split sep rest := by
    intro p hp rest
    induction p with
    | nil => simp [split]
    | cons c cs ih =>
      simp only [List.mem_cons, not_or] at hp
      have hc : ¬ c = sep := fun h => hp.1 h.symm
      simp [split, hc, ih hp.2]
  have last : ∀ p : List Char, sep ∉ p → split sep p = [p] := by
    intro p hp
    induction p with
    | nil => rfl
    | cons c cs ih =>
      simp only [List.mem_cons, not_or] at hp
      have hc : ¬ c = sep := fun h => hp.1 h.symm
      simp [split, hc, ih hp.2]
  induction ps with
  | nil => exact absurd rfl hne
  | cons p ps ih =>
    cases ps with
    | nil => exact last p (h p (by simp))
    | cons q qs =>
      rw [join_cons _ _ _ (by simp), one p (h p (by simp)), ih (by simp) fun x hx => h x (by simp [hx])]

theorem debugLoop_spec (ps : List (List Char)) : ∀ t, debugLoop t ps =
    if ∀ p ∈ ps, p = [] ∨ p = "timings".toList then some (t || decide ("timings".toList ∈ ps)) else none := by
  induction ps with
  | nil => intro t; simp [debugLoop]
  | cons p ps ih =>
    intro t
    unfold debugLoop
    have hnil : ¬ ("timings".toList = ([] : List Char)) := by decide
    by_cases h1 : p = []
    · subst h1
      rw [if_pos rfl, ih]
      have e1 : (∀ p ∈ ([] : List Char) :: ps, p = [] ∨ p = "timings".toList) ↔ ∀ p ∈ ps, p = [] ∨ p = "timings".toList := by simp
      have e2 : "timings".toList ∈ ([] : List Char) :: ps ↔ "timings".toList ∈ ps := by simp only [List.mem_cons, hnil, false_or]
      simp only [e1, e2]
    · by_cases h2 : p = "timings".toList
      · subst h2
        rw [if_neg h1, if_pos rfl, ih]
        have e1 : (∀ p ∈ "timings".toList :: ps, p = [] ∨ p = "timings".toList) ↔ ∀ p ∈ ps, p = [] ∨ p = "timings".toList := by
          constructor
          · intro h p hp; exact h p (by simp [hp])
          · intro h p hp; rcases List.mem_cons.1 hp with rfl | hp
            · exact .inr rfl
            · exact h p hp
        have e2 : "timings".toList ∈ "timings".toList :: ps := List.mem_cons_self
        simp only [e1, e2, decide_true, Bool.or_true, Bool.true_or]
      · rw [if_neg h1, if_neg h2, if_neg]
        intro h; rcases h p (by simp) with h | h
        · exact h1 h
        · exact h2 h

theorem jobs_ok (e : Env Node) (he : e.Ok) (p : Payload.Payload) : ∀ j ∈ jobs e p, j.Ok := by
  intro j hj
  unfold jobs at hj
  rcases List.mem_append.1 hj with hj | hj
  · obtain ⟨a, _, rfl⟩ := List.mem_map.1 hj
    cases a with
    | internal d => trivial
    | lint prog files => exact he.checkers prog
  · split at hj
    · simp at hj; subst hj; trivial
    · simp at hj

theorem jobs_good (e : Env Node) (he : e.Ok) (p : Payload.Payload) (h : (actions e p).2 = .returned) : ∀ j ∈ jobs e p, j.Good := by
  intro j hj
  unfold jobs at hj
  rw [h] at hj
  simp only [List.append_nil] at hj
  obtain ⟨a, _, rfl⟩ := List.mem_map.1 hj
  cases a with
  | internal d => trivial
  | lint prog files => exact he.checkers prog

end Tsgolint.Headless
