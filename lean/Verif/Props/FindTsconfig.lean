import Verif.Proof.FindTsconfig
/-! # C15: the tsconfig search -/
namespace Tsgolint.FindTsconfig
open Tsgolint.Bfs

theorem find_outcome {e : Env} {fuel n : Nat} {skip : Bool} {r : String} (h : find e fuel n skip = some r) :
    e.compute e.file skip = "" ∧ r = "" ∨ e.compute e.file skip ≠ "" ∧ Outcome e (e.compute e.file skip) r := by
  unfold find at h
  by_cases hc : e.compute e.file skip = ""
  · simp [hc] at h; exact Or.inl ⟨hc, h⟩
  · simp only [hc, ↓reduceIte] at h
    exact Or.inr ⟨hc, findWithReferences_outcome e fuel n _ [] ⟨by simp, by simp⟩ r h⟩

/-- C15 (soundness and preference).  A tsconfig that is returned includes the file.  It is found by following `d` project references
from the `i`-th config upwards; no config reachable from a nearer one includes the file, and none that includes it is reachable from
that one by fewer references. -/
theorem C15_sound_and_nearest (e : Env) (hp : PathsOk e) (fuel n : Nat) (skip : Bool) (r : String)
    (h : find e fuel n skip = some r) (hr : r ≠ "") :
    Includes e r ∧ ∃ i a d, Above e (e.compute e.file skip) i a ∧ Refs e a d r ∧
      (∀ j b, j < i → Above e (e.compute e.file skip) j b → ∀ d' c, Refs e b d' c → ¬ Includes e c) ∧
      (∀ d' c, Refs e a d' c → Includes e c → d ≤ d') := by
  rcases find_outcome h with ⟨_, h⟩ | ⟨_, h⟩
  · exact absurd h hr
  · rcases h with ⟨i, a, d, h1, h2, h3, h4, h5⟩ | ⟨h, _⟩
    · refine ⟨(stops_iff e hp r).1 h3, i, a, d, h1, h2, ?_, ?_⟩
      · intro j b hj hb d' c hc; rw [← stops_iff e hp]; exact h4 j b hj hb d' c hc
      · intro d' c hc hi; exact h5 d' c hc ((stops_iff e hp c).2 hi)
    · exact absurd h hr

/-- C15 (completeness).  If any config reachable by project references from any config going up from the file includes the file, the
search does not come back empty.  (The config with the empty name does not exist.) -/
theorem C15_complete (e : Env) (hp : PathsOk e) (he : e.config "" = none) (fuel n : Nat) (skip : Bool) (r : String)
    (h : find e fuel n skip = some r) (hne : e.compute e.file skip ≠ "") (i d : Nat) (a c : String)
    (ha : Above e (e.compute e.file skip) i a) (hc : Refs e a d c) (hi : Includes e c) : r ≠ "" := by
  rcases find_outcome h with ⟨h', _⟩ | ⟨_, h⟩
  · exact absurd h' hne
  · rcases h with ⟨_, _, _, _, _, h3, _⟩ | ⟨_, h⟩
    · rintro rfl
      have := (stops_iff e hp _).1 h3
      obtain ⟨c, hc, _⟩ := this
      rw [he] at hc; cases hc
    · exact absurd ((stops_iff e hp c).2 hi) (h i a ha d c hc)

/-- C15 (termination).  If finitely many configs are reachable and going up the directories ends, the search ends — whatever cycles
the project references have — and the result does not depend on the fuel. -/
theorem C15_terminates (e : Env) (U : List String) (rank : String → Nat)
    (hrank : ∀ a b, NextUp e a b → rank b < rank a) (skip : Bool)
    (hU : ∀ i a d b, Above e (e.compute e.file skip) i a → Refs e a d b → b ∈ U) (fuel n : Nat) (hf : U.length + 1 ≤ fuel)
    (hn : rank (e.compute e.file skip) < n) : ∃ r, find e fuel n skip = some r := by
  unfold find
  simp only
  split
  · exact ⟨_, rfl⟩
  · exact findWithReferences_terminates e U rank (fun a ha => hrank a _ (nextUp_ancestor ha)) _ hU fuel hf n 0 _ .here hn [] none

/-- C15 (negative finding).  The option `disableSolutionSearching` has no effect at all on which tsconfig is found: the branch of the
code that honours it is reachable only with a fallback result, and the search never produces one. -/
theorem C15_disableSolutionSearching_ignored (e : Env) (g : String → Bool) (fuel n : Nat) (skip : Bool) :
    find (setFlag e g) fuel n skip = find e fuel n skip := by
  unfold find
  have : (setFlag e g).compute (setFlag e g).file skip = e.compute e.file skip := rfl
  simp only [this]
  split
  · rfl
  · exact findWithReferences_setFlag e g fuel n _ []

/-- A small project: `/p/a/tsconfig.json` references `/p/b/tsconfig.json` which references it back; neither includes the file;
`/p/tsconfig.json` references `/p/c/tsconfig.json`, which does. -/
def exampleEnv : Env where
  file := "/p/a/x.ts"
  path := "/p/a/x.ts"
  config n :=
    if n = "/p/a/tsconfig.json" then some ⟨["/p/a/y.ts"], false, true, true, ["/p/b/tsconfig.json"], true⟩
    else if n = "/p/b/tsconfig.json" then some ⟨[], false, true, true, ["/p/a/tsconfig.json"], false⟩
    else if n = "/p/tsconfig.json" then some ⟨["/p/z.ts"], false, true, true, ["/p/a/tsconfig.json", "/p/c/tsconfig.json"], false⟩
    else if n = "/p/c/tsconfig.json" then some ⟨["/p/a/x.ts"], true, true, false, [], false⟩
    else none
  ancestorOf _ := ""
  compute n skip := if skip then (if n = "/p/a/tsconfig.json" then "/p/tsconfig.json" else "") else "/p/a/tsconfig.json"
  toPath := id
  sameName a b := a == b
  base := id

/-- Non-vacuity: the hypotheses hold of the example project and the answer is the referenced config of the parent directory. -/
example : PathsOk exampleEnv ∧ find exampleEnv 10 10 false = some "/p/c/tsconfig.json" := by
  refine ⟨⟨?_, ?_⟩, by decide +kernel⟩
  · intro f h; simpa [exampleEnv] using h
  · intro f h; simpa [exampleEnv] using h

end Tsgolint.FindTsconfig
