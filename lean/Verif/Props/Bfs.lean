import Verif.Proof.Bfs
/-! # C14: breadth-first search -/
namespace Tsgolint.Bfs
variable {N : Type} [DecidableEq N]

/-- C14 (termination).  On every graph whose nodes reachable from the start lie in a finite list — cyclic or not — the search ends,
after at most as many levels as there are nodes, plus one. -/
theorem C14_terminates (neighbors : N → List N) (visit : N → Bool × Bool) (start : N) (old U : List N)
    (hU : ∀ n j, Walk neighbors old start j n → n ∈ U) :
    ∃ r, ∀ fuel, U.length + 1 ≤ fuel → bfs fuel start neighbors visit old = some r := by
  obtain ⟨r, h⟩ := bfs_terminates (vis := visit) U hU
  exact ⟨r, fun fuel hf => loop_fuel _ _ _ _ _ h hf⟩

/-- C14 (visits).  The nodes the search visits (those it adds to the set of visited nodes, in order) are pairwise distinct, were not
visited before, and are reachable from the start through nodes not visited before. -/
theorem C14_visits (neighbors : N → List N) (visit : N → Bool × Bool) (start : N) (old : List N) (fuel : Nat)
    (r : Result N × List N) (h : bfs fuel start neighbors visit old = some r) :
    ∃ trace, r.2 = old ++ trace ∧ trace.Nodup ∧ ∀ n ∈ trace, n ∉ old ∧ ∃ k, Walk neighbors old start k n := by
  obtain ⟨trace, h1, h2, h3, h4, _⟩ := bfs_post h
  exact ⟨trace, h1, h2, fun n hn => ⟨h3 n hn, h4 n hn⟩⟩

/-- C14 (stopping).  The search stops iff a stopping node is reachable through nodes not visited before. -/
theorem C14_stops_iff (neighbors : N → List N) (visit : N → Bool × Bool) (start : N) (old : List N) (fuel : Nat)
    (r : Result N × List N) (h : bfs fuel start neighbors visit old = some r) :
    r.1.stopped = true ↔ ∃ n k, Walk neighbors old start k n ∧ Stops visit n := by
  obtain ⟨trace, h1, h2, h3, h4, h5, h6⟩ := bfs_post h
  constructor
  · intro hs
    obtain ⟨n, k, hn, _, _, hw, _⟩ := h5 hs
    exact ⟨n, k, hw, hn⟩
  · rintro ⟨n, k, hw, hn⟩
    cases hs : r.1.stopped with
    | true => rfl
    | false =>
      obtain ⟨g1, g2, _⟩ := h6 hs
      exact absurd hn (g2 n ((g1 n).2 ⟨k, hw⟩))

/-- C14 (shortest path).  When the search stops, the returned path leads from a stopping node back to the start along edges of the
graph, and no stopping node is nearer. The node it stops at is the last one visited; no other visited node is a stopping node. -/
theorem C14_shortest_path (neighbors : N → List N) (visit : N → Bool × Bool) (start : N) (old : List N) (fuel : Nat)
    (r : Result N × List N) (h : bfs fuel start neighbors visit old = some r) (hs : r.1.stopped = true) :
    ∃ n trace, Stops visit n ∧ BackPath neighbors start n r.1.path ∧
      Walk neighbors old start (r.1.path.length - 1) n ∧
      (∀ n' k, Walk neighbors old start k n' → Stops visit n' → r.1.path.length ≤ k + 1) ∧
      r.2 = old ++ trace ++ [n] ∧ ∀ m ∈ trace, ¬ Stops visit m := by
  obtain ⟨trace, h1, h2, h3, h4, h5, h6⟩ := bfs_post h
  obtain ⟨n, k, g1, g2, g3, g4, g5, t', g6, g7⟩ := h5 hs
  refine ⟨n, t', g1, g2, by rw [g3]; simpa using g4, ?_, by simp [h1, g6], g7⟩
  intro n' j hw hn'
  have := g5 n' j hw hn'
  omega

/-- C14 (exhaustion and fallback).  When the search does not stop it has visited every node reachable through nodes not visited
before, and the path is the one to the first visited fallback result, or empty if there is none. -/
theorem C14_fallback (neighbors : N → List N) (visit : N → Bool × Bool) (start : N) (old : List N) (fuel : Nat)
    (r : Result N × List N) (h : bfs fuel start neighbors visit old = some r) (hs : r.1.stopped = false) :
    ∃ trace, r.2 = old ++ trace ∧ (∀ n, n ∈ trace ↔ ∃ k, Walk neighbors old start k n) ∧
      (r.1.path = [] ∧ (∀ n ∈ trace, ¬ IsFallback visit n) ∨
       ∃ a n b, trace = a ++ n :: b ∧ IsFallback visit n ∧ (∀ m ∈ a, ¬ IsFallback visit m) ∧
        BackPath neighbors start n r.1.path) := by
  obtain ⟨trace, h1, h2, h3, h4, h5, h6⟩ := bfs_post h
  obtain ⟨g1, g2, g3⟩ := h6 hs
  exact ⟨trace, h1, g1, g3⟩

/-- Non-vacuity: a cyclic graph with a fallback and a stopping node two edges away; and the same graph without stopping node. -/
example :
    let g : Nat → List Nat := fun n => if n = 0 then [1, 2] else if n = 1 then [0] else if n = 2 then [0, 3] else [1]
    (bfs 5 0 g (fun n => (n == 1 || n == 3, n == 3)) []).map (fun r => (r.1.stopped, r.1.path, r.2)) =
      some (true, [3, 2, 0], [0, 1, 2, 3]) ∧
    (bfs 5 0 g (fun n => (n == 1, false)) []).map (fun r => (r.1.stopped, r.1.path, r.2)) =
      some (false, [1, 0], [0, 1, 2, 3]) := by decide

end Tsgolint.Bfs
