import Verif.Model.Bfs
/-! # Independent vocabulary for breadth-first search -/
namespace Tsgolint.Bfs
variable {N : Type}

/-- There is a walk of `k` edges from `start` to `n` on which every node (both ends included) avoids `old`. -/
inductive Walk (neighbors : N → List N) (old : List N) (start : N) : Nat → N → Prop
  | start : start ∉ old → Walk neighbors old start 0 start
  | step {k n m} : Walk neighbors old start k n → m ∈ neighbors n → m ∉ old → Walk neighbors old start (k + 1) m

/-- `p` is a path read backwards: it begins with `target`, ends with `start`, and each element is a neighbour of the next one. -/
def BackPath (neighbors : N → List N) (start target : N) (p : List N) : Prop :=
  p.head? = some target ∧ p.getLast? = some start ∧
    ∀ pre a b post, p = pre ++ a :: b :: post → a ∈ neighbors b

/-- The node makes the search stop. -/
def Stops (visit : N → Bool × Bool) (n : N) : Prop := visit n = (true, true)

/-- The node is a fallback result. -/
def IsFallback (visit : N → Bool × Bool) (n : N) : Prop := visit n = (true, false)

end Tsgolint.Bfs
