/-!
# Model of `BreadthFirstSearch` (/repo/internal/utils/bfs.go:49-111)

Only the sequential code that exists is modelled.  A job (`breadthFirstSearchJob`, bfs.go:15-18) is represented by what
`createPath` (bfs.go:59-66) makes of it: its node followed by the nodes of its parents up to the start.  A level (ordered map
from node to job) is the list of its jobs in insertion order.  `visit` and `neighbors` are pure parameters.
Simplification: `PreprocessLevel` is left out (its only user passes a callback that changes nothing,
/repo/internal/utils/find_tsconfig.go:152-156).
-/
namespace Tsgolint.Bfs

variable {N : Type} [DecidableEq N]

/-- bfs.go:15-18: a node and the path of its parent job (`[]` for the start). -/
structure Job (N : Type) where
  node : N
  up : List N

/-- bfs.go:59-66 `createPath` of a non-nil job -/
def Job.path (j : Job N) : List N := j.node :: j.up

/-- bfs.go:10-13 -/
structure Result (N : Type) where
  stopped : Bool
  path : List N

/-- The mutable state: `visited` (in order of insertion) and `fallback` (bfs.go:53-56, 71). -/
structure St (N : Type) where
  visited : List N
  fallback : Option (Job N)

/-- bfs.go:101-105: add the children of a job to the next level. -/
def addChildren (job : Job N) (next : List (Job N)) : List N → List (Job N)
  | [] => next
  | child :: cs =>
    if next.any (fun j => j.node = child) then addChildren job next cs
    else addChildren job (next ++ [⟨child, job.path⟩]) cs

/-- bfs.go:83-106: one level.  Either the search stops with a job, or the next level is returned. -/
def processLevel (neighbors : N → List N) (visit : N → Bool × Bool) :
    List (Job N) → List (Job N) → St N → St N × (Job N ⊕ List (Job N))
  | [], next, st => (st, .inr next)
  | job :: jobs, next, st =>
    -- bfs.go:86-88
    if job.node ∈ st.visited then processLevel neighbors visit jobs next st
    else
      let st := { st with visited := st.visited ++ [job.node] }
      -- bfs.go:90-98
      let (isResult, stop) := visit job.node
      if isResult && stop then (st, .inl job)
      else
        let st := if isResult && st.fallback.isNone then { st with fallback := some job } else st
        processLevel neighbors visit jobs (addChildren job next (neighbors job.node)) st

/-- bfs.go:76-111: the loop over levels.  `none`: out of fuel (the loop runs for more levels than that). -/
def loop (neighbors : N → List N) (visit : N → Bool × Bool) : Nat → List (Job N) → St N → Option (Result N × List N)
  | _, [], st => some (⟨false, (st.fallback.map Job.path).getD []⟩, st.visited)
  | 0, _ :: _, _ => none
  | fuel + 1, job :: jobs, st =>
    match processLevel neighbors visit (job :: jobs) [] st with
    | (st, .inl job) => some (⟨true, job.path⟩, st.visited)
    | (st, .inr next) => loop neighbors visit fuel next st

/-- bfs.go:49-111 with the set `visited` given by the caller (`[]`: a new set); returns also the final set. -/
def bfs (fuel : Nat) (start : N) (neighbors : N → List N) (visit : N → Bool × Bool) (visited : List N) :
    Option (Result N × List N) :=
  loop neighbors visit fuel [⟨start, []⟩] ⟨visited, none⟩

end Tsgolint.Bfs
