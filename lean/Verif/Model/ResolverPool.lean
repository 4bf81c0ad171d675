/-!
# Model of `FindTsConfigParallel` (/repo/internal/utils/find_tsconfig.go:216-267) as a transition system

Goroutines: main, `numWorker` workers (`work`, find_tsconfig.go:216-236) and the closer goroutine
(find_tsconfig.go:256-259).  The per-file lookup (`ComputeConfigFileName` + `findConfigWithReferences`) is a parameter
`resolve`; its shared registry cache is assumed to be semantically transparent.
-/
namespace Tsgolint.ResolverPool

/-- find_tsconfig.go:216-236: a worker waiting on `in`, holding a file whose result is to be pushed to `out`, or returned. -/
inductive Worker (F : Type)
  | idle
  | busy (f : F)
  | done

/-- Main goroutine: filling `in` (find_tsconfig.go:251-254), draining `out` (find_tsconfig.go:261-264), returned (266). -/
inductive Main
  | sending
  | draining
  | returned
deriving DecidableEq

structure State (F C : Type) where
  main : Main
  /-- files not yet put into `in` -/
  todo : List F
  /-- channel `in`, capacity `len(fileNames)` -/
  inq : List F
  inClosed : Bool
  workers : List (Worker F)
  /-- channel `out`, capacity `len(fileNames)` -/
  outq : List (F × C)
  outClosed : Bool
  /-- the result map `res` -/
  res : F → Option C

variable {F C : Type}

/-- find_tsconfig.go:238-249 -/
def init (W : Nat) (files : List F) : State F C :=
  { main := .sending, todo := files, inq := [], inClosed := false, workers := List.replicate W .idle, outq := [],
    outClosed := false, res := fun _ => none }

/-- `res[k] = v`. -/
def update [DecidableEq F] (m : F → Option C) (k : F) (v : C) : F → Option C := fun x => if x = k then some v else m x

/-- One atomic action; `n` is the channel capacity `len(fileNames)`. -/
inductive Step [DecidableEq F] (resolve : F → C) (n : Nat) : State F C → State F C → Prop
  /-- find_tsconfig.go:251-253 -/
  | put {s f fs} : s.main = .sending → s.todo = f :: fs → s.inq.length < n →
      Step resolve n s { s with todo := fs, inq := s.inq ++ [f] }
  /-- find_tsconfig.go:254; the closer goroutine is started right after -/
  | closeIn {s} : s.main = .sending → s.todo = [] → Step resolve n s { s with inClosed := true, main := .draining }
  /-- find_tsconfig.go:217: receive -/
  | take {s pre post f fs} : s.workers = pre ++ .idle :: post → s.inq = f :: fs →
      Step resolve n s { s with inq := fs, workers := pre ++ .busy f :: post }
  /-- find_tsconfig.go:217: closed and empty -/
  | stop {s pre post} : s.workers = pre ++ .idle :: post → s.inq = [] → s.inClosed = true →
      Step resolve n s { s with workers := pre ++ .done :: post }
  /-- find_tsconfig.go:218-234: compute and push (blocks while `out` is full) -/
  | push {s pre post f} : s.workers = pre ++ .busy f :: post → s.outq.length < n →
      Step resolve n s { s with outq := s.outq ++ [(f, resolve f)], workers := pre ++ .idle :: post }
  /-- find_tsconfig.go:256-259: `wg.Wait(); close(out)` -/
  | closeOut {s} : s.main ≠ .sending → s.outClosed = false → (∀ w ∈ s.workers, w = .done) →
      Step resolve n s { s with outClosed := true }
  /-- find_tsconfig.go:262-264 -/
  | get {s f c rest} : s.main = .draining → s.outq = (f, c) :: rest →
      Step resolve n s { s with outq := rest, res := update s.res f c }
  /-- find_tsconfig.go:262,266 -/
  | ret {s} : s.main = .draining → s.outq = [] → s.outClosed = true →
      Step resolve n s { s with main := .returned }

inductive Reachable [DecidableEq F] (resolve : F → C) (W : Nat) (files : List F) : State F C → Prop
  | init : Reachable resolve W files (init W files)
  | step {s t} : Reachable resolve W files s → Step resolve files.length s t → Reachable resolve W files t

inductive Run [DecidableEq F] (resolve : F → C) (n : Nat) : Nat → State F C → State F C → Prop
  | zero {s} : Run resolve n 0 s s
  | succ {k s t u} : Run resolve n k s t → Step resolve n t u → Run resolve n (k + 1) s u

end Tsgolint.ResolverPool
