import Verif.Model.Framing
/-!
# The headless pipeline as a labelled transition system

Models the concurrent part of `runHeadless` (/repo/cmd/tsgolint/headless.go:329-472) together with the sequential driver
`RunLinter` (/repo/internal/linter/linter.go:80-212) and the worker pool of `RunLinterOnProgram`
(/repo/internal/linter/linter.go:464-620): main goroutine, lint workers, bounded diagnostics channel, writer goroutine.
One `Step` is one atomic action of one goroutine; a schedule is any sequence of steps.

Simplifications (all over-approximate the possible schedules):
* what a file's rules report is an abstract list `diags f` (justified by the sequential model in `Model/Worker`);
* `bufio.Writer` (std library, size 409600, flushed when fewer than 4096 bytes are available, headless.go:335,398-400) is an
  unbounded buffer from which *any* non-empty prefix may move to stdout at *any* time: every real flush pattern, including
  partial writes of the OS, is one of those;
* panics are not modelled as steps (a panic ends the process: every theorem about "every reachable state" covers that instant).
-/
namespace Tsgolint.Pipeline
open Framing

/-- What `RunLinter` (linter.go:94-210) does, in order: report internal diagnostics (linter.go:109-115, 178-182 and
`reportTypeScriptDiagnostics`, linter.go:476), lint one program's files with its checkers (linter.go:477-617), or return an error
(linter.go:105-107,174-176; `fail e` carries the marshalled error payload). -/
inductive Job (D F : Type)
  | internal (ds : List D)
  | program (files : List F) (checkers : List Nat)
  | fail (payload : Option Bytes)

/-- Parameters of a run. -/
structure Params (D F : Type) where
  /-- number of workers, linter.go:480 (`runtime.GOMAXPROCS(0)`, headless.go:417) -/
  W : Nat
  /-- capacity of `diagnosticsChan`, headless.go:331 (4096) -/
  cap : Nat
  /-- `json.Marshal` of the wire form of a diagnostic, headless.go:338-397; `none` if marshalling fails -/
  enc : D → Option Bytes
  /-- diagnostics reported while linting a file -/
  diags : F → List D
  /-- `opts.debugTimings` and the marshalled timing payload, headless.go:461-466 -/
  timing : Option (Option Bytes)

/-- One lint worker goroutine, linter.go:481-615. -/
inductive Worker (D F : Type)
  /-- at `for w := range workloadQueue` (linter.go:500,558) -/
  | idle
  /-- at `for file := range w.queue` with checker `c` (linter.go:506,564) -/
  | holding (c : Nat)
  /-- linting file `f` with checker `c`; `rest` still to be sent to the channel (headless.go:438) -/
  | linting (c : Nat) (f : F) (rest : List D)
  /-- returned -/
  | done

/-- The main goroutine. -/
inductive Main (D : Type)
  /-- in `RunLinter`, about to do the next job -/
  | run
  /-- `onInternalDiagnostic` calls, headless.go:439 -/
  | sending (ds : List D)
  /-- `wg.RunAndWait()`, linter.go:617 -/
  | joining
  /-- `RunLinter` returned, headless.go:452; `some e` is the error case -/
  | closing (err : Option (Option Bytes))
  /-- `wg.Wait()`, headless.go:459 -/
  | waitWriter
  /-- writing the timing message, headless.go:461-466; `ok` is whether marshalling succeeded -/
  | writeTiming (rest : Bytes) (ok : Bool)
  /-- `writeErrorMessage`, headless.go:455 -/
  | writeError (rest : Bytes)
  /-- `return code`, headless.go:456,464,472 -/
  | exit (code : Nat)

structure State (D F : Type) where
  main : Main D
  jobs : List (Job D F)
  workers : List (Worker D F)
  /-- `workloadQueue`: checkers not yet taken (closed buffered channel, linter.go:387-391) -/
  workloads : List Nat
  /-- shared file queue (closed buffered channel, linter.go:368-375) -/
  queue : List F
  /-- contents of `diagnosticsChan` -/
  chan : List D
  closed : Bool
  /-- bytes in the `bufio.Writer` -/
  buf : Bytes
  writerExited : Bool
  /-- everything written to stdout so far -/
  out : Bytes
  /-- history variable: diagnostics sent to the channel for finished jobs, one segment per job -/
  segs : List (List D)
  /-- history variable: diagnostics sent for the current job -/
  seg : List D
  /-- history variable: files whose linting was started, in order -/
  log : List F

variable {D F : Type}

/-- headless.go:331-413: nothing sent yet, writer waiting. -/
def init (jobs : List (Job D F)) : State D F :=
  { main := .run, jobs := jobs, workers := [], workloads := [], queue := [], chan := [], closed := false, buf := [],
    writerExited := false, out := [], segs := [], seg := [], log := [] }

/-- Bytes of the diagnostic message, headless.go:397 (nothing if marshalling fails: the error is ignored). -/
def diagFrame (P : Params D F) (d : D) : Bytes := (writeMessage .diagnostic (P.enc d)).1

/-- Bytes of the timing message, headless.go:461-462. -/
def timingFrame (P : Params D F) : Bytes :=
  match P.timing with
  | none => []
  | some m => (writeMessage .timing m).1

/-- Whether the timing message (if any) could be marshalled, headless.go:462. -/
def timingOk (P : Params D F) : Bool :=
  match P.timing with
  | none => true
  | some m => (writeMessage .timing m).2

/-- Bytes of the error message, headless.go:208-212,455. -/
def errorFrame (e : Option Bytes) : Bytes := (writeMessage .error e).1

/-- One atomic action of one goroutine. -/
inductive Step (P : Params D F) : State D F → State D F → Prop
  -- main goroutine, inside RunLinter
  /-- linter.go:110-112,179-181,326,356: start reporting internal diagnostics -/
  | startInternal {s ds js} : s.main = .run → s.jobs = .internal ds :: js →
      Step P s { s with main := .sending ds, jobs := js }
  /-- headless.go:439: `diagnosticsChan <- …` blocks while the channel is full -/
  | sendInternal {s d ds} : s.main = .sending (d :: ds) → s.chan.length < P.cap →
      Step P s { s with main := .sending ds, chan := s.chan ++ [d], seg := s.seg ++ [d] }
  | endInternal {s} : s.main = .sending [] →
      Step P s { s with main := .run, segs := s.segs ++ [s.seg], seg := [] }
  /-- linter.go:477-616: fill both queues, start the workers -/
  | startProgram {s fs cs js} : s.main = .run → s.jobs = .program fs cs :: js →
      Step P s { s with main := .joining, jobs := js, queue := fs, workloads := cs,
                        workers := List.replicate P.W .idle }
  /-- linter.go:617: all workers returned -/
  | join {s} : s.main = .joining → (∀ w ∈ s.workers, w = .done) →
      Step P s { s with main := .run, workers := [], queue := [], workloads := [], segs := s.segs ++ [s.seg], seg := [] }
  /-- linter.go:105-107,174-176: return an error -/
  | fail {s e js} : s.main = .run → s.jobs = .fail e :: js →
      Step P s { s with main := .closing (some e), jobs := js }
  /-- linter.go:210: return nil -/
  | finish {s} : s.main = .run → s.jobs = [] → Step P s { s with main := .closing none }
  -- main goroutine, after RunLinter
  /-- headless.go:452-455: close the channel, then write the error message *without* waiting for the writer -/
  | closeErr {s e} : s.main = .closing (some e) →
      Step P s { s with closed := true, main := .writeError (errorFrame e) }
  /-- headless.go:452,459 -/
  | closeOk {s} : s.main = .closing none → Step P s { s with closed := true, main := .waitWriter }
  /-- headless.go:459-462 -/
  | waited {s} : s.main = .waitWriter → s.writerExited = true →
      Step P s { s with main := .writeTiming (timingFrame P) (timingOk P) }
  /-- direct write to stdout, possibly in several pieces (headless.go:203-204) -/
  | writeTiming {s a b ok} : s.main = .writeTiming (a ++ b) ok → a ≠ [] →
      Step P s { s with main := .writeTiming b ok, out := s.out ++ a }
  /-- headless.go:464,472 -/
  | exitOk {s ok} : s.main = .writeTiming [] ok → Step P s { s with main := .exit (if ok then 0 else 1) }
  | writeError {s a b} : s.main = .writeError (a ++ b) → a ≠ [] →
      Step P s { s with main := .writeError b, out := s.out ++ a }
  /-- headless.go:456 -/
  | exitErr {s} : s.main = .writeError [] → Step P s { s with main := .exit 1 }
  -- lint workers
  /-- linter.go:500: receive a workload (a checker) -/
  | takeWorkload {s pre post c cs} : s.workers = pre ++ .idle :: post → s.workloads = c :: cs →
      Step P s { s with workers := pre ++ .holding c :: post, workloads := cs }
  /-- linter.go:500: the closed workload queue is empty -/
  | noWorkload {s pre post} : s.workers = pre ++ .idle :: post → s.workloads = [] →
      Step P s { s with workers := pre ++ .done :: post }
  /-- linter.go:506: receive a file -/
  | takeFile {s pre post c f fs} : s.workers = pre ++ .holding c :: post → s.queue = f :: fs →
      Step P s { s with workers := pre ++ .linting c f (P.diags f) :: post, queue := fs, log := s.log ++ [f] }
  /-- linter.go:506: the closed file queue is empty -/
  | noFile {s pre post c} : s.workers = pre ++ .holding c :: post → s.queue = [] →
      Step P s { s with workers := pre ++ .idle :: post }
  /-- headless.go:438: `diagnosticsChan <- ruleToAny(d)` blocks while the channel is full -/
  | send {s pre post c f d ds} : s.workers = pre ++ .linting c f (d :: ds) :: post → s.chan.length < P.cap →
      Step P s { s with workers := pre ++ .linting c f ds :: post, chan := s.chan ++ [d], seg := s.seg ++ [d] }
  /-- linter.go:534-539: the file is finished -/
  | endFile {s pre post c f} : s.workers = pre ++ .linting c f [] :: post →
      Step P s { s with workers := pre ++ .holding c :: post }
  -- writer goroutine, headless.go:334-402 (it stops with the process once main has returned)
  /-- headless.go:337,397: receive and write into the buffer -/
  | recv {s d ds} : (∀ c, s.main ≠ .exit c) → s.writerExited = false → s.chan = d :: ds →
      Step P s { s with chan := ds, buf := s.buf ++ diagFrame P d }
  /-- `bufio.Writer` moves bytes to stdout (automatic, headless.go:399, or the deferred flush headless.go:336) -/
  | flush {s a b} : (∀ c, s.main ≠ .exit c) → s.writerExited = false → s.buf = a ++ b → a ≠ [] →
      Step P s { s with buf := b, out := s.out ++ a }
  /-- headless.go:337,336: channel closed and drained, the deferred flush has emptied the buffer -/
  | writerExit {s} : (∀ c, s.main ≠ .exit c) → s.writerExited = false → s.closed = true → s.chan = [] → s.buf = [] →
      Step P s { s with writerExited := true }

/-- States reachable from the start of a run. -/
inductive Reachable (P : Params D F) (jobs : List (Job D F)) : State D F → Prop
  | init : Reachable P jobs (init jobs)
  | step {s t} : Reachable P jobs s → Step P s t → Reachable P jobs t

/-- `n` steps from `s` to `t`. -/
inductive Run (P : Params D F) : Nat → State D F → State D F → Prop
  | zero {s} : Run P 0 s s
  | succ {n s t u} : Run P n s t → Step P t u → Run P (n + 1) s u

end Tsgolint.Pipeline
