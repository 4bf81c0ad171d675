import Verif.Model.Workload
import Verif.Model.Run
import Verif.Model.Worker
import Verif.Model.Pipeline
/-!
# Model of `runHeadless` as a whole (/repo/cmd/tsgolint/headless.go:215-473)

Ties together the models of the payload, the workload, the driver, the workers, the conversion and the concurrent pipeline.
Go's `flag` package is modelled by its three possible outcomes.  Simplifications: the stdin text is given as parsed by the JSON
library; profiling is modelled by whether starting it fails (its cleanup runs after the exit code is known).
-/
namespace Tsgolint.Headless
open Tsgolint.Emit Tsgolint.Report

/-! ## Options -/

/-- `strings.Split(s, ",")` (standard library): the pieces between the commas. -/
def split (sep : Char) : List Char → List (List Char)
  | [] => [[]]
  | c :: cs =>
    if c = sep then [] :: split sep cs
    else match split sep cs with
      | [] => [[c]]
      | p :: ps => (c :: p) :: ps

/-- main.go:383-394: the loop over the pieces; `none` is the error. -/
def debugLoop (timings : Bool) : List (List Char) → Option Bool
  | [] => some timings
  | o :: os =>
    if o = [] then debugLoop timings os
    else if o = "timings".toList then debugLoop true os
    else none

/-- main.go:378-397 `parseDebugTimings` -/
def parseDebugTimings (options : List Char) : Option Bool :=
  if options = [] then some false else debugLoop false (split ',' options)

/-- `flag.CommandLine.Parse(args)` (headless.go:57): success with the values of the flags, `-h`/`-help`, or a syntax error.  The
command line flag set is created with `ExitOnError`, so in the last two cases the process exits at once with 0 or 2; the error branch
headless.go:57-59 is dead code. -/
inductive Flags
  | parsed (fix fixSuggestions : Bool) (debug : List Char)
  | help
  | bad

/-! ## The process -/

/-- headless.go:175-191 -/
inductive AnyDiag
  | rule (d : Diagnostic Run.File Range)
  | internal (d : Internal)

/-- headless.go:338-396 -/
def convert (valid : Range → Bool) (opts : FixState) : AnyDiag → Option HDiagnostic
  | .rule d => ruleMessage valid (·.name) opts d
  | .internal d => some (internalMessage valid d)

/-- A rule implementation applied to its options. -/
abbrev RuleImpl (Node : Type) := Worker.Rule Run.File Node Range

/-- Everything the process depends on. -/
structure Env (Node : Type) where
  flags : Flags
  traceFails : Bool
  cpuProfileFails : Bool
  getwdFails : Bool
  /-- `io.ReadAll(os.Stdin)`: fails, or gives a text; `none` inside if it is not JSON -/
  stdin : Option (Option Payload.Json)
  ts : Run.Ts
  contains : String → String → Bool
  suppress : Bool
  /-- result of `FindTsConfigParallel`; "" for none -/
  tsconfig : String → String
  /-- the order in which Go enumerates the lookup result -/
  order : List String → List String
  /-- the order in which Go enumerates `workload.Programs` (for the given payload): its keys -/
  programOrder : Payload.Payload → List String
  sorter : Sorter Workload.byLength
  /-- `allRules` -/
  rules : List (Workload.Registered (RuleImpl Node))
  trim : Option Run.File → Node → Range
  events : Run.File → List (Worker.Kind × Node)
  shuffle : Nat → List Worker.Kind → List Worker.Kind
  valid : Range → Bool
  /-- `json.Marshal` -/
  marshal : HDiagnostic → Option Framing.Bytes
  marshalError : String → Option Framing.Bytes
  marshalTimings : Option Framing.Bytes
  checkers : Run.Program → List Nat
  workers : Nat

/-- What the part of `runHeadless` before the linter starts ends with. -/
inductive Start
  /-- `return code` (or exit inside the `flag` package), with the error message written to stdout if any -/
  | exit (code : Nat) (stdout : Option String)
  | go (fx : FixState) (debugTimings : Bool) (p : Payload.Payload)

variable {Node : Type}

/-- headless.go:224-258 (and main.go:141-160 `setupProfiling`) -/
def start (e : Env Node) : Start :=
  match e.flags with
  | .help => .exit 0 none
  | .bad => .exit 2 none
  | .parsed fix fixSuggestions debug =>
    -- headless.go:61-64, 225-228
    match parseDebugTimings debug with
    | none => .exit 1 none
    | some timings =>
      -- headless.go:230-235
      if e.traceFails then .exit 1 none
      else if e.cpuProfileFails then .exit 1 none
      -- headless.go:237-241
      else if e.getwdFails then .exit 1 (some "error getting current directory")
      -- headless.go:243-247
      else match e.stdin with
        | none => .exit 1 (some "error reading from stdin")
        | some j =>
          -- headless.go:249-253
          match Payload.deserializeBytes id j with
          | .error _ => .exit 1 (some "error parsing config")
          | .ok p => .go ⟨fix, fixSuggestions⟩ timings p

/-- headless.go:275-322 -/
def workload (e : Env Node) (p : Payload.Payload) : Workload.Workload :=
  let acc := Workload.collect p.configs
  Workload.build e.sorter e.tsconfig (e.order acc.files)

/-- headless.go:415-434 for one file; the panic for an unknown rule is `none`. -/
def rulesFor (e : Env Node) (p : Payload.Payload) (f : Run.File) : Option (List (RuleImpl Node)) :=
  (Workload.getRules e.rules (Workload.collect p.configs).configs f.name).map fun l => l.map fun x => { x.2 with name := x.1 }

/-- The parameters of the workers. -/
def workerParams (e : Env Node) (p : Payload.Payload) (fx : FixState) : Worker.Params Run.File Node Range where
  trim := e.trim
  fx := fx
  rules f := (rulesFor e p f).getD []
  events := e.events
  shuffle := e.shuffle

/-- The diagnostics a worker reports for a file (justified by C18/C19: they do not depend on what the worker did before). -/
def fileDiags (e : Env Node) (p : Payload.Payload) (fx : FixState) (f : Run.File) : List AnyDiag :=
  (Worker.work (workerParams e p fx) [f]).filterMap fun | .emitted d => some (.rule d) | _ => none

/-- headless.go:412-450: the actions of `RunLinter` on this workload. -/
def actions (e : Env Node) (p : Payload.Payload) : List Run.Action × Run.Ending :=
  let w := workload e p
  Run.runLinter e.ts e.contains e.suppress ⟨p.reportSyntactic, p.reportSemantic⟩
    ((e.programOrder p).map fun c => (c, w.programs c)) w.unmatched

/-- An action as a job of the pipeline. -/
def jobOf (e : Env Node) : Run.Action → Pipeline.Job AnyDiag Run.File
  | .internal d => .internal [.internal d]
  | .lint prog files => .program files (e.checkers prog)

/-- All jobs: the actions, and the error if that is how `RunLinter` ends. -/
def jobs (e : Env Node) (p : Payload.Payload) : List (Pipeline.Job AnyDiag Run.File) :=
  (actions e p).1.map (jobOf e) ++
    match (actions e p).2 with
    | .error m => [.fail (e.marshalError ("error running linter: " ++ m))]
    | _ => []

/-- headless.go:329-472: the pipeline's parameters. -/
def pipeline (e : Env Node) (fx : FixState) (timings : Bool) (p : Payload.Payload) : Pipeline.Params AnyDiag Run.File where
  W := e.workers
  cap := 4096
  enc d := (convert e.valid fx d).bind e.marshal
  diags := fileDiags e p fx
  timing := if timings then some e.marshalTimings else none

/-- Everything `RunLinter`'s actions hand to the writer goroutine. -/
def handed (e : Env Node) (p : Payload.Payload) (fx : FixState) : List AnyDiag :=
  (actions e p).1.flatMap fun
    | .internal d => [.internal d]
    | .lint _ fs => fs.flatMap (fileDiags e p fx)

/-- headless.go:422-424: some file to be linted is configured with a rule that does not exist. -/
def unknownRule (e : Env Node) (p : Payload.Payload) : Prop :=
  ∃ prog files, Run.Action.lint prog files ∈ (actions e p).1 ∧ ∃ f ∈ files, rulesFor e p f = none

/-- What makes the process panic: a file missing from its program (linter.go:134-146, 186-188), an unknown rule, or a diagnostic that
cannot be converted (nil dereference, headless.go:107-116,353-377). -/
def Crashes (e : Env Node) (p : Payload.Payload) (fx : FixState) : Prop :=
  (∃ m, (actions e p).2 = .panic m) ∨ unknownRule e p ∨ ∃ d ∈ handed e p fx, convert e.valid fx d = none

/-- The possible exits of the process: code and stdout.  A panic in any goroutine ends the process with code 2 (Go runtime).
The model allows it at any reachable state, which covers the moments at which it can really happen. -/
inductive Exits (e : Env Node) : Nat → Framing.Bytes → Prop
  /-- before the linter starts -/
  | early {code msg} : start e = .exit code msg →
      Exits e code (match msg with | some m => (Framing.writeMessage .error (e.marshalError m)).1 | none => [])
  /-- after it returned.  Every file was linted, so no rule was unknown; on success the writer converted every diagnostic (on the error
  path it may have been stopped before, headless.go:452-456). -/
  | late {fx timings p s code} : start e = .go fx timings p → (∀ m, (actions e p).2 ≠ .panic m) → ¬ unknownRule e p →
      ((actions e p).2 = .returned → ∀ d ∈ handed e p fx, convert e.valid fx d ≠ none) →
      Pipeline.Reachable (pipeline e fx timings p) (jobs e p) s → s.main = .exit code → Exits e code s.out
  | panic {fx timings p s} : start e = .go fx timings p → Crashes e p fx →
      Pipeline.Reachable (pipeline e fx timings p) (jobs e p) s → Exits e 2 s.out

end Tsgolint.Headless
