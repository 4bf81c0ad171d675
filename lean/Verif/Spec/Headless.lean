import Verif.Model.Headless
import Verif.Spec.Workload
import Verif.Spec.Worker
import Verif.Spec.Framing
import Verif.Spec.Pipeline
import Verif.Spec.Run
/-! # Vocabulary for the process as a whole -/
namespace Tsgolint.Headless
open Tsgolint.Emit Tsgolint.Report
variable {Node : Type}

/-- Join pieces with a separator. -/
def join (sep : Char) : List (List Char) → List Char
  | [] => []
  | [p] => p
  | p :: ps => p ++ sep :: join sep ps

/-- Facts about the environment every real run satisfies: Go enumerates maps completely, listener maps have distinct keys, programs have
at least one checker, there is at least one worker, and the inferred program finds a file under its own name. -/
structure Env.Ok (e : Env Node) : Prop where
  order : ∀ l, Workload.KeysOf (e.order l) l
  programOrder : ∀ p, (e.programOrder p).Nodup ∧ ∀ c, c ∈ e.programOrder p ↔ (workload e p).programs c ≠ []
  shuffle : ∀ n l, (e.shuffle n l).Perm l
  keys : ∀ r ∈ e.rules, ∀ o f, ((r.run o).listens f).Nodup
  checkers : ∀ p, e.checkers p ≠ [] ∧ (e.checkers p).Nodup
  workers : 0 < e.workers
  found : ∀ l n f, (e.ts.inferred l).getSourceFile n = some f → f.name = n

/-- Everything needed to get a lint run that is reported as a success. -/
def Succeeds (e : Env Node) : Prop :=
  ∃ fix fixSuggestions debug timings j p,
    e.flags = .parsed fix fixSuggestions debug ∧ parseDebugTimings debug = some timings ∧
    e.traceFails = false ∧ e.cpuProfileFails = false ∧ e.getwdFails = false ∧
    e.stdin = some (some j) ∧ Payload.deserialize j = .ok p ∧
    (actions e p).2 = .returned ∧ ¬ Crashes e p ⟨fix, fixSuggestions⟩ ∧ (timings = true → e.marshalTimings.isSome)

/-- The tsconfig of the path, if any, is not invalid. -/
def Lintable (e : Env Node) (path : String) : Prop :=
  e.tsconfig path = "" ∨ ∃ prog, Run.createProgram e.ts e.contains e.suppress (e.tsconfig path) = .ok prog

/-- The rules the client configured for the path: those of the last request naming it. -/
def configuredRules (e : Env Node) (p : Payload.Payload) (path : String) : List (RuleImpl Node) :=
  ((Workload.lastRequest p.configs path).getD []).filterMap fun hr =>
    (e.rules.find? fun r => r.name = hr.name).map fun r => { r.run hr.options with name := hr.name }

/-- The rule diagnostics due for a source file: what the configured rules report, in order, by the specification of C18. -/
def dueDiagnostics (e : Env Node) (p : Payload.Payload) (fx : FixState) (f : Run.File) : List AnyDiag :=
  (Worker.fileReport (workerParams e p fx) (configuredRules e p f.name) f).filterMap fun | .emitted d => some (.rule d) | _ => none

/-- Is it a rule diagnostic? -/
def AnyDiag.isRule : AnyDiag → Bool
  | .rule _ => true
  | .internal _ => false

/-- Is it an internal diagnostic? -/
def AnyDiag.asInternal : AnyDiag → Option Internal
  | .rule _ => none
  | .internal d => some d

/-- The client asked for this path. -/
def Asked (p : Payload.Payload) (path : String) : Prop := ∃ r ∈ Workload.requests p.configs, r.1 = path

/-- What is wrong with a tsconfig. -/
def configProblems (e : Env Node) (config : String) : List Internal :=
  match Run.createProgram e.ts e.contains e.suppress config with
  | .invalid ds => ds
  | _ => []

/-- A program to be run, with its files: the asked-for files of one tsconfig, or those without tsconfig (the inferred program). -/
inductive Group (e : Env Node) (p : Payload.Payload) : Run.Program → List Run.File → Prop
  | config {c prog files} : c ≠ "" → Run.createProgram e.ts e.contains e.suppress c = .ok prog → files.Sublist prog.files →
      (files.map (·.name)).Nodup → (∀ n, n ∈ files.map (·.name) ↔ Asked p n ∧ e.tsconfig n = c) → Group e p prog files
  | inferred {names files} : names.Nodup → (∀ n, n ∈ names ↔ Asked p n ∧ e.tsconfig n = "") →
      names.map (e.ts.inferred names).getSourceFile = files.map some → Group e p (e.ts.inferred names) files

end Tsgolint.Headless
