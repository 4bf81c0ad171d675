import Verif.Model.Report
/-!
# Model of one lint worker goroutine (/repo/internal/linter/linter.go:481-616)

A rule is modelled by what it can do: `Run(ctx)` reports something and returns a map of listeners; each listener closure may keep
private state, modelled by the history of calls to the listeners of the same `Run`.  Closures live in a heap, so that a closure kept
too long would really act on the wrong history.  All reports go through the one mutable `ctxBuilder` of the worker.
Assumed: rules share no state with each other and the type checker's answers are a function of the file (they are part of the rule's
functions).  Not modelled: panics inside rules, `ctx.Program`/`ctx.TypeChecker`.
-/
namespace Tsgolint.Worker
open Tsgolint.Report

/-- `ast.Kind` including the derived listener kinds -/
abbrev Kind := Nat

/-- A configured rule (linter.go:25-28). -/
structure Rule (File Node Range : Type) where
  name : String
  /-- what `Run(ctx)` reports itself, `ctx.SourceFile` given -/
  run : File → List (Call File Node Range)
  /-- the keys of the listener map returned by `Run(ctx)` -/
  listens : File → List Kind
  /-- what the listener reports when the calls since `Run` (this one last) are the given ones -/
  react : File → List (Kind × Node) → List (Call File Node Range)

/-- The state shared by the listener closures of one `Run`. -/
structure Instance (File Node Range : Type) where
  rule : Rule File Node Range
  file : File
  history : List (Kind × Node)

/-- linter.go:496-499 `taggedListener`; the closure is a heap address. -/
structure Tagged where
  ruleName : String
  fn : Nat

/-- Everything a worker mutates. -/
structure State (File Node Range : Type) where
  builder : Builder File
  registry : Kind → List Tagged
  heap : List (Instance File Node Range)
  out : List (Effect File Range)

/-- Parameters of a run. -/
structure Params (File Node Range : Type) where
  trim : Option File → Node → Range
  fx : FixState
  /-- `getRulesForFile` -/
  rules : File → List (Rule File Node Range)
  /-- the calls `runListeners(kind, node)` made by `visitLintNodes(file, …)`, in order -/
  events : File → List (Kind × Node)
  /-- the order in which Go enumerates the listener map of the n-th `Run` -/
  shuffle : Nat → List Kind → List Kind

variable {File Node Range : Type}

/-- Replace the `n`-th element (nothing happens when there is none; that is never the case here). -/
def modAt {α : Type} : Nat → (α → α) → List α → List α
  | _, _, [] => []
  | 0, f, a :: l => f a :: l
  | n + 1, f, a :: l => a :: modAt n f l

/-- Reports made while the builder is as in the state. -/
def say (P : Params File Node Range) (s : State File Node Range) (calls : List (Call File Node Range)) :
    State File Node Range :=
  { s with out := s.out ++ calls.flatMap (report P.trim P.fx s.builder) }

/-- linter.go:517-523: add one listener to the registry. -/
def register (name : String) (id : Nat) (s : State File Node Range) (k : Kind) : State File Node Range :=
  { s with registry := fun k' => if k' = k then s.registry k ++ [⟨name, id⟩] else s.registry k' }

/-- linter.go:515-524: one rule of the file. -/
def startRule (P : Params File Node Range) (file : File) (s : State File Node Range) (r : Rule File Node Range) :
    State File Node Range :=
  let s := { s with builder := { s.builder with ruleName := r.name } }
  let id := s.heap.length
  let s := say P s (r.run file)
  let s := { s with heap := s.heap ++ [⟨r, file, []⟩] }
  (P.shuffle id (r.listens file)).foldl (register r.name id) s

/-- linter.go:530-531: set the rule name and call the listener. -/
def call (P : Params File Node Range) (k : Kind) (n : Node) (s : State File Node Range) (t : Tagged) : State File Node Range :=
  let s := { s with builder := { s.builder with ruleName := t.ruleName } }
  let s := { s with heap := modAt t.fn (fun i => { i with history := i.history ++ [(k, n)] }) s.heap }
  match s.heap[t.fn]? with
  | none => s
  | some i => say P s (i.rule.react i.file i.history)

/-- linter.go:527-534 `runListeners` -/
def runListeners (P : Params File Node Range) (s : State File Node Range) (e : Kind × Node) : State File Node Range :=
  (s.registry e.1).foldl (call P e.1 e.2) s

/-- linter.go:507-541: one file. -/
def lintFile (P : Params File Node Range) (s : State File Node Range) (file : File) : State File Node Range :=
  -- 511-512
  let s := { s with builder := { s.builder with file := some file } }
  -- 514-525
  let s := (P.rules file).foldl (startRule P file) s
  -- 536
  let s := (P.events file).foldl (runListeners P) s
  -- 538-540
  { s with registry := fun _ => [] }

/-- linter.go:483-500: a new worker. -/
def init : State File Node Range := ⟨⟨none, ""⟩, fun _ => [], [], []⟩

/-- linter.go:502-543: all files a worker takes from the queues, in the order it takes them. -/
def work (P : Params File Node Range) (files : List File) : List (Effect File Range) :=
  (files.foldl (lintFile P) init).out

/-! ## With timing (linter.go:546-614) -/

/-- timing.go:9-12; durations in nanoseconds.  Simplification: no 64-bit wrap-around. -/
structure Stat where
  duration : Int
  calls : Nat

/-- timing.go:14-17 -/
def Stat.add (a b : Stat) : Stat := ⟨a.duration + b.duration, a.calls + b.calls⟩

/-- linter.go:546-550 -/
structure TTagged where
  ruleName : String
  ruleIdx : Nat
  fn : Nat

/-- The mutable state of a timing worker.  `clock` counts the measurements made so far. -/
structure TState (File Node Range : Type) where
  builder : Builder File
  registry : Kind → List TTagged
  heap : List (Instance File Node Range)
  out : List (Effect File Range)
  stats : List Stat
  localTimings : String → Option Stat
  clock : Nat

/-- `say` for timing workers. -/
def tSay (P : Params File Node Range) (s : TState File Node Range) (calls : List (Call File Node Range)) :
    TState File Node Range :=
  { s with out := s.out ++ calls.flatMap (report P.trim P.fx s.builder) }

/-- linter.go:554-557 `recordTiming`, the measured duration being `dur clock`. -/
def record (dur : Nat → Int) (idx : Nat) (s : TState File Node Range) : TState File Node Range :=
  { s with stats := modAt idx (fun x => ⟨x.duration + dur s.clock, x.calls + 1⟩) s.stats, clock := s.clock + 1 }

/-- linter.go:580-586 -/
def tRegister (name : String) (idx id : Nat) (s : TState File Node Range) (k : Kind) : TState File Node Range :=
  { s with registry := fun k' => if k' = k then s.registry k ++ [⟨name, idx, id⟩] else s.registry k' }

/-- linter.go:575-587 -/
def tStartRule (P : Params File Node Range) (dur : Nat → Int) (file : File) (s : TState File Node Range)
    (ri : Rule File Node Range × Nat) : TState File Node Range :=
  let r := ri.1
  let s := { s with builder := { s.builder with ruleName := r.name } }
  let id := s.heap.length
  let s := tSay P s (r.run file)
  let s := { s with heap := s.heap ++ [⟨r, file, []⟩] }
  let s := record dur ri.2 s
  (P.shuffle id (r.listens file)).foldl (tRegister r.name ri.2 id) s

/-- linter.go:592-595 -/
def tCall (P : Params File Node Range) (dur : Nat → Int) (k : Kind) (n : Node) (s : TState File Node Range) (t : TTagged) :
    TState File Node Range :=
  let s := { s with builder := { s.builder with ruleName := t.ruleName } }
  let s := { s with heap := modAt t.fn (fun i => { i with history := i.history ++ [(k, n)] }) s.heap }
  let s := match s.heap[t.fn]? with
    | none => s
    | some i => tSay P s (i.rule.react i.file i.history)
  record dur t.ruleIdx s

/-- linter.go:589-598 -/
def tRunListeners (P : Params File Node Range) (dur : Nat → Int) (s : TState File Node Range) (e : Kind × Node) :
    TState File Node Range :=
  (s.registry e.1).foldl (tCall P dur e.1 e.2) s

/-- linter.go:601-608: add the stats of one rule to `localTimings`. -/
def mergeStat (m : String → Option Stat) (x : Rule File Node Range × Stat) : String → Option Stat :=
  if x.2.calls = 0 then m
  else fun k => if k = x.1.name then some (((m x.1.name).getD ⟨0, 0⟩).add x.2) else m k

/-- linter.go:565-613 -/
def tLintFile (P : Params File Node Range) (dur : Nat → Int) (s : TState File Node Range) (file : File) :
    TState File Node Range :=
  let s := { s with builder := { s.builder with file := some file } }
  let rules := P.rules file
  let s := { s with stats := List.replicate rules.length ⟨0, 0⟩ }
  let s := rules.zipIdx.foldl (tStartRule P dur file) s
  let s := (P.events file).foldl (tRunListeners P dur) s
  let s := { s with localTimings := (rules.zip s.stats).foldl mergeStat s.localTimings }
  { s with registry := fun _ => [] }

/-- linter.go:551-552 -/
def tInit : TState File Node Range := ⟨⟨none, ""⟩, fun _ => [], [], [], [], fun _ => none, 0⟩

/-- linter.go:559-616: the effects, and the map handed to `timingStore.merge`. -/
def tWork (P : Params File Node Range) (dur : Nat → Int) (files : List File) : TState File Node Range :=
  files.foldl (tLintFile P dur) tInit

end Tsgolint.Worker
