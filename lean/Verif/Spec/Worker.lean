import Verif.Model.Worker
/-! # What linting a file should report, without any worker state -/
namespace Tsgolint.Worker
open Tsgolint.Report

variable {File Node Range : Type}

/-- Reports of rule `r` about `file`: attributed to that rule and that file. -/
def attributed (P : Params File Node Range) (r : Rule File Node Range) (file : File) (calls : List (Call File Node Range)) :
    List (Effect File Range) :=
  calls.flatMap (report P.trim P.fx ⟨some file, r.name⟩)

/-- The calls a rule gets out of a list of events: those it listens to. -/
def heard (r : Rule File Node Range) (file : File) (events : List (Kind × Node)) : List (Kind × Node) :=
  events.filter (fun e => e.1 ∈ r.listens file)

/-- What rule `r` reports at event `e` when `before` happened before. -/
def reaction (P : Params File Node Range) (file : File) (before : List (Kind × Node)) (e : Kind × Node)
    (r : Rule File Node Range) : List (Effect File Range) :=
  if e.1 ∈ r.listens file then attributed P r file (r.react file (heard r file before ++ [e])) else []

/-- At each event the rules react in configured order. -/
def reactions (P : Params File Node Range) (file : File) (rules : List (Rule File Node Range)) :
    List (Kind × Node) → List (Kind × Node) → List (Effect File Range)
  | _, [] => []
  | before, e :: es => rules.flatMap (reaction P file before e) ++ reactions P file rules (before ++ [e]) es

/-- Everything reported about one file: first each rule's own reports, in configured order, then the reactions. -/
def fileReport (P : Params File Node Range) (rules : List (Rule File Node Range)) (file : File) : List (Effect File Range) :=
  rules.flatMap (fun r => attributed P r file (r.run file)) ++ reactions P file rules [] (P.events file)

/-- Go's map enumeration: each key exactly once, in any order. -/
def ShuffleOk (P : Params File Node Range) : Prop := ∀ n l, (P.shuffle n l).Perm l

/-- Listener maps have distinct keys. -/
def KeysOk (P : Params File Node Range) : Prop := ∀ f, ∀ r ∈ P.rules f, (r.listens f).Nodup

/-- Number of times a rule is called for a file: once to start, once per event it listens to. -/
def callsFor (P : Params File Node Range) (r : Rule File Node Range) (file : File) : Nat :=
  1 + (heard r file (P.events file)).length

end Tsgolint.Worker

namespace Tsgolint.Worker
variable {File Node Range : Type}

/-- The rules called while a file is linted, in order: every rule once to start, then at each event the rules listening to it. -/
def fileCalls (P : Params File Node Range) (file : File) : List String :=
  (P.rules file).map (·.name) ++
    (P.events file).flatMap fun e => ((P.rules file).filter fun r => e.1 ∈ r.listens file).map (·.name)

/-- Total of the measured durations of the calls of rule `name`, the i-th call overall having taken `dur i`. -/
def totalDuration (dur : Nat → Int) (calls : List String) (name : String) : Int :=
  ((calls.zipIdx.filter fun c => c.1 = name).map fun c => dur c.2).sum

end Tsgolint.Worker
