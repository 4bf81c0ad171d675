import Batteries.Data.List.Basic
import Verif.Model.Run
/-! # What `RunLinter` should do with each program -/
namespace Tsgolint.Run
open Tsgolint.Emit (Range Internal)

/-- `SortAndDeduplicateDiagnostics` neither loses nor invents a diagnostic (equal ones are identified). -/
def DedupOk (ts : Ts) : Prop := ∀ l d, d ∈ ts.sortDedup l ↔ d ∈ l

/-- The TypeScript diagnostics of file `f` asked for. -/
def Requested (p : Program) (files : List File) (te : TypeErrors) (f : File) (d : Diag) : Prop :=
  (te.syntactic = true ∧ d ∈ p.syntactic f) ∨
  (te.semantic = true ∧ (d ∈ p.filterNoEmit (p.semantic files f) ∨ d ∈ p.includeOf f))

/-- The files are those of the program that have one of the names, one per name. -/
def Selects (p : Program) (names : List String) (files : List File) : Prop :=
  files.Sublist p.files ∧ (files.map (·.name)).Nodup ∧ ∀ n, n ∈ files.map (·.name) ↔ n ∈ names

/-- What one program of the workload contributes. -/
inductive Handles (ts : Ts) (contains : String → String → Bool) (suppress : Bool) (te : TypeErrors) :
    String × List String → List Action → Prop
  | invalid {config paths ds} : createProgram ts contains suppress config = .invalid ds →
      Handles ts contains suppress te (config, paths) (ds.map .internal)
  | linted {config paths p files} : createProgram ts contains suppress config = .ok p → Selects p paths files →
      Handles ts contains suppress te (config, paths) ((reportTs ts p files te).map .internal ++ [.lint p files])

/-- Why a program stops the run. -/
def Stops (ts : Ts) (contains : String → String → Bool) (suppress : Bool) (e : String × List String) : Prop :=
  (∃ msg, createProgram ts contains suppress e.1 = .error msg) ∨
  ∃ p, createProgram ts contains suppress e.1 = .ok p ∧ ∃ f ∈ e.2, ∀ sf ∈ p.files, sf.name ≠ f

end Tsgolint.Run
