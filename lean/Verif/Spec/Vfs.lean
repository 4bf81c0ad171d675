import Verif.Model.Vfs
/-! # Vocabulary for C30–C33 -/
namespace Tsgolint.Vfs

/-- Calls the overrides answer themselves: reading or probing an overridden path. -/
def Shadowed (overrides : Str → Option Str) : Call → Bool
  | .readFile p => (overrides p).isSome
  | .fileExists p => (overrides p).isSome
  | _ => false

/-- The answers to the calls that are not shadowed. -/
def visibleAnswers (overrides : Str → Option Str) : List Call → List Ans → List Ans
  | c :: cs, a :: as => if Shadowed overrides c then visibleAnswers overrides cs as else a :: visibleAnswers overrides cs as
  | _, _ => []

/-- The path a call is about, if any. -/
def Call.path? : Call → Option Str
  | .useCaseSensitiveFileNames => none
  | .fileExists p | .readFile p | .writeFile p _ | .appendFile p _ | .remove p | .chtimes p _ _ | .directoryExists p
  | .getAccessibleEntries p | .stat p | .walkDir p _ | .realpath p => some p

/-- A read of `path` in progress. -/
def Reader.inProgress (path : Str) : Reader → Prop
  | .loading p | .reading p | .storing p _ => p = path
  | .returned _ _ => False

/-- Steps in which a read of a path only starts when no read of that path is in progress. -/
inductive SeqSteps : CState → CState → Prop
  | refl {s} : SeqSteps s s
  | tail {s t u} : SeqSteps s t → CStep t u →
      (∀ path, u.readers = t.readers ++ [.loading path] → ∀ r ∈ t.readers, ¬ r.inProgress path) → SeqSteps s u

/-- Steps during which the file at `path` does not change on disk. -/
inductive StableSteps (path : Str) : CState → CState → Prop
  | refl {s} : StableSteps path s s
  | tail {s t u} : StableSteps path s t → CStep t u → u.disk path = t.disk path → StableSteps path s u

/-- A file `v` lies directly or indirectly in the directory. -/
def Below (v dir : Str) : Prop := ∃ rest, v = dir ++ '/' :: rest

end Tsgolint.Vfs
