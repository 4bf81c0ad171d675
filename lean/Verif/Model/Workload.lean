import Verif.Model.Payload
import Verif.Model.Sorter
/-!
# Model of the workload construction (/repo/cmd/tsgolint/headless.go:275-322, 413-434)
-/
namespace Tsgolint.Workload
open Tsgolint.Payload (Config Rule)

/-- `tspath.NormalizeSlashes` (typescript-go, external): every backslash becomes a slash. -/
def normalizeSlashes (s : String) : String :=
  String.ofList (s.toList.map fun c => if c = '\\' then '/' else c)

/-- The two accumulators of the loop headless.go:277-287. -/
structure Acc where
  /-- `normalizedFiles` -/
  files : List String
  /-- `fileConfigs`; `none` is a missing key -/
  configs : String → Option (List Rule)

/-- headless.go:280-285, the body of the inner loop. -/
def addFile (rules : List Rule) (acc : Acc) (filePath : String) : Acc :=
  let normalized := normalizeSlashes filePath
  { files := acc.files ++ [normalized]
    configs := fun k => if k = normalized then some rules else acc.configs k }

/-- headless.go:277-287. -/
def collect (configs : List Config) : Acc :=
  configs.foldl (fun acc c => c.filePaths.foldl (addFile c.rules) acc) ⟨[], fun _ => none⟩

/-- `linter.Workload` (/repo/internal/linter/linter.go:20-23); `Programs` is a Go map: `[]` models a missing key (the code
never stores an empty list). -/
structure Workload where
  programs : String → List String
  unmatched : List String

/-- headless.go:290-296: the loop over the result map.  `order` is the order in which Go happens to enumerate the keys of
`result`, `tsconfig` is the value. -/
def assign (tsconfig : String → String) (order : List String) : Workload :=
  order.foldl (fun w file =>
    if tsconfig file = "" then { w with unmatched := w.unmatched ++ [file] }
    else { w with programs := fun k =>
      if k = tsconfig file then w.programs (tsconfig file) ++ [file] else w.programs k }) ⟨fun _ => [], []⟩

/-- headless.go:319-321: the comparator `len(b) - len(a)` (byte lengths). -/
def byLength (a b : String) : Int := (b.utf8ByteSize : Int) - (a.utf8ByteSize : Int)

/-- headless.go:318-322. -/
def sortPrograms (S : Sorter byLength) (w : Workload) : Workload :=
  { w with programs := fun k => S.sort (w.programs k) }

/-- headless.go:275-322 as a whole. -/
def build (S : Sorter byLength) (tsconfig : String → String) (order : List String) : Workload :=
  sortPrograms S (assign tsconfig order)

/-- A linter rule as registered: its name and its body (`RunR`). -/
structure Registered (Run : Type) where
  name : String
  run : Option Payload.Json → Run

/-- headless.go:313-316 `allRulesByName` -/
def byName {Run : Type} (all : List (Registered Run)) : String → Option (Registered Run) :=
  all.foldl (fun m r k => if k = r.name then some r else m k) (fun _ => none)

/-- headless.go:420-432, the loop body: `none` is the panic `unknown rule`. -/
def configured {Run : Type} (all : List (Registered Run)) (hr : Rule) : Option (String × Run) :=
  match byName all hr.name with
  | none => none
  | some r => some (r.name, r.run hr.options)

/-- headless.go:415-434 `GetRulesForFile`: a file without configuration gets no rules; `none` is the panic. -/
def getRules {Run : Type} (all : List (Registered Run)) (configs : String → Option (List Rule)) (fileName : String) :
    Option (List (String × Run)) :=
  Payload.allSome (configured all) ((configs fileName).getD [])

end Tsgolint.Workload
