import Verif.Model.Bfs
/-!
# Model of the single-file tsconfig search (/repo/internal/utils/find_tsconfig.go:36-209)

External (parameters of `Env`): reading and parsing of tsconfig files (`FindOrAcquireConfigForFile`, assumed to be a function
of the config name; its cache is transparent), `ComputeConfigFileName` and `GetAncestorConfigFileName` of typescript-go, and
path functions.  Go's `""` stands for "no config" as in the code.
-/
namespace Tsgolint.FindTsconfig
open Tsgolint.Bfs

/-- What the search uses of a `tsoptions.ParsedCommandLine`. -/
structure Config where
  fileNames : List String
  composite : Bool
  /-- `config.PossiblyMatchesFileName(fileName)` for the file searched -/
  possiblyMatches : Bool
  hasReferences : Bool
  references : List String
  disableSolutionSearching : Bool

/-- The environment of one search. -/
structure Env where
  /-- the file name given (fileName) -/
  file : String
  /-- its path, `tspath.ToPath(filePath, …)` -/
  path : String
  /-- `FindOrAcquireConfigForFile` -/
  config : String → Option Config
  /-- `GetAncestorConfigFileName(fileName, path, ·)` -/
  ancestorOf : String → String
  /-- `ComputeConfigFileName(·, skipSearchInDirectoryOfFile)` -/
  compute : String → Bool → String
  toPath : String → String
  /-- string equality, or `strings.EqualFold` when the file system is case insensitive -/
  sameName : String → String → Bool
  /-- `filepath.Base` -/
  base : String → String

/-- find_tsconfig.go:111-145: the predicate given to `slices.ContainsFunc`. -/
def matchesFile (e : Env) (file : String) : Bool :=
  if e.sameName file e.path then true
  else if !e.sameName (e.base file) (e.base e.path) then false
  else e.toPath file == e.path

/-- find_tsconfig.go:90-149: the `visit` callback. -/
def visit (e : Env) (node : String) : Bool × Bool :=
  match e.config node with
  | none => (false, false)
  | some c =>
    if c.fileNames.length = 0 then (false, false)
    else if c.composite && !c.possiblyMatches then (false, false)
    else if c.fileNames.any (matchesFile e) then (true, true)
    else (false, false)

/-- find_tsconfig.go:81-89: the `neighbors` callback (it runs after `visit` of the same node has stored its config).
Simplification: the map `configs` is keyed by path; names with the same path are taken to have the same config. -/
def neighbors (e : Env) (node : String) : List String :=
  match e.config node with
  | none => []
  | some c => if c.hasReferences then c.references else []

/-- find_tsconfig.go:201-209 `getAncestorConfigFileName`. -/
def ancestor (e : Env) (nearest : String) : String :=
  let a := e.ancestorOf nearest
  if a ≠ "" then a else e.compute nearest true

/-- find_tsconfig.go:69-199 `findConfigWithReferences`; `fuel` bounds the levels of each breadth-first search, the first argument the
number of ancestors tried.  Outer `none`: out of fuel. -/
def findWithReferences (e : Env) (fuel : Nat) : Nat → String → List String → Option String → Option String
  | 0, _, _, _ => none
  | n + 1, configName, visited, fallback =>
    match bfs fuel configName (neighbors e) (visit e) visited with
    | none => none
    | some (search, visited) =>
      -- find_tsconfig.go:160-165
      let tsconfig := (search.path.head?).getD ""
      -- 167-169
      if search.stopped then some tsconfig
      else
        -- 170-172
        let fallback := if tsconfig ≠ "" then some tsconfig else fallback
        -- 174-181
        let noSolution := match e.config configName with
          | some c => c.disableSolutionSearching
          | none => false
        match noSolution, fallback with
        | true, some f => some f
        | _, _ =>
          -- 183-198
          let a := ancestor e configName
          if a ≠ "" then findWithReferences e fuel n a visited fallback
          else some (fallback.getD "")

/-- find_tsconfig.go:38-56 `FindTsconfigForFile` (and `work`, 216-236, with `skip = false`); `some ""` is "not found". -/
def find (e : Env) (fuel ancestors : Nat) (skip : Bool) : Option String :=
  let c := e.compute e.file skip
  if c = "" then some "" else findWithReferences e fuel ancestors c [] none

end Tsgolint.FindTsconfig
