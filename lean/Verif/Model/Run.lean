import Verif.Model.Emit
/-!
# Model of program creation, TypeScript diagnostics and the driver loop

/repo/internal/utils/create_program.go:25-117 (`CreateProgram`), /repo/internal/linter/linter.go:80-212 (`RunLinter`) and
316-366 (`reportTypeScriptDiagnostics`).  typescript-go (config parser, program, checker) is the parameter `Ts`.
What `RunLinter` does is a list of actions in order, and how it ended.  Not modelled: log output; the compiler host's caching (see
`Model/Host`).
-/
namespace Tsgolint.Run
open Tsgolint.Emit (Range Internal)

/-- `*ast.Diagnostic`: `File()` (its name) or nil, `Loc()`, `Code()`, localized message. -/
structure Diag where
  file : Option String
  loc : Range
  code : Nat
  message : String
deriving DecidableEq

/-- `*ast.SourceFile`: identity and `FileName()`. -/
structure File where
  ptr : Nat
  name : String
deriving DecidableEq

/-- `*compiler.Program` -/
structure Program where
  /-- `GetProgramDiagnostics()` -/
  diagnostics : List Diag
  /-- `SourceFiles()` -/
  files : List File
  /-- `GetSyntacticDiagnostics(ctx, file)` -/
  syntactic : File → List Diag
  /-- `GetSemanticDiagnosticsWithoutNoEmitFiltering(ctx, files)`: a map, read at a file -/
  semantic : List File → File → List Diag
  /-- `FilterNoEmitSemanticDiagnostics(ds, program.Options())` -/
  filterNoEmit : List Diag → List Diag
  /-- `GetIncludeProcessorDiagnostics(file)` -/
  includeOf : File → List Diag
  /-- `GetSourceFile(name)` -/
  getSourceFile : String → Option File

/-- The parts of typescript-go and the file system the driver calls. -/
structure Ts where
  /-- `tspath.ResolvePath(tspath.GetDirectoryPath(config), config)` -/
  resolve : String → String
  /-- `fs.FileExists` -/
  fileExists : String → Bool
  /-- `GetParsedCommandLineOfConfigFile`: its diagnostics -/
  parseDiagnostics : String → List Diag
  /-- its result's `Errors` -/
  configErrors : String → List Diag
  /-- `compiler.NewProgram` for a config file; `none` is nil -/
  newProgram : String → Option Program
  /-- `compiler.NewProgram` of the inferred project with these root files -/
  inferred : List String → Program
  /-- `compiler.SortAndDeduplicateDiagnostics` -/
  sortDedup : List Diag → List Diag

/-- create_program.go:18-24 -/
def enhance (contains : String → String → Bool) (msg : String) : String :=
  if contains msg "Please remove it from your configuration." then
    msg ++ "\n" ++ "See https://github.com/oxc-project/tsgolint/issues/351 for more information."
  else msg

/-- create_program.go:40-53, 59-72, 96-109: one configuration diagnostic.  `help` is the rendering of the message. -/
def configDiag (resolved : String) (help : String → String) (d : Diag) : Internal :=
  { range := d.loc
    id := "tsconfig-error"
    description := "Invalid tsconfig"
    help := help d.message
    filePath := some (match d.file with
      | some f => if f ≠ "" then f else resolved
      | none => resolved) }

/-- Result of `CreateProgram`. -/
inductive Created
  | error (msg : String)
  | invalid (ds : List Internal)
  | ok (p : Program)

/-- create_program.go:26-117 -/
def createProgram (ts : Ts) (contains : String → String → Bool) (suppress : Bool) (config : String) : Created :=
  let resolved := ts.resolve config
  if !ts.fileExists resolved then .error ("couldn't read tsconfig at " ++ resolved)
  else if (ts.parseDiagnostics config).length > 0 then .invalid ((ts.parseDiagnostics config).map (configDiag resolved id))
  else if (ts.configErrors config).length > 0 && !suppress then .invalid ((ts.configErrors config).map (configDiag resolved id))
  else match ts.newProgram config with
    | none => .error "couldn't create program"
    | some p =>
      if p.diagnostics.length > 0 && !suppress then .invalid (p.diagnostics.map (configDiag resolved (enhance contains)))
      else .ok p

/-- linter.go:39-42 -/
structure TypeErrors where
  syntactic : Bool
  semantic : Bool

/-- linter.go:327-332, 356-361 -/
def tsDiag (file : File) (d : Diag) : Internal := ⟨d.loc, "TS" ++ toString d.code, d.message, "", some file.name⟩

/-- linter.go:325-334, 354-363: the loop over one file's diagnostics. -/
def ofFile (file : File) (ds : List Diag) : List Internal :=
  (ds.filter fun d => d.file.isSome && d.file == some file.name).map (tsDiag file)

/-- linter.go:343-353: the semantic diagnostics of one file. -/
def semanticOf (ts : Ts) (p : Program) (files : List File) (file : File) : List Diag :=
  let final := p.filterNoEmit (p.semantic files file)
  let incl := p.includeOf file
  if final.length = 0 && incl.length = 0 then []
  else
    let all := final ++ incl
    if all.length > 1 then ts.sortDedup all else all

/-- linter.go:316-366 `reportTypeScriptDiagnostics`: the diagnostics reported, in order. -/
def reportTs (ts : Ts) (p : Program) (files : List File) (te : TypeErrors) : List Internal :=
  (if te.syntactic then files.flatMap fun f => ofFile f (p.syntactic f) else []) ++
  (if te.semantic then files.flatMap fun f => ofFile f (semanticOf ts p files f) else [])

/-- What `RunLinter` does. -/
inductive Action
  /-- calls `onInternalDiagnostic` -/
  | internal (d : Internal)
  /-- runs the worker pool on the program's files (linter.go:477-617) -/
  | lint (p : Program) (files : List File)

/-- How it ends. -/
inductive Ending
  | returned
  | error (msg : String)
  | panic (missing : List String)
deriving DecidableEq

/-- linter.go:464-620 `RunLinterOnProgram` (it never returns an error). -/
def onProgram (ts : Ts) (te : TypeErrors) (p : Program) (files : List File) : List Action :=
  (reportTs ts p files te).map .internal ++ [.lint p files]

/-- linter.go:121-132: `fileSet` is a set of names; pick the program's files in it, deleting each name when its file is found. -/
def pick : List File → List String → List File × List String
  | [], set => ([], set)
  | f :: fs, set =>
    if f.name ∈ set then
      let (r, s) := pick fs (set.filter (· ≠ f.name))
      (f :: r, s)
    else pick fs set

/-- linter.go:94-164: the loop over the programs, in the order Go enumerates the map. -/
def programs (ts : Ts) (contains : String → String → Bool) (suppress : Bool) (te : TypeErrors) :
    List (String × List String) → List Action × Ending
  | [] => ([], .returned)
  | (config, paths) :: rest =>
    match createProgram ts contains suppress config with
    | .error e => ([], .error e)
    | .invalid ds =>
      let r := programs ts contains suppress te rest
      (ds.map .internal ++ r.1, r.2)
    | .ok p =>
      let (files, missing) := pick p.files paths
      if missing.length > 0 then ([], .panic missing)
      else
        let r := programs ts contains suppress te rest
        (onProgram ts te p files ++ r.1, r.2)

/-- linter.go:184-191: look each unmatched file up. -/
def lookups (p : Program) : List String → Option (List File)
  | [] => some []
  | f :: fs => match p.getSourceFile f with
    | none => none
    | some sf => (lookups p fs).map (sf :: ·)

/-- linter.go:166-208: the inferred program (`CreateInferredProjectProgram`, create_program.go:119-155, reports no diagnostics and no
error). -/
def inferred (ts : Ts) (te : TypeErrors) (unmatched : List String) : List Action × Ending :=
  let p := ts.inferred unmatched
  match lookups p unmatched with
  | none => ([], .panic (unmatched.filter fun f => (p.getSourceFile f).isNone))
  | some files => (onProgram ts te p files, .returned)

/-- linter.go:80-212 `RunLinter` -/
def runLinter (ts : Ts) (contains : String → String → Bool) (suppress : Bool) (te : TypeErrors)
    (order : List (String × List String)) (unmatched : List String) : List Action × Ending :=
  let a := programs ts contains suppress te order
  match a.2 with
  | .returned =>
    let b := inferred ts te unmatched
    (a.1 ++ b.1, b.2)
  | e => (a.1, e)

end Tsgolint.Run
