import Verif.Model.Sorter
import Verif.Model.Headless
/-!
# Model of the command line (/repo/cmd/tsgolint/main.go:399-654 `formatRuleTimingTable`, `runMain`)

Texts are lists of characters.  What typescript-go, the file system and the linter answer are parameters.
-/
namespace Tsgolint.Cli

abbrev Text := List Char

/-- A file of the program: `Path()`, and the length of its text -/
structure Source where
  path : Text
  size : Nat
  deriving DecidableEq

/-! ### Which files -/

/-- `strings.HasPrefix` -/
def hasPrefix : Text → Text → Bool
  | [], _ => true
  | _ :: _, [] => false
  | p :: ps, c :: cs => p == c && hasPrefix ps cs

/-- `strings.Contains` -/
def contains (word : Text) : Text → Bool
  | [] => hasPrefix word []
  | c :: cs => hasPrefix word (c :: cs) || contains word cs

def nodeModules : Text := "/node_modules/".toList

/-- Lines 537-541: it is linted -/
def selected (cwd : Text) (s : Source) : Bool := !contains nodeModules s.path && hasPrefix cwd s.path

/-- Lines 533-549: the files to lint, in the program's order -/
def select (cwd : Text) (files : List Source) : List Source := files.filter (selected cwd)

/-- Lines 542-551: what `--list-files` prints -/
def listing (cwd : Text) (files : List Source) : Text :=
  (select cwd files).flatMap fun s => "Found file: ".toList ++ s.path.drop cwd.length ++ ['\n']

/-- Lines 553-555 -/
def bySize (a b : Source) : Int := (b.size : Int) - a.size

/-! ### The run -/

/-- What `flag.Parse` ends with.  A flag that is not known, or a bad value, ends the process with 2 (`flag.ExitOnError`). -/
inductive Flags
  | bad
  | parsed (help : Bool) (tsconfig : String) (listFiles : Bool) (debug : Text) (singleThreaded : Bool)

/-- What the linter ends with: an error, or the diagnostics in the order in which they reached the printer -/
inductive Linted (D : Type)
  | failed
  | done (diagnostics : List D)

structure Env (D : Type) where
  flags : Flags
  traceFails : Bool
  profileFails : Bool
  /-- `os.Getwd`, normalised -/
  cwd : Option String
  /-- `tspath.ResolvePath` -/
  resolve : String → String → String
  exists_ : String → Bool
  /-- `utils.CreateProgram` for a configuration file, put over the file system as `{}` or not; `none`: an error, or no program -/
  program : String → Bool → Option (List Source)
  /-- `cwdPath` (line 534) of the configuration's directory -/
  directory : String → Text
  sorter : Sorter bySize
  /-- all rules on the files, in that order -/
  lint : List Source → Linted D

/-- What the process does -/
inductive Outcome (D : Type)
  /-- `return code` before the linter -/
  | early (code : Nat)
  /-- lines 611-612 -/
  | lintFailed (listed : Option Text)
  /-- line 654: the files that were linted, what was listed, what was printed, whether there is a table of timings -/
  | finished (files : List Source) (listed : Option Text) (diagnostics : List D) (timings : Bool)

variable {D : Type}

/-- Lines 495-511: the configuration file, and whether `{}` stands for it -/
def config (E : Env D) (cwd tsconfig : String) : Option (String × Bool) :=
  if tsconfig = "" then some (E.resolve cwd "tsconfig.json", !E.exists_ (E.resolve cwd "tsconfig.json"))
  else if E.exists_ (E.resolve cwd tsconfig) then some (E.resolve cwd tsconfig, false)
  else none

/-- Lines 513-654 -/
def lintConfig (E : Env D) (file : String) (empty listFiles timings : Bool) : Outcome D :=
  match E.program file empty with
  | none => .early 1
  | some sources =>
    match E.lint (E.sorter.sort (select (E.directory file) sources)) with
    | .failed => .lintFailed (if listFiles then some (listing (E.directory file) sources) else none)
    | .done ds => .finished (E.sorter.sort (select (E.directory file) sources))
        (if listFiles then some (listing (E.directory file) sources) else none) ds timings

/-- Lines 430-654 `runMain`, without `headless` -/
def run (E : Env D) : Outcome D :=
  match E.flags with
  | .bad => .early 2
  | .parsed help tsconfig listFiles debug _ =>
    if help then .early 0
    else
      match Headless.parseDebugTimings debug with
      | none => .early 1
      | some timings =>
        if E.traceFails then .early 1
        else if E.profileFails then .early 1
        else
          match E.cwd with
          | none => .early 1
          | some cwd =>
            match config E cwd tsconfig with
            | none => .early 1
            | some (file, empty) => lintConfig E file empty listFiles timings

/-- The exit code -/
def Outcome.code : Outcome D → Nat
  | .early c => c
  | .lintFailed _ => 1
  | .finished _ _ _ _ => 0

/-! ### The summary -/

/-- Lines 621-632: `errors` or `error`, and so on -/
def plural (word : String) (n : Nat) : String := if n = 1 then word else word ++ "s"

/-! ### Timings -/

/-- A line of the table.  `millis` and `relative` are the texts of `%.3f` and `%.1f`. -/
structure Line where
  name : Text
  millis : Text
  relative : Text
  calls : Text

/-- `%-*s` -/
def padRight (w : Nat) (t : Text) : Text := t ++ List.replicate (w - t.length) ' '

/-- `%*s` -/
def padLeft (w : Nat) (t : Text) : Text := List.replicate (w - t.length) ' ' ++ t

/-- Lines 404-410: the width of a column -/
def columnWidth (title : Text) (cells : List Text) : Nat := cells.foldl (fun w c => max w c.length) title.length

/-- Line 424: a line of the table -/
def tableLine (names calls : Nat) (l : Line) : Text :=
  padRight names l.name ++ [' ', ' '] ++ padLeft 10 l.millis ++ [' ', ' '] ++ padLeft 7 l.relative ++ ['%'] ++ [' ', ' '] ++ padLeft calls l.calls

/-- Line 415: the titles -/
def titles (names calls : Nat) : Text :=
  padRight names "Rule".toList ++ [' ', ' '] ++ padLeft 10 "Time (ms)".toList ++ [' ', ' '] ++ padLeft 8 "Relative".toList ++ [' ', ' '] ++ padLeft calls "Calls".toList

/-- Line 416: the rule below the titles -/
def ruler (names calls : Nat) : Text :=
  padRight names (List.replicate names '-') ++ [' ', ' '] ++ padRight 10 (List.replicate 10 '-') ++ [' ', ' '] ++ padRight 8 (List.replicate 8 '-') ++ [' ', ' '] ++ padRight calls (List.replicate calls '-')

/-- Lines 399-427 `formatRuleTimingTable`: its lines after "Rule timings:"; nothing if there are no records -/
def table (lines : List Line) : List Text :=
  if lines.isEmpty then []
  else
    let names := columnWidth "Rule".toList (lines.map Line.name)
    let calls := columnWidth "Calls".toList (lines.map Line.calls)
    titles names calls :: ruler names calls :: lines.map (tableLine names calls)

end Tsgolint.Cli
