/-!
# The rule tester
(/repo/internal/rule_tester/rule_tester.go)

Not modelled: the creation of programs and its failures (lines 71-113); the linter is a function of the code; the snapshot (`Model/Snapshot`) and the application of fixes (`Model/Fixer`) are parameters.
-/
namespace Tsgolint.RuleTester

/-- A suggestion: its message, and `ApplyRuleFixes` with it alone (line 248) -/
structure Suggestion (Code : Type) where
  id : String
  apply : Code → Code

/-- A diagnostic; lines and columns from 0, as `GetECMALineAndUTF16CharacterOfPosition` gives them -/
structure Diagnostic (Code : Type) where
  id : String
  line : Nat
  column : Nat
  endLine : Nat
  endColumn : Nat
  /-- `none`: the pointer is nil -/
  suggestions : Option (List (Suggestion Code))

/-- Lines 47-50 -/
structure ExpectedSuggestion (Code : Type) where
  id : String
  output : Code

/-- Lines 38-45 -/
structure ExpectedError (Code : Type) where
  id : String
  line : Nat
  column : Nat
  endLine : Nat
  endColumn : Nat
  suggestions : List (ExpectedSuggestion Code)

/-- Lines 27-36 -/
structure ValidCase (Code : Type) where
  code : Code
  only : Bool
  skip : Bool

/-- Lines 52-63 -/
structure InvalidCase (Code : Type) where
  code : Code
  only : Bool
  skip : Bool
  output : List Code
  errors : List (ExpectedError Code)

/-- The rule under test -/
structure Rule (Code : Type) where
  lint : Code → List (Diagnostic Code)
  /-- `linter.ApplyRuleFixes`: the code, and whether something was fixed -/
  fix : Code → List (Diagnostic Code) → Code × Bool
  /-- `MatchSnapshot`, line 197: the case's code and its diagnostics -/
  snapshot : Code → List (Diagnostic Code) → Bool

inductive Result
  | skipped
  | passed
  | failed
  deriving DecidableEq

variable {Code : Type} [DecidableEq Code]

/-- Lines 66-67 -/
def onlyMode (valid : List (ValidCase Code)) (invalid : List (InvalidCase Code)) : Bool :=
  valid.any (·.only) || invalid.any (·.only)

/-- Lines 151, 172 -/
def isSkipped (onlyMode only skip : Bool) : Bool := (onlyMode && !only) || skip

def verdict (ok : Bool) : Result := if ok then .passed else .failed

/-- Lines 148-166 -/
def runValid (R : Rule Code) (mode : Bool) (c : ValidCase Code) : Result :=
  if isSkipped mode c.only c.skip then .skipped
  else verdict (R.lint c.code).isEmpty

/-- Lines 180-195: the outputs of at most `n` rounds -/
def rounds (R : Rule Code) : Nat → Code → List Code
  | 0, _ => []
  | n + 1, code =>
    let fixed := R.fix code (R.lint code)
    if !fixed.2 then [] else fixed.1 :: rounds R n fixed.1

/-- Lines 219-230: 0 is not compared -/
def position (expected actual : Nat) : Bool := !(expected != 0 && expected != actual + 1)

/-- Lines 238-252 -/
def suggestionsMatch (code : Code) : List (ExpectedSuggestion Code) → List (Suggestion Code) → Bool
  | [], [] => true
  | e :: es, s :: ss => e.id == s.id && decide (e.output = s.apply code) && suggestionsMatch code es ss
  | _, _ => false

/-- Lines 207-253 -/
def errorMatches (code : Code) (e : ExpectedError Code) (d : Diagnostic Code) : Bool :=
  e.id == d.id && position e.line d.line && position e.column d.column && position e.endLine d.endLine && position e.endColumn d.endColumn &&
    suggestionsMatch code e.suggestions (d.suggestions.getD [])

def errorsMatch (code : Code) : List (ExpectedError Code) → List (Diagnostic Code) → Bool
  | [], [] => true
  | e :: es, d :: ds => errorMatches code e d && errorsMatch code es ds
  | _, _ => false

/-- Lines 168-257.  `assert.Equal` and `t.Fatalf` stop the case, `t.Errorf` does not; it has failed either way. -/
def runInvalid (R : Rule Code) (mode : Bool) (c : InvalidCase Code) : Result :=
  if isSkipped mode c.only c.skip then .skipped
  else
    let initial := R.lint c.code
    verdict (R.snapshot c.code initial && decide (c.output = rounds R 10 c.code) && errorsMatch c.code c.errors initial)

/-- Lines 65-259 `RunRuleTester`: the results of the cases -/
def runTester (R : Rule Code) (valid : List (ValidCase Code)) (invalid : List (InvalidCase Code)) : List Result × List Result :=
  let mode := onlyMode valid invalid
  (valid.map (runValid R mode), invalid.map (runInvalid R mode))

end Tsgolint.RuleTester
