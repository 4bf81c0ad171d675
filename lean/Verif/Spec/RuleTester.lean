import Verif.Model.RuleTester
import Batteries.Data.List.Basic
/-!
# What a passing test says about a rule
-/
namespace Tsgolint.RuleTester

variable {Code : Type}

/-- Linting and fixing again and again, from `code`: the codes in between; the last has nothing more to fix -/
inductive FixedBy (R : Rule Code) : Code → List Code → Prop
  | done {code : Code} : (R.fix code (R.lint code)).2 = false → FixedBy R code []
  | again {code code' : Code} {rest : List Code} : R.fix code (R.lint code) = (code', true) → FixedBy R code' rest → FixedBy R code (code' :: rest)

/-- The same, but there may be more to fix -/
inductive FixedSoFar (R : Rule Code) : Code → List Code → Prop
  | here (code : Code) : FixedSoFar R code []
  | again {code code' : Code} {rest : List Code} : R.fix code (R.lint code) = (code', true) → FixedSoFar R code' rest → FixedSoFar R code (code' :: rest)

/-- A line or a column that is expected, counted from 1; 0 stands for any -/
def At (expected actual : Nat) : Prop := expected = 0 ∨ expected = actual + 1

/-- A diagnostic is as expected; suggestions are applied to the code of the case -/
structure AsExpected (code : Code) (e : ExpectedError Code) (d : Diagnostic Code) : Prop where
  id : e.id = d.id
  line : At e.line d.line
  column : At e.column d.column
  endLine : At e.endLine d.endLine
  endColumn : At e.endColumn d.endColumn
  suggestions : List.Forall₂ (fun e s => e.id = s.id ∧ e.output = s.apply code) e.suggestions (d.suggestions.getD [])

/-- What an invalid case asks of the rule -/
structure Holds (R : Rule Code) (c : InvalidCase Code) : Prop where
  snapshot : R.snapshot c.code (R.lint c.code) = true
  errors : List.Forall₂ (AsExpected c.code) c.errors (R.lint c.code)
  output : (c.output.length < 10 ∧ FixedBy R c.code c.output) ∨ (c.output.length = 10 ∧ FixedSoFar R c.code c.output)

/-- Some case is marked with `Only` -/
def SomeOnly (valid : List (ValidCase Code)) (invalid : List (InvalidCase Code)) : Prop :=
  (∃ c ∈ valid, c.only = true) ∨ ∃ c ∈ invalid, c.only = true

end Tsgolint.RuleTester
