/-!
# Model of the reporting API given to rules

/repo/internal/linter/linter.go:214-314 (`ruleContextBuilder`, `newRuleContext`) and /repo/internal/rule/rule.go:44-130.
The thunks `fixesFn`/`suggestionsFn` are modelled by their values; that they are run is recorded as an effect.
`utils.TrimNodeTextRange` (typescript-go scanner) is the parameter `trim`.
-/
namespace Tsgolint.Report

variable {File Node Range : Type}

/-- rule.go:44-47 -/
structure Fix (Range : Type) where
  text : String
  range : Range

/-- rule.go:38-42 -/
structure Message where
  id : String
  description : String
  help : String

/-- rule.go:82-89 -/
structure Suggestion (Range : Type) where
  message : Message
  fixes : List (Fix Range)

/-- rule.go:91-102; `none` is a nil pointer. -/
structure Diagnostic (File Range : Type) where
  range : Range
  ruleName : String
  message : Message
  fixes : Option (List (Fix Range))
  suggestions : Option (List (Suggestion Range))
  sourceFile : Option File
  labels : List (String × Range)

/-- rule.go:117-130: a call of one of the eight reporting functions. -/
inductive Call (File Node Range : Type)
  | diagnostic (d : Diagnostic File Range)
  | diagnosticWithFixes (d : Diagnostic File Range) (fixes : List (Fix Range))
  | diagnosticWithSuggestions (d : Diagnostic File Range) (s : List (Suggestion Range))
  | range (r : Range) (m : Message)
  | rangeWithSuggestions (r : Range) (m : Message) (s : List (Suggestion Range))
  | node (n : Node) (m : Message)
  | nodeWithFixes (n : Node) (m : Message) (fixes : List (Fix Range))
  | nodeWithSuggestions (n : Node) (m : Message) (s : List (Suggestion Range))

/-- What a call does that can be observed: running a generator given by the rule, and handing a diagnostic on. -/
inductive Effect (File Range : Type)
  | ranFixes
  | ranSuggestions
  | emitted (d : Diagnostic File Range)

/-- linter.go:34-37 `Fixes` -/
structure FixState where
  fix : Bool
  fixSuggestions : Bool

/-- linter.go:218-225, the fields used by the reporting functions -/
structure Builder (File : Type) where
  file : Option File
  ruleName : String

/-- linter.go:229-233 `emitDiagnostic` -/
def emit (b : Builder File) (d : Diagnostic File Range) : List (Effect File Range) :=
  [.emitted { d with ruleName := b.ruleName, sourceFile := b.file }]

/-- The pattern `var x; if flag { x = fn() }` (linter.go:236-239 and alike): the effects and the value left in `x`. -/
def gate {α : Type} (flag : Bool) (ran : Effect File Range) (l : List α) : List (Effect File Range) × List α :=
  if flag then ([ran], l) else ([], [])

/-- A diagnostic literal `rule.RuleDiagnostic{Range: …, Message: …}`. -/
def plain (r : Range) (m : Message) : Diagnostic File Range := ⟨r, "", m, none, none, none, []⟩

/-- linter.go:227-300: the eight functions. -/
def report (trim : Option File → Node → Range) (fx : FixState) (b : Builder File) :
    Call File Node Range → List (Effect File Range)
  -- linter.go:229-233
  | .diagnostic d => emit b d
  -- linter.go:235-242
  | .diagnosticWithFixes d fixes =>
    let (e, x) := gate fx.fix .ranFixes fixes
    e ++ emit b { d with fixes := some x }
  -- linter.go:244-251
  | .diagnosticWithSuggestions d s =>
    let (e, x) := gate fx.fixSuggestions .ranSuggestions s
    e ++ emit b { d with suggestions := some x }
  -- linter.go:253-258
  | .range r m => emit b (plain r m)
  -- linter.go:260-270
  | .rangeWithSuggestions r m s =>
    let (e, x) := gate fx.fixSuggestions .ranSuggestions s
    e ++ emit b { plain r m with suggestions := some x }
  -- linter.go:272-277
  | .node n m => emit b (plain (trim b.file n) m)
  -- linter.go:279-289
  | .nodeWithFixes n m fixes =>
    let (e, x) := gate fx.fix .ranFixes fixes
    e ++ emit b { plain (trim b.file n) m with fixes := some x }
  -- linter.go:291-301
  | .nodeWithSuggestions n m s =>
    let (e, x) := gate fx.fixSuggestions .ranSuggestions s
    e ++ emit b { plain (trim b.file n) m with suggestions := some x }

end Tsgolint.Report
