import Verif.Model.Report
/-!
# Model of the conversion of diagnostics to messages (/repo/cmd/tsgolint/headless.go:69-150, 185-191, 338-397)

`core.TextRange.IsValid` (typescript-go) is the parameter `valid`.  `none` as a result is a Go panic (dereference of a nil pointer).
A nil slice and an empty slice are both `[]`: with `omitempty` both are left out of the JSON, and `suggestion.fixes` is always
a non-nil slice.  The JSON encoding itself is not modelled.
-/
namespace Tsgolint.Emit
open Tsgolint.Report

/-- `core.TextRange` -/
structure Range where
  pos : Int
  stop : Int
deriving DecidableEq

/-- headless.go:69-72 -/
structure HRange where
  pos : Int
  stop : Int
deriving DecidableEq

/-- headless.go:74-82; `none` is nil. -/
def rangeOf (valid : Range → Bool) (r : Range) : Option HRange :=
  if !valid r then none else some ⟨r.pos, r.stop⟩

/-- headless.go:84-98 -/
structure HMessage where
  id : String
  description : String
  help : String
deriving DecidableEq

/-- headless.go:90-96 -/
def messageOf (m : Message) : HMessage := ⟨m.id, m.description, m.help⟩

/-- headless.go:98-101 -/
structure HFix where
  text : String
  range : HRange
deriving DecidableEq

/-- headless.go:102-105 -/
structure HSuggestion where
  message : HMessage
  fixes : List HFix
deriving DecidableEq

/-- headless.go:107-116 -/
def fixesOf (valid : Range → Bool) (fixes : List (Fix Range)) : Option (List HFix) :=
  fixes.mapM fun f => (rangeOf valid f.range).bind fun r => some ⟨f.text, r⟩

/-- headless.go:119-124 -/
inductive Kind | rule | tsconfig
deriving DecidableEq

/-- headless.go:135-146 -/
structure HDiagnostic where
  kind : Kind
  range : Option HRange
  message : HMessage
  filePath : Option String
  labels : List (String × HRange)
  rule : Option String
  fixes : List HFix
  suggestions : List HSuggestion
deriving DecidableEq

/-- /repo/internal/diagnostic/diagnostic.go `Internal` -/
structure Internal where
  range : Range
  id : String
  description : String
  help : String
  filePath : Option String
deriving DecidableEq

/-- rule.go:105-110 `Fixes()` -/
def fixesField {File : Type} (d : Diagnostic File Range) : List (Fix Range) := d.fixes.getD []
/-- rule.go:111-116 `GetSuggestions()` -/
def suggestionsField {File : Type} (d : Diagnostic File Range) : List (Suggestion Range) := d.suggestions.getD []

/-- headless.go:363-365 -/
def requestedFixes {File : Type} (valid : Range → Bool) (opts : FixState) (d : Diagnostic File Range) : Option (List HFix) :=
  if opts.fix then fixesOf valid (fixesField d) else some []

/-- headless.go:366-375 -/
def requestedSuggestions {File : Type} (valid : Range → Bool) (opts : FixState) (d : Diagnostic File Range) :
    Option (List HSuggestion) :=
  if opts.fixSuggestions then
    (suggestionsField d).mapM fun s => (fixesOf valid s.fixes).bind fun f => some ⟨messageOf s.message, f⟩
  else some []

/-- headless.go:353-361 -/
def labelsOf {File : Type} (valid : Range → Bool) (d : Diagnostic File Range) : Option (List (String × HRange)) :=
  d.labels.mapM fun l => (rangeOf valid l.2).bind fun r => some (l.1, r)

/-- headless.go:341-377: a rule diagnostic.  A nil `SourceFile` panics in `FileName()`. -/
def ruleMessage {File : Type} (valid : Range → Bool) (fileName : File → String) (opts : FixState) (d : Diagnostic File Range) :
    Option HDiagnostic :=
  d.sourceFile.bind fun file =>
  (labelsOf valid d).bind fun labels =>
  (requestedFixes valid opts d).bind fun fixes =>
  (requestedSuggestions valid opts d).bind fun suggestions =>
  some ⟨.rule, rangeOf valid d.range, messageOf d.message, some (fileName file), labels, some d.ruleName, fixes, suggestions⟩

/-- headless.go:378-396: an internal diagnostic. -/
def internalMessage (valid : Range → Bool) (d : Internal) : HDiagnostic :=
  ⟨.tsconfig, rangeOf valid d.range, ⟨d.id, d.description, d.help⟩, d.filePath, [], none, [], []⟩

end Tsgolint.Emit
