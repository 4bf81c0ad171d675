import Verif.Model.Highlights
import Verif.Model.Report
/-!
# Model of the parts fixes are made of (/repo/internal/rule/rule.go:55-80, 132-143)

Nodes are given by their places (see `Verif.Model.Highlights`): where the token before the node ends, where its first token begins, and where it ends.
-/
namespace Tsgolint.FixParts
open Fixer (Bytes Fix)
open Highlights (Place Range Scanner trim)

/-- rule.go:55-61 `RuleFixInsertBefore` -/
def insertBefore (token : Scanner) (node : Place) (text : Bytes) : Fix := ⟨text, (trim token node).pos, (trim token node).pos⟩

/-- rule.go:62-67 `RuleFixInsertAfter` -/
def insertAfter (node : Place) (text : Bytes) : Fix := ⟨text, node.stop, node.stop⟩

/-- rule.go:71-76 `RuleFixReplaceRange` -/
def replaceRange (r : Range) (text : Bytes) : Fix := ⟨text, r.pos, r.stop⟩

/-- rule.go:68-70 `RuleFixReplace` -/
def replace (token : Scanner) (node : Place) (text : Bytes) : Fix := replaceRange (trim token node) text

/-- rule.go:77-79 `RuleFixRemove` -/
def remove (token : Scanner) (node : Place) : Fix := replace token node []

/-- rule.go:80-82 `RuleFixRemoveRange` -/
def removeRange (r : Range) : Fix := replaceRange r []

/-- rule.go:132-143 `ReportNodeWithFixesOrSuggestions`: the reporting function it calls. -/
def fixesOrSuggestions {File Node R : Type} (node : Node) (fix : Bool) (msg suggestionMsg : Report.Message) (fixes : List (Report.Fix R)) : Report.Call File Node R :=
  if fix then .nodeWithFixes node msg fixes else .nodeWithSuggestions node msg [⟨suggestionMsg, fixes⟩]

end Tsgolint.FixParts
