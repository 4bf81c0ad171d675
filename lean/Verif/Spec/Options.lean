import Verif.Model.OptionTables
import Verif.Spec.OptionDocs
/-! # What rule options mean -/
namespace Tsgolint.Options
open Tsgolint.Payload

/-- The options object gives member `name` the value `v` (a `null` counts as not given). -/
def Given (j : Json) (name : String) (v : Json) : Prop := ∃ m, j = .obj m ∧ (name, v) ∈ m ∧ v ≠ .null

/-- A JSON value whose object members have distinct names (the parser guarantees it). -/
def Distinct (j : Json) : Prop := ∀ m, j = .obj m → (m.map (·.1)).Nodup

end Tsgolint.Options
