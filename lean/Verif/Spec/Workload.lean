import Verif.Model.Workload
/-! # Independent vocabulary for C11 and C12 -/
namespace Tsgolint.Workload
open Tsgolint.Payload (Config Rule)

/-- Everything the client asked for, flattened in reading order: (normalised path, rules of its config). -/
def requests (configs : List Config) : List (String × List Rule) :=
  configs.flatMap fun c => c.filePaths.map fun f => (normalizeSlashes f, c.rules)

/-- The rules of the last request for a path. -/
def lastRequest (configs : List Config) (path : String) : Option (List Rule) :=
  ((requests configs).reverse.find? (fun r => r.1 = path)).map (·.2)

/-- What a client can count on about the enumeration of a Go map with the requested files as keys: each exactly once, in any
order. -/
def KeysOf (order files : List String) : Prop := order.Nodup ∧ ∀ f, f ∈ order ↔ f ∈ files

end Tsgolint.Workload
