import Batteries.Data.List.Basic
import Verif.Model.Timing
/-! # What the timing report should be -/
namespace Tsgolint.Timing
open Tsgolint.Worker (Stat)

/-- `order` enumerates the entries of the map, each once. -/
def Enumerates (order : List (String × Stat)) (m : Map) : Prop :=
  (order.map (·.1)).Nodup ∧ ∀ k s, (k, s) ∈ order ↔ m k = some s

/-- Total duration / calls of a rule in a list of maps. -/
def sumDuration (ms : List Map) (k : String) : Int := (ms.map fun m => ((m k).getD ⟨0, 0⟩).duration).sum
def sumCalls (ms : List Map) (k : String) : Nat := (ms.map fun m => ((m k).getD ⟨0, 0⟩).calls).sum

/-- One run: each worker's map is enumerated somehow, the merges happen in some order, the store is enumerated somehow and sorted
somehow. -/
def Collected (ms : List Map) (records : List Record) : Prop :=
  ∃ (orders : List (List (String × Stat))) (ms' : List Map) (order : List (String × Stat)) (S : Sorter cmp),
    ms'.Perm ms ∧ List.Forall₂ Enumerates orders ms' ∧ Enumerates order (orders.foldl merge (fun _ => none)) ∧
    records = collect S order

end Tsgolint.Timing
