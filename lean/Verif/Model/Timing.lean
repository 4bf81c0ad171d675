import Verif.Model.Worker
import Verif.Model.Sorter
/-!
# Model of the timing store (/repo/internal/linter/timing.go) and of the timing message (/repo/cmd/tsgolint/headless.go:163-173)

A Go map is a function to `Option`; where the code ranges over a map, the order of enumeration is an argument.
`merge` and `Collect` hold the store's mutex throughout, so they are atomic and the merges of the workers happen one after the other.
-/
namespace Tsgolint.Timing
open Tsgolint.Worker (Stat)

/-- `map[string]RuleTimingStat` -/
abbrev Map := String → Option Stat

/-- timing.go:19-23 -/
structure Record where
  ruleName : String
  duration : Int
  calls : Nat
deriving DecidableEq

/-- timing.go:41-43: the body of the loop; a missing entry reads as the zero value. -/
def mergeOne (store : Map) (ruleName : String) (stat : Stat) : Map :=
  fun k => if k = ruleName then some (((store ruleName).getD ⟨0, 0⟩).add stat) else store k

/-- timing.go:34-46 `merge`, `order` being the order in which the entries of `localTimings` are enumerated. -/
def merge (store : Map) (order : List (String × Stat)) : Map :=
  if order.length = 0 then store else order.foldl (fun m e => mergeOne m e.1 e.2) store

/-- timing.go:62-67: the `less` function. -/
def less (a b : Record) : Bool :=
  if a.duration ≠ b.duration then a.duration > b.duration else a.ruleName < b.ruleName

/-- The comparator a `less` function stands for. -/
def cmp (a b : Record) : Int := if less a b then -1 else if less b a then 1 else 0

/-- timing.go:48-70 `Collect`, `order` being the order in which the store is enumerated. -/
def collect (S : Sorter cmp) (order : List (String × Stat)) : List Record :=
  S.sort (order.map fun e => ⟨e.1, e.2.duration, e.2.calls⟩)

/-- headless.go:163-173: a record of the message.  `uint64(d)` is modelled by `Int.toNat`, right for durations that are not negative. -/
structure Wire where
  ruleName : String
  duration : Nat
  calls : Nat
deriving DecidableEq

/-- headless.go:163-173 -/
def payload (records : List Record) : List Wire := records.map fun r => ⟨r.ruleName, r.duration.toNat, r.calls⟩

end Tsgolint.Timing
