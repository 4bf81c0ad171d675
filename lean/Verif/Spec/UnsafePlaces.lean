import Verif.Model.UnsafePlaces
import Verif.Spec.UnsafeAssignment
/-!
# Where something is assigned, and what it is compared with
-/
namespace Tsgolint.UnsafePlaces
open UnsafeAssignment (Value Receiver Pat Comparison)

/-- At this place `v` is assigned to `r`, written as the pattern if there is one; and with which type it is compared: a declaration without annotation
takes its type from the value, so there is none; an attribute has the type its element expects. -/
inductive Assigns : Place T → Value T → Receiver T → Option Pat → Comparison → Prop
  | property {v r} : Assigns (.property false (some v) r) v r none .none
  | annotatedProperty {v r} : Assigns (.property true (some v) r) v r none .basic
  | binary {v r p} : Assigns (.binary true v r p) v r (some p) .basic
  | element {v r p} : Assigns (.element (some v) r p) v r (some p) .basic
  | parameter {a v r p} : Assigns (.parameter a (some v) r p) v r (some p) .basic
  | shorthand {v r n} : Assigns (.shorthand (some v) r n) v r none .basic
  | variable {v r p} : Assigns (.variable false (some v) r p) v r (some p) .none
  | annotatedVariable {v r p} : Assigns (.variable true (some v) r p) v r (some p) .basic
  | attribute {v r} : Assigns (.attribute (some v) r) v r none .contextual

end Tsgolint.UnsafePlaces
