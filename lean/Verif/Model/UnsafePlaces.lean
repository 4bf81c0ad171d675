import Verif.Model.UnsafeAssignment
/-!
# Model of the listeners of no-unsafe-assignment (/repo/internal/rules/no_unsafe_assignment/no_unsafe_assignment.go, lines 585-656, 710-729)

Object and array literals are `objectLiteral` and `arrayLiteral` in `Verif.Model.UnsafeAssignment`.
-/
namespace Tsgolint.UnsafePlaces
open UnsafeAssignment (Env Value Receiver Pat Comparison Diag Report checkAssignment checkFull comparisonOf)

/-- Nodes with something assigned; `init`: what is assigned, if anything is. -/
inductive Place (T : Type)
  /-- a property of a class; `annotated`: with a type -/
  | property (annotated : Bool) (init : Option (Value T)) (r : Receiver T)
  /-- a binary expression; `assigns`: the operator is `=` -/
  | binary (assigns : Bool) (v : Value T) (r : Receiver T) (target : Pat)
  /-- an element of a binding pattern, `target = init` -/
  | element (init : Option (Value T)) (r : Receiver T) (target : Pat)
  | parameter (annotated : Bool) (init : Option (Value T)) (r : Receiver T) (target : Pat)
  /-- `{ name = init }` in an assignment pattern -/
  | shorthand (init : Option (Value T)) (r : Receiver T) (name : Nat)
  | variable (annotated : Bool) (init : Option (Value T)) (r : Receiver T) (target : Pat)
  /-- an attribute of a JSX element; `init`: what stands between braces -/
  | attribute (init : Option (Value T)) (r : Receiver T)
  | other

/-- `checkAssignment` alone. -/
def alone (d : Option (Diag T)) : Option (Diag T) × List (Report T) := (d, [])

/-- The listeners, lines 587-656 and 710-729. -/
def look (E : Env T) (noImplicitThis : Bool) : Place T → Option (Diag T) × List (Report T)
  | .property annotated (some v) r => alone (checkAssignment E noImplicitThis v r (comparisonOf annotated))
  | .property _ none _ => alone none
  | .binary assigns v r target => if !assigns then alone none else checkFull E noImplicitThis v r target .basic
  | .element (some v) r target => checkFull E noImplicitThis v r target .basic
  | .element none _ _ => alone none
  | .parameter _ (some v) r target => checkFull E noImplicitThis v r target .basic
  | .parameter _ none _ _ => alone none
  | .shorthand (some v) r name => checkFull E noImplicitThis v r (.leaf name) .basic
  | .shorthand none _ _ => alone none
  | .variable annotated (some v) r target => checkFull E noImplicitThis v r target (comparisonOf annotated)
  | .variable _ none _ _ => alone none
  | .attribute (some v) r => alone (checkAssignment E noImplicitThis v r .contextual)
  | .attribute none _ => alone none
  | .other => alone none

end Tsgolint.UnsafePlaces
