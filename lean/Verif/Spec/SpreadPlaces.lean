import Verif.Spec.Visit
import Verif.Model.SpreadPlaces
/-! # Specification: where a spread expands something -/
namespace Tsgolint.SpreadPlaces
open Tsgolint.Visit

/-- The kinds are syntax kinds, and different ones. -/
structure KindsDiffer (K : Kinds) (S : SpreadKinds) : Prop where
  small : K.arr < 1000 ∧ K.obj < 1000 ∧ K.prop < 1000 ∧ K.assign < 1000 ∧ S.call < 1000 ∧ S.jsx < 1000
  arr_obj : K.arr ≠ K.obj
  call : S.call ≠ K.arr ∧ S.call ≠ K.obj ∧ S.call ≠ K.prop ∧ S.call ≠ K.assign ∧ S.call ≠ S.jsx ∧ S.call ≠ S.element ∧ S.call ≠ S.assignment
  jsx : S.jsx ≠ K.arr ∧ S.jsx ≠ K.obj ∧ S.jsx ≠ K.prop ∧ S.jsx ≠ K.assign ∧ S.jsx ≠ S.element ∧ S.jsx ≠ S.assignment

/-- A tree of the parser: other nodes do not have the kinds of literals, property assignments, assignments and spreads; spreads have one of the two kinds. -/
inductive Parsed (K : Kinds) (S : SpreadKinds) : Node → Prop
  | other {k i cs} : k < 1000 → k ≠ K.arr → k ≠ K.obj → (∀ c ∈ cs, Parsed K S c) → Parsed K S (.other k i cs)
  | arr {i cs} : (∀ c ∈ cs, Parsed K S c) → Parsed K S (.arr i cs)
  | obj {i cs} : (∀ c ∈ cs, Parsed K S c) → Parsed K S (.obj i cs)
  | spread {k i e} : k < 1000 → k = S.element ∨ k = S.assignment → Parsed K S e → Parsed K S (.spread k i e)
  | prop {i ps e} : (∀ c ∈ ps, Parsed K S c) → Parsed K S e → Parsed K S (.prop i ps e)
  | assign {i ms l ty o r} : (∀ c ∈ (Node.assign i ms l ty o r).children, Parsed K S c) → Parsed K S (.assign i ms l ty o r)

/-- Kinds of loops over the elements or keys of a value (`for (target of value)`, `for (target in value)`), whose first child is assigned to. -/
abbrev Loops := Nat → Bool

/-- The role ECMAScript gives the node `m` below `n`: is it assigned to (an assignment target, possibly a destructuring pattern), or evaluated?  `defaults`:
follow also the two ways to a target that are no plain assignment, the heads of loops and targets with a default value (`[[a] = x] = y`).
The operator tokens, modifiers and types of an assignment are neither, and left out. -/
inductive Role (loops : Loops) (defaults : Bool) : (target : Bool) → Node → Bool → Node → Prop
  | self (p n) : Role loops defaults p n p n
  /-- elements of an array pattern -/
  | arr {i cs c q m} : c ∈ cs → Role loops defaults true c q m → Role loops defaults true (.arr i cs) q m
  /-- properties of an object pattern -/
  | obj {i cs c q m} : c ∈ cs → Role loops defaults true c q m → Role loops defaults true (.obj i cs) q m
  /-- rest elements and rest properties -/
  | rest {k i e q m} : Role loops defaults true e q m → Role loops defaults true (.spread k i e) q m
  /-- the target of a property in an object pattern -/
  | value {i ps e q m} : Role loops defaults true e q m → Role loops defaults true (.prop i ps e) q m
  /-- the name of a property in an object pattern, if it is computed, is evaluated -/
  | name {i ps e c q m} : c ∈ ps → Role loops defaults false c q m → Role loops defaults true (.prop i ps e) q m
  /-- a target with a default value, in a pattern -/
  | default {i ms l ty o r q m} : defaults = true → Role loops defaults true l q m → Role loops defaults true (.assign i ms l ty o r) q m
  /-- the default value -/
  | defaultValue {i ms l ty o r q m} : Role loops defaults false r q m → Role loops defaults true (.assign i ms l ty o r) q m
  /-- what is below another target (`f(a).b`, `a[b]`) is evaluated -/
  | inTarget {k i cs c q m} : c ∈ cs → Role loops defaults false c q m → Role loops defaults true (.other k i cs) q m
  | left {i ms l ty o r q m} : Role loops defaults true l q m → Role loops defaults false (.assign i ms l ty o r) q m
  | right {i ms l ty o r q m} : Role loops defaults false r q m → Role loops defaults false (.assign i ms l ty o r) q m
  /-- the head of a loop -/
  | head {k i h cs q m} : defaults = true → loops k = true → Role loops defaults true h q m → Role loops defaults false (.other k i (h :: cs)) q m
  | body {k i h cs c q m} : loops k = true → c ∈ cs → Role loops defaults false c q m → Role loops defaults false (.other k i (h :: cs)) q m
  | child {k i cs c q m} : loops k = false → c ∈ cs → Role loops defaults false c q m → Role loops defaults false (.other k i cs) q m
  | element {i cs c q m} : c ∈ cs → Role loops defaults false c q m → Role loops defaults false (.arr i cs) q m
  | property {i cs c q m} : c ∈ cs → Role loops defaults false c q m → Role loops defaults false (.obj i cs) q m
  | spread {k i e q m} : Role loops defaults false e q m → Role loops defaults false (.spread k i e) q m
  | propertyPart {i ps e c q m} : c ∈ ps ∨ c = e → Role loops defaults false c q m → Role loops defaults false (.prop i ps e) q m

/-- The child with index `j` of the node `m` (in that role) is a spread that expands a value: into an array or into arguments, or into an object or the
properties of a JSX element. -/
inductive Expands (K : Kinds) (S : SpreadKinds) : (target : Bool) → Node → Nat → Mode → Prop
  | array {i cs j si e} : cs[j]? = some (.spread S.element si e) → Expands K S false (.arr i cs) j .arrayOrCall
  | call {q i cs j si e} : cs[j]? = some (.spread S.element si e) → Expands K S q (.other S.call i cs) j .arrayOrCall
  | object {i cs j si e} : cs[j]? = some (.spread S.assignment si e) → Expands K S false (.obj i cs) j .object
  | jsx {q i cs} : Expands K S q (.other S.jsx i cs) 0 .object

end Tsgolint.SpreadPlaces
