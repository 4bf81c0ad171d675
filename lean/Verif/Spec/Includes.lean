import Verif.Model.Includes
import Verif.Spec.StartsEnds
/-!
# What `indexOf` and `includes` mean, and which patterns are harmless

ECMA-262 §23.1.3.16-17 (arrays), §22.1.3.8-9 (strings).
-/
namespace Tsgolint.Includes
open StartsEnds (Str indexOf)

/-- The value of `index op n` for numbers. -/
def Op.holds : Op → Int → Int → Prop
  | .eqeq, a, b | .eq, a, b => a = b
  | .neeq, a, b | .ne, a, b => a ≠ b
  | .lt, a, b => a < b
  | .le, a, b => a ≤ b
  | .gt, a, b => a > b
  | .ge, a, b => a ≥ b
  | .other, _, _ => False

/-- JavaScript values, as far as equality is concerned. -/
inductive Js
  | undefined
  | nan
  | value (id : Nat)
deriving DecidableEq, Repr

/-- IsStrictlyEqual: NaN equals nothing. -/
def Js.strictEq (a b : Js) : Bool := a == b && a != .nan

/-- SameValueZero. -/
def Js.sameValueZero (a b : Js) : Bool := a == b

/-- Arrays with holes. -/
abbrev Array' := List (Option Js)

/-- The element at `k`, if there is one, is strictly equal to `x`. -/
def strictAt (a : Array') (x : Js) (k : Nat) : Bool := match a[k]? with
  | some (some y) => x.strictEq y
  | _ => false

/-- The element at `k`, undefined if it is a hole, is the same as `x`. -/
def sameAt (a : Array') (x : Js) (k : Nat) : Bool := match a[k]? with
  | some y => x.sameValueZero (y.getD .undefined)
  | none => false

/-- Array.prototype.indexOf from a position: holes are skipped. -/
def arrayIndexOf (a : Array') (x : Js) (start : Nat) : Int :=
  match (List.range a.length).find? (fun k => decide (start ≤ k) && strictAt a x k) with
  | some k => k
  | none => -1

/-- Array.prototype.includes from a position: holes count as undefined. -/
def arrayIncludes (a : Array') (x : Js) (start : Nat) : Bool :=
  (List.range a.length).any (fun k => decide (start ≤ k) && sameAt a x k)

/-- String.prototype.includes. -/
def StringIncludes (s x : Str) : Prop := x <:+: s

def lineEnd (c : Char) : Bool := c = '\n' || c = '\r' || c = '\u2028' || c = '\u2029'

def beginsWith (p : Char → Bool) : Text → Bool
  | c :: _ => p c
  | [] => false

/-- Patterns that mean the same as a regular expression and, apostrophes being escaped, as a string: line ends do not occur; escaped
are neither apostrophes nor digits (but `\0` before something else than a digit) nor the letters `k`, `p`, `P`; no special character
follows an escaped backslash. -/
def harmless : Text → Bool
  | [] => true
  | c :: rest =>
    if c = '\\' then match rest with
      | [] => false
      | e :: rest' =>
        e != '\'' && !lineEnd e && !(['k', 'p', 'P'].contains e) &&
        (!Template.isDigit e || (e == '0' && !beginsWith Template.isDigit rest')) &&
        !(e == '\\' && beginsWith special rest') && harmless rest'
    else !lineEnd c && harmless rest

end Tsgolint.Includes
