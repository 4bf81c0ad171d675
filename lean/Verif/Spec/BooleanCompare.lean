import Verif.Model.BooleanCompare
import Verif.Spec.StableFix
/-!
# What comparisons with boolean literals compute

A tiny independent semantics of the JavaScript expressions involved.
-/
namespace Tsgolint.BooleanCompare
open Fixer (Bytes ascii)

/-- JavaScript values, as far as they matter here; `other` are all values that are neither booleans nor null/undefined. -/
inductive Val | bool (b : Bool) | null | undefined | other (n : Nat)
deriving DecidableEq, Repr

/-- How the other values behave (numbers, strings, objects, ...): truthiness and `==` against booleans. -/
structure Js where
  truthy : Nat → Bool
  looseEq : Nat → Bool → Bool

def Js.toBoolean (js : Js) : Val → Bool
  | .bool b => b
  | .null | .undefined => false
  | .other n => js.truthy n

/-- `v == b` and `v === b` for a boolean literal `b`. -/
def Js.equals (js : Js) (strict : Bool) : Val → Bool → Bool
  | .bool a, b => a == b
  | .null, _ | .undefined, _ => false
  | .other n, b => if strict then false else js.looseEq n b

/-- Value of `v op lit` (equality with a literal is symmetric, so also of `lit op v`). -/
def Js.compare (js : Js) (op : Op) (v : Val) (lit : Bool) : Bool :=
  match op with
  | .eq => js.equals false v lit
  | .eqeq => js.equals true v lit
  | .ne => !js.equals false v lit
  | .neeq => !js.equals true v lit
  | .other => false

/-- A value is described by the flags of a (non-union) type. -/
def Flags.Denotes (f : Flags) (v : Val) : Prop :=
  (f.booleanLike = true → ∃ b, v = .bool b) ∧ (f.booleanLike = false → f.nullable = true → v = .null ∨ v = .undefined)

/-- A value belongs to a type. -/
def Ty.Denotes (t : Ty) (v : Val) : Prop :=
  t.own.Denotes v ∧ ∀ ps, t.union = some ps → ∃ p ∈ ps, p.Denotes v

/-- All constituents are booleans, null or undefined: the third condition of the rule's own comment (lines 75-80). -/
def Ty.OnlyNullableBoolean (t : Ty) : Prop := ∀ ps, t.union = some ps → ∀ p ∈ ps, p.booleanLike = true ∨ p.nullable = true

/-- What the fix puts in place of the comparison: the expression itself, possibly with `?? true`, possibly negated. -/
structure Result where
  negate : Bool
  orTrue : Bool

/-- Source text of the replacement; parentheses around the expression if it is negated and not strong. -/
def Result.text (r : Result) (strong : Bool) (text : Bytes) : Bytes :=
  let inner := if r.negate && !strong then ascii "(" ++ text ++ ascii ")" else text
  let inner := if r.orTrue then ascii "(" ++ inner ++ ascii " ?? true)" else inner
  if r.negate then ascii "!" ++ inner else inner

/-- JavaScript value of the replacement. -/
def Js.result (js : Js) (r : Result) (v : Val) : Val :=
  let w := if r.orTrue then (match v with | .null | .undefined => .bool true | v => v) else v
  if r.negate then .bool (!js.toBoolean w) else w

/-- Binding strength of JavaScript operators involved (a larger number binds tighter). -/
inductive Prec | coalesce | equality | relational | arithmetic | unary | postfix | primary
deriving DecidableEq, Repr

def Prec.level : Prec → Nat
  | .coalesce => 0 | .equality => 1 | .relational => 2 | .arithmetic => 3 | .unary => 4 | .postfix => 5 | .primary => 6

/-- Binding strength of the replacement when the compared expression has strength `p`. -/
def Result.prec (r : Result) (p : Prec) : Prec := if r.negate then .unary else if r.orTrue then .primary else p

/-- Inside the replacement every operator finds an operand that binds tightly enough: `!` a unary expression, `??` anything that
binds tighter than `??`. -/
def Result.Operands (r : Result) (strong : Bool) (p : Prec) : Prop :=
  let inner := if r.negate && !strong then Prec.primary else p
  (r.orTrue = true → Prec.coalesce.level < inner.level) ∧ (r.negate = true → r.orTrue = false → Prec.unary.level ≤ inner.level)

end Tsgolint.BooleanCompare
