import Verif.Model.VoidExpression
/-! # What no-confusing-void-expression promises -/
namespace Tsgolint.VoidExpression
open Tsgolint.Fixer

/-- The value of the expression is the value of the parent, or may be. -/
def Passes : Frame → Prop
  | .parens | .logical true | .conditional true | .comma false => True
  | _ => False

/-- The parent drops the value. -/
def Drops : Frame → Prop
  | .expressionStatement | .comma true => True
  | _ => False

/-- The value of the expression is used by nothing. -/
def Unused (frames : List Frame) : Prop := ∃ pre f rest, frames = pre ++ f :: rest ∧ (∀ g ∈ pre, Passes g) ∧ Drops f

/-- The value is passed on to this frame, and no further (the right operand of a comma counts as a use). -/
def UsedBy (frames : List Frame) (f : Frame) : Prop :=
  ∃ pre rest, frames = pre ++ f :: rest ∧ (∀ g ∈ pre, Passes g ∧ g ≠ .comma false) ∧ ¬ Drops f ∧ (Passes f → f = .comma false)

/-- A function for which returning `void` is expected: `void` is among the types its annotation lists, or — only for function expressions and arrow functions without
annotation — among what some signature of the contextual type returns. -/
def ReturnsVoid (f : Function) : Prop :=
  (∃ parts, f.annotation = some parts ∧ true ∈ parts) ∨
  (f.annotation = none ∧ f.isExpression = true ∧ ∃ ts signatures returns, f.contextual = some ts ∧ signatures ∈ ts ∧ returns ∈ signatures ∧ true ∈ returns)

/-- The options allow this use. -/
def Allowed (o : Opts) (e : Expr) (f : Frame) : Prop :=
  (f = .arrow ∧ o.ignoreArrowShorthand = true) ∨ (f = .voidOperator ∧ o.ignoreVoidOperator = true) ∨
  ((f = .arrow ∨ f = .return_) ∧ o.ignoreVoidReturningFunctions = true ∧ ∃ g, e.function = some g ∧ ReturnsVoid g)

/-- The message for a use. -/
def Message (o : Opts) (e : Expr) : Frame → Report
  | .arrow => if o.ignoreVoidOperator then .arrowWrapVoid else .arrow
  | .return_ => if o.ignoreVoidOperator then .returnWrapVoid else if e.final then .returnLast else .return_
  | _ => if o.ignoreVoidOperator then .wrapVoid else .plain

end Tsgolint.VoidExpression
