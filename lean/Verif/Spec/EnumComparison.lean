import Verif.Model.EnumComparison
import Verif.Spec.StringLiteral
/-! # Which comparisons of enums are meant; values of expressions -/
namespace Tsgolint.EnumComparison

/-- All values of the type are numbers (strings). -/
def AllNumbers (t : Ty) : Prop := ∀ p ∈ t, ∃ i ∈ p.inter, i.numberLike = true
def AllStrings (t : Ty) : Prop := ∀ p ∈ t, ∃ i ∈ p.inter, i.stringLike = true

/-- `a` may be a member of an enum that has numbers (other values) and `b` is a number (string). -/
def Violates (a b : Ty) : Prop :=
  ∃ p ∈ a, p.enumLike = true ∧ ((p.numberLiteral = true ∧ AllNumbers b) ∨ (p.numberLiteral = false ∧ AllStrings b))

/-- Both may be members of the same enum. -/
def ShareEnum (a b : Ty) : Prop := ∃ p ∈ a, ∃ q ∈ b, p.enumLiteral = true ∧ q.enumLiteral = true ∧ p.base = q.base

/-- Both have a part in common. -/
def SharePart (a b : Ty) : Prop := ∃ p ∈ a, ∃ q ∈ b, p.id = q.id

def MentionsEnum (a : Ty) : Prop := ∃ p ∈ a, p.enumLiteral = true

/-- Evaluation of JavaScript expressions (those that have no effects and need no variables). -/
inductive Eval (ν : Num) : Expr → Value ν → Prop
  | paren {e v} : Eval ν e v → Eval ν (.paren e) v
  | string {t} : Eval ν (.string t) (.str t)
  | template {t} : Eval ν (.template t) (.str t)
  | numeric {t} : Eval ν (.numeric t) (.num (ν.ofText t))
  | minus {e n} : Eval ν e (.num n) → Eval ν (.unary .minus e) (.num (ν.neg n))
  | plus {e n} : Eval ν e (.num n) → Eval ν (.unary .plus e) (.num n)
  | assertion {e v} : Eval ν e v → Eval ν (.assertion e) v
  | add {l r a b} : Eval ν l (.num a) → Eval ν r (.num b) → Eval ν (.binary .plus l r) (.num (ν.add a b))
  | concat {l r a b} : Eval ν l (.str a) → Eval ν r (.str b) → Eval ν (.binary .plus l r) (.str (a ++ b))
  | concatLeft {l r a b} : Eval ν l (.str a) → Eval ν r (.num b) → Eval ν (.binary .plus l r) (.str (a ++ ν.toStr b))
  | concatRight {l r a b} : Eval ν l (.num a) → Eval ν r (.str b) → Eval ν (.binary .plus l r) (.str (ν.toStr a ++ b))

/-- `===` on values. -/
inductive StrictEq {ν : Num} : Value ν → Value ν → Prop
  | str {s} : StrictEq (.str s) (.str s)
  | num {a b} : ν.eq a b = true → StrictEq (.num a) (.num b)

end Tsgolint.EnumComparison
