import Verif.Spec.OptionalCode

/-!
# What comes after the optional chain, and where its question marks are
-/

namespace Tsgolint.OptionalChain

/-- a comparison with null in an AND chain, `x !== null` -/
def AboutNull (x : Operand) : Prop := x.kind = .notNull
/-- a comparison with undefined in an AND chain, `x !== undefined` or `typeof x !== 'undefined'` -/
def AboutUndef (x : Operand) : Prop := x.kind = .notUndef ∨ x.kind = .typeof

/-- one compares an expression with null, and the other the same one with undefined -/
def Pair (s l : Operand) : Prop := compare l.expr s.expr = .equal ∧ ((AboutNull s ∧ AboutUndef l) ∨ (AboutUndef s ∧ AboutNull l))

/-- a strict comparison in front of a truth test at the end, that no earlier operand makes complete; the closest `!= null` in front of it is about a beginning of the
same expression -/
def StrictThenPlain (before : List Operand) (s l : Operand) : Prop :=
  l.kind = .plain ∧ (s.kind = .notNull ∨ s.kind = .notUndef) ∧
  (∀ x ∈ before, compare x.expr s.expr = .equal → ¬ (s.kind = .notNull ∧ AboutUndef x) ∧ ¬ (s.kind = .notUndef ∧ AboutNull x)) ∧
  ∃ a x b, before = a ++ x :: b ∧ (x.kind = .notBoth ∨ x.kind = .isBoth) ∧ (∀ y ∈ b, y.kind ≠ .notBoth ∧ y.kind ≠ .isBoth) ∧ compare x.expr s.expr = .subset

/-- a check that counts for the question marks: `typeof` checks only do if there are no others -/
def Counts (cs : List Operand) (x : Operand) : Prop := x ∈ cs ∧ (x.kind = .typeof → ∀ y ∈ cs, y.kind = .typeof)

/-- the last link is a call -/
def EndsInCall (e : Expr) : Prop := ∃ p ts xs, (links false e).getLast? = some p ∧ p.step = .call ts xs

/-- if only the root is checked, and the chain ends in a truth test: every link of it but a call at the end -/
def Filled (cs : List Operand) (last : Operand) (j : Nat) : Prop :=
  (∃ x, Counts cs x) ∧ (∀ x, Counts cs x → x.expr.size = 1) ∧ last.kind = .plain ∧
  j < (links false last.node).length ∧ (EndsInCall last.node → j + 1 ≠ (links false last.node).length)

/-- link `j` of the expression `T` gets a question mark -/
def Marked (chain cs : List Operand) (last : Operand) (T : Expr) (j : Nat) : Prop :=
  (∃ x, Counts cs x ∧ x.expr.size = j + 1) ∨ Filled cs last j ∨
  (EndsInCall T ∧ j + 1 = (links false T).length ∧ ∃ x ∈ chain.dropLast, x.expr.size = j + 1)

end Tsgolint.OptionalChain
