import Verif.Model.OptionalVisit
/-!
# Whole `&&` and `||` expressions
-/
namespace Tsgolint.OptionalVisit

/-- The operator of `&&` and `||`, not of `??` -/
def Op.chain : Op → Option Op
  | .nullish => none
  | op => some op

/-- The `&&` and `||` expressions outside JSX that are not operands of the same operator, with their places; outer ones first, then from left to right.  `under`: the operator whose operand the tree is, with or without parentheses. -/
def tops (jsx : Bool) (under : Option Op) (start : Nat) : Tree → List (Nat × Tree)
  | .token _ => []
  | .node j a b => tops (jsx || j) none start a ++ tops (jsx || j) none (start + a.width) b
  | .paren t => tops jsx under (start + 1) t
  | .logic op gap l r =>
    (if op ≠ .nullish ∧ jsx = false ∧ under ≠ some op then [(start, .logic op gap l r)] else [])
      ++ tops jsx op.chain start l ++ tops jsx op.chain (start + l.width + (gap + 2)) r

/-- The ranges of all `&&` and `||` outside JSX -/
def logicals (jsx : Bool) (start : Nat) : Tree → List Range
  | .token _ => []
  | .node j a b => logicals (jsx || j) start a ++ logicals (jsx || j) (start + a.width) b
  | .paren t => logicals jsx (start + 1) t
  | .logic op gap l r =>
    (if op ≠ .nullish ∧ jsx = false then [(start, start + (l.width + (gap + 2) + r.width))] else [])
      ++ logicals jsx start l ++ logicals jsx (start + l.width + (gap + 2)) r

def Tree.operator : Tree → Option Op
  | .logic op _ _ _ => some op
  | _ => none

/-- What belongs to a whole expression: itself and the operands of the same operator, with or without parentheses -/
def ofWhole (x : Nat × Tree) : List Range :=
  match x.2.operator with
  | some op => x.2.marks op x.1
  | none => []

end Tsgolint.OptionalVisit
