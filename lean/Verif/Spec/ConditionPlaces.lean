import Verif.Model.ConditionPlaces
/-!
# Which expressions of a file are tested
-/
namespace Tsgolint.ConditionPlaces

/-- There is a node of this kind at a place. -/
inductive Occurs : Node → Path → Node → Prop
  | here (n) : Occurs n [] n
  | inside {k cs i c p n} : cs[i]? = some c → Occurs c p n → Occurs (.mk k cs) (i :: p) n

/-- There is something at the place. -/
def Exists (file : Node) (p : Path) : Prop := ∃ n, Occurs file p n

/-- A node of the kind at a place. -/
def Is (file : Node) (p : Path) (k : Kind) : Prop := ∃ cs, Occurs file p (.mk k cs)

/-- The expression at a place is the condition of a statement or operator: its truth decides what is evaluated next. -/
inductive Condition (exempt : Path → Bool) (file : Node) : Path → Prop
  | ifStatement {p} : Is file p .ifStatement → Condition exempt file (p ++ [0])
  | ternary {p} : Is file p .ternary → Condition exempt file (p ++ [0])
  | and {p} : Is file p .and → Condition exempt file (p ++ [0])
  | or {p} : Is file p .or → Condition exempt file (p ++ [0])
  | andAssign {p} : Is file p .andAssign → Condition exempt file (p ++ [0])
  | orAssign {p} : Is file p .orAssign → Condition exempt file (p ++ [0])
  | whileLoop {p} : Is file p .whileLoop → exempt (p ++ [0]) = false → Condition exempt file (p ++ [0])
  | doLoop {p} : Is file p .doLoop → exempt (p ++ [1]) = false → Condition exempt file (p ++ [1])
  | forLoop {p i} : Is file p (.forLoop (some i)) → exempt (p ++ [i]) = false → Condition exempt file (p ++ [i])
  | asserted {p i} : Is file p (.call (some i)) → Condition exempt file (p ++ [i])

/-- The truth of the expression at a place decides a condition; `report`: the largest expression around it of which it alone is a test, up to `negated`. -/
inductive Tested (exempt : Path → Bool) (file : Node) : Path → Path → Bool → Prop
  | condition {p} : Condition exempt file p → Tested exempt file p p false
  | parens {p report negated} : Tested exempt file p report negated → Is file p .parens → Tested exempt file (p ++ [0]) report negated
  | not {p report negated} : Tested exempt file p report negated → Is file p .not → Tested exempt file (p ++ [0]) report (!negated)
  | and {p report negated} : Tested exempt file p report negated → Is file p .and → Tested exempt file (p ++ [1]) (p ++ [1]) false
  | or {p report negated} : Tested exempt file p report negated → Is file p .or → Tested exempt file (p ++ [1]) (p ++ [1]) false

/-- Not made of tested parts: neither in parentheses nor `!`, `&&` or `||`. -/
def Simple (file : Node) (p : Path) : Prop :=
  Exists file p ∧ ¬ Is file p .parens ∧ ¬ Is file p .not ∧ ¬ Is file p .and ∧ ¬ Is file p .or

end Tsgolint.ConditionPlaces
