import Verif.Model.StaticValue
/-!
# Variables and their initial values
-/
namespace Tsgolint.StaticValue

/-- A variable, in parentheses or not -/
inductive IsVar : Expr → Nat → Prop
  | var (x : Nat) : IsVar (.var (some x)) x
  | paren {e : Expr} {x : Nat} : IsVar e x → IsVar (.paren e) x

/-- From an expression that is a variable on to what the variable is initialised with, and so on -/
inductive Leads (E : Env) : Expr → Expr → Prop
  | here (e : Expr) : Leads E e e
  | step {e e' i : Expr} {x : Nat} : IsVar e x → E.init x = some i → Leads E i e' → Leads E e e'

/-- The end of the way: not a variable with an initialiser -/
def Last (E : Env) (e : Expr) : Prop := ∀ x, IsVar e x → E.init x = none

/-- A variable on the way from `e` that is initialised with itself, directly or over other variables: `var x = x`, `var x = y, y = x` -/
def Circle (E : Env) (e : Expr) : Prop :=
  ∃ x i e₁ e₂, Leads E e e₁ ∧ IsVar e₁ x ∧ E.init x = some i ∧ Leads E i e₂ ∧ IsVar e₂ x

/-- The program has finitely many variables -/
def Finite (E : Env) : Prop := ∃ l : List Nat, ∀ x i, E.init x = some i → x ∈ l

inductive Value
  | string (units : List Nat)
  | null
  | undefined
  | object (n : Nat)
  deriving DecidableEq

/-- The value of an expression at some point of an execution, from those of the variables and of other expressions -/
def eval (store : Nat → Value) (other : Expr → Value) : Expr → Value
  | .string s => .string s
  | .null => .null
  | .undefined => .undefined
  | .var (some x) => store x
  | .paren e => eval store other e
  | e => other e

/-- The variables on the way from `e` have their initial values -/
def KeepsInitial (E : Env) (store : Nat → Value) (other : Expr → Value) (e : Expr) : Prop :=
  ∀ e' x i, Leads E e e' → IsVar e' x → E.init x = some i → store x = eval store other i

/-- `s[0] === c` -/
def firstIs (s : List Nat) (c : Value) : Bool := match s.head? with
  | some u => c == .string [u]
  | none => c == .undefined
/-- `s.startsWith(c)` for a string `c` -/
def startsWith (s : List Nat) (c : Value) : Bool := match c with
  | .string t => t.isPrefixOf s
  | _ => false

end Tsgolint.StaticValue
