import Verif.Spec.OptionalOperand
import Verif.Model.OptionalEmpty

/-!
# `(foo || {}).bar` and `foo?.bar`
-/

namespace Tsgolint.OptionalChain

variable {V : Type}

/-- an object literal without properties, in parentheses or not -/
def EmptyObject (r : Expr) : Prop := ∃ p t, r = .other p .emptyObject t ∨ r = .paren (.other p .emptyObject t)

/-- expressions after which `?.` may be written: names, literals, accesses, calls, ... but no `new` (which may be without arguments) and no operators -/
def Head : Expr → Prop
  | .asType _ _ | .assertion _ _ | .binary _ _ _ _ | .unary _ _ | .typeof _ | .await _ => False
  | .other _ k _ => k ∈ [.array, .object, .emptyObject, .function, .class, .jsx, .regex]
  | _ => True

/-- what can be on the left of `||` and `??` without parentheses, apart from `Head`s: no arrow function and no `yield` -/
def Operandlike : Expr → Prop
  | .other _ k _ => k ≠ .arrow ∧ k ≠ .yield
  | _ => True

/-- the left side, in parentheses if it has an operator -/
def wrapped (l : Expr) : Expr := if needsParens l then .paren l else l

/-- every `{}` evaluates to an object like `obj` -/
def World.Empty (W : World V) (obj : V) : Prop := W.truthy obj = true ∧ ∀ p, W.other .emptyObject p = some obj

/-- an access -/
inductive Access | name (n : Text) | key (x : Expr)

/-- the access to an expression, with or without `?.` -/
def Access.of (a : Access) (opt : Bool) (e : Expr) : Expr :=
  match a with
  | name n => .prop e opt n
  | key x => .elem e opt x

/-- the access around its object -/
def Access.around (a : Access) (opt : Bool) : Around :=
  match a with
  | name n => .propOf opt n
  | key x => .elemOf opt x

/-- the access to a value -/
noncomputable def Access.get (W : World V) (a : Access) (v : V) : Option V :=
  match a with
  | name n => W.get v n
  | key x => (W.value x).bind fun k => W.getElem v k

end Tsgolint.OptionalChain
