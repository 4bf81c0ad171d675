import Verif.Model.Visit
/-!
# Model of the listeners of prefer-return-this-type (/repo/internal/rules/prefer_return_this_type/prefer_return_this_type.go:111-133)

Which functions are checked.  What is decided about a function is in `Verif.Model.ReturnThis`.
-/
namespace Tsgolint.ReturnThisPlaces
open Tsgolint.Visit (Node Kinds Ev visitFile)

/-- An expression as far as it is looked at. -/
inductive Init
  | functionExpression | arrowFunction | parens (e : Init) | other
deriving DecidableEq, Repr

/-- What is asked about a property or method: whether `ast.IsClassLike(node.Parent)`, and the initializer, of a method `none`. -/
structure Info where
  inClass : Bool
  initializer : Option Init

/-- The function `checkFunction` is called for: the initializer of the node, or the node. -/
inductive Which
  | initializer | node
deriving DecidableEq, Repr

/-- Line 123: `ast.IsFunctionExpression`, `ast.IsArrowFunction` -/
def isFunction : Init → Bool
  | .functionExpression => true
  | .arrowFunction => true
  | _ => false

/-- Lines 112-126, 127-132: the listeners, for an event; `property`, `method` are the numbers of `KindPropertyDeclaration` and `KindMethodDeclaration`. -/
def listener (property method : Nat) (info : Nat → Info) (e : Ev) : List (Nat × Which) :=
  if e.1 = property then
    if !(info e.2).inClass then []
    else match (info e.2).initializer with
      | none => []
      | some i => if isFunction i then [(e.2, .initializer)] else []
  else if e.1 = method then
    if !(info e.2).inClass then [] else [(e.2, .node)]
  else []

/-- The functions checked in a file. -/
def checks (K : Kinds) (property method : Nat) (info : Nat → Info) (topLevel : List Node) : List (Nat × Which) :=
  (visitFile K topLevel).flatMap (listener property method info)

end Tsgolint.ReturnThisPlaces
