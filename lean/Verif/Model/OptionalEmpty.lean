import Verif.Model.OptionalOperand

/-!
# prefer-optional-chain: `(foo || {}).bar`

Models `handleEmptyObjectPattern` (`internal/rules/prefer_optional_chain/prefer_optional_chain.go` lines 3615-3730). Texts are without trivia.
-/

namespace Tsgolint.OptionalChain

open Expr

/-- what is around a node, seen from it -/
inductive Around
  /-- parentheses -/
  | paren
  /-- it is the object of a property access -/
  | propOf (opt : Bool) (name : Text)
  /-- it is the object of an element access -/
  | elemOf (opt : Bool) (arg : Expr)
  /-- it is the argument of an element access -/
  | argOf (obj : Expr) (opt : Bool)
  /-- it is assigned to -/
  | target (opText : Text) (value : Expr)
  /-- anything else -/
  | other

/-- a node and what is around it, together -/
def Around.put (e : Expr) : Around → Option Expr
  | paren => some (.paren e)
  | propOf o n => some (.prop e o n)
  | elemOf o x => some (.elem e o x)
  | argOf x o => some (.elem x o e)
  | target t v => some (.binary e .assign t v)
  | other => none

/-- an object literal without properties, in at most one pair of parentheses (prefer_optional_chain.go 3618-3636) -/
def isEmptyObject : Expr → Bool
  | .other _ .emptyObject _ => true
  | .paren (.other _ .emptyObject _) => true
  | _ => false

/-- `IsPropertyOrElementAccess` of the parent (utils/ts_api_utils.go 251-253): whether it is optional, and the text of what is accessed
(prefer_optional_chain.go 3659-3676 and 3702-3705). `node` is the logical expression or its parentheses: the argument of an element access may be it. -/
def Around.access (node : Expr) : Around → Option (Bool × Text)
  | propOf o n => some (o, n)
  | elemOf o x => some (o, "[".toList ++ text x ++ "]".toList)
  | argOf _ o => some (o, "[".toList ++ text node ++ "]".toList)
  | _ => none

/-- the access around the logical expression, through at most one pair of parentheses (prefer_optional_chain.go 3645-3657) -/
def accessAround (node : Expr) : List Around → Option (Bool × Text)
  | .paren :: a :: _ => a.access (.paren node)
  | .paren :: [] => none
  | a :: _ => a.access node
  | [] => none

/-- `needsParens` (prefer_optional_chain.go 3685-3693) -/
def needsParens : Expr → Bool
  | .await _ => true
  | .binary _ _ _ _ => true
  | .other _ .conditional _ => true
  | .unary _ _ => true
  | .asType _ _ => true
  | .other _ .void _ => true
  | .typeof _ => true
  | .other _ .postfix _ => true
  | .other _ .delete _ => true
  | _ => false

/-- the text of the left side, with parentheses where it gets them (prefer_optional_chain.go 3682-3697) -/
def leftText (l : Expr) : Text := if needsParens l then "(".toList ++ text l ++ ")".toList else text l

/-- `handleEmptyObjectPattern` (prefer_optional_chain.go 3615-3709): the new text of the access around `l || r` or `l ?? r`, if it is reported -/
def emptyCode (O : Options) (T : Types) (l : Expr) (o : Op) (opText : Text) (r : Expr) (around : List Around) : Option Text :=
  if !(o == .or || o == .nullish) then none
  else if !isEmptyObject r then none
  else if O.requireNullish && !Info.explicitNullish (T l) then none
  else match accessAround (.binary l o opText r) around with
    | none => none
    | some (opt, accessed) => if opt then none else some (leftText l ++ "?.".toList ++ accessed)

/-- the report: the new text, and whether it is a fix (a suggestion else, prefer_optional_chain.go 3715-3729) -/
def emptyReport (O : Options) (T : Types) (l : Expr) (o : Op) (opText : Text) (r : Expr) (around : List Around) : Option (Bool × Text) :=
  (emptyCode O T l o opText r around).map fun code => (O.allowUnsafe, code)

end Tsgolint.OptionalChain
