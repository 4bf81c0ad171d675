import Verif.Model.Fixer
/-!
# Model of prefer-return-this-type (/repo/internal/rules/prefer_return_this_type/prefer_return_this_type.go)

Types (`T`) are the compiler's.  `ast.ForEachReturnStatement` is the compiler's: it visits the return statements of a body in source order, not those of nested functions, until the
callback answers true.
-/
namespace Tsgolint.ReturnThis
open Tsgolint.Fixer (Fix Bytes ascii)
variable {T : Type} [DecidableEq T]

/-- A type annotation (as `ast.SkipParentheses` leaves it). -/
inductive TypeNode
  /-- a reference to `name` (`none`: a qualified name), with the range of the node -/
  | ref (name : Option String) (pos stop : Nat)
  | union (parts : List TypeNode)
  | other

mutual
/-- Lines 20-37 `tryGetNameInTypeNode`: the range of the node found. -/
def find (name : String) : TypeNode → Option (Nat × Nat)
  | .ref n pos stop => if n = some name then some (pos, stop) else none
  | .union ps => findIn name ps
  | .other => none
def findIn (name : String) : List TypeNode → Option (Nat × Nat)
  | [] => none
  | p :: ps => match find name p with
    | some r => some r
    | none => findIn name ps
end

/-- What a return statement returns. -/
inductive Ret (T : Type)
  | nothing
  | this
  | value (type : T)

/-- The class: its type (`none`: no interface type) with its `this` type. -/
structure Class (T : Type) where
  name : Option String
  types : Option (T × T)

inductive Body (T : Type)
  | block (returns : List (Ret T))
  | expression (type : T)

/-- A method, or a function that initialises a property. -/
structure Fn (T : Type) where
  annotation : Option TypeNode
  body : Option (Body T)
  /-- the name of the first parameter, if it is an identifier -/
  firstParam : Option String

/-- Lines 68-91: the callback over the return statements; the result and `hasReturnThis`. -/
def scan (cls : Option (T × T)) : List (Ret T) → Bool → Bool × Bool
  | [], h => (false, h)
  | .nothing :: rs, h => scan cls rs h
  | .this :: rs, _ => scan cls rs true
  | .value t :: rs, h => match cls with
    | none => scan cls rs h
    | some (c, this) => if c = t then (true, h) else scan cls rs (if this = t then true else h)

/-- Lines 65-106: the body returns this. -/
def returnsThis (cls : Option (T × T)) : Body T → Bool
  | .block rs => let (hasClass, hasThis) := scan cls rs false; !(hasClass || !hasThis)
  | .expression t => match cls with
    | none => false
    | some (_, this) => this = t

/-- Lines 39-109 `checkFunction`: the range of the type reported and replaced. -/
def checkFunction (c : Class T) (f : Fn T) : Option (Nat × Nat) :=
  match f.annotation, f.body, c.name with
  | some annotation, some body, some name => match find name annotation with
    | none => none
    | some range =>
      if f.firstParam = some "this" then none
      else if returnsThis c.types body then some range else none
  | _, _, _ => none

/-- Line 108: the fix. -/
def fix (r : Nat × Nat) : List Fix := [⟨ascii "this", r.1, r.2⟩]

end Tsgolint.ReturnThis
