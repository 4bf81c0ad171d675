import Verif.Model.UnboundMethod
/-!
# Model of the patterns unbound-method looks at (/repo/internal/rules/unbound_method/unbound_method.go, lines 284-328)

What is done with a property that is looked at is `binding` in `Verif.Model.UnboundMethod`.
-/
namespace Tsgolint.UnboundPatterns
open UnboundMethod (Ancestor insideTypeDeclaration)

/-- The name of a property: an identifier, a computed name, or a string or number literal. -/
inductive Name
  | identifier (text : String)
  | computed
  | literal (text : String)
deriving DecidableEq, Repr

/-- A member of an object literal: `name: …`, `name` or `name = …`, `...rest`, or a method or accessor. -/
inductive Member
  | assignment (name : Name)
  | shorthand (text : String)
  | spread
  | other
deriving DecidableEq, Repr

/-- An element of a binding pattern: whether it is `...name`; the name of the property, if written (`name: …`); otherwise the name bound. -/
structure Element where
  dots : Bool
  propertyName : Option Name
  bound : Option String
deriving DecidableEq, Repr

/-- The parent of a pattern, with the initialiser. -/
inductive Parent (I : Type)
  | variable (init : Option I)
  | element (init : Option I)
  | parameter (init : Option I)
  /-- `… = right` (`compound`: `+=` and so on) -/
  | assignment (compound : Bool) (right : I)
  | other
deriving DecidableEq, Repr

/-- A question about a property: its name, the initialiser, and whether the parent is like an assignment pattern. -/
structure Look (I : Type) where
  name : Name
  init : Option I
  assignmentLike : Bool
deriving DecidableEq, Repr

/-- The loop of lines 291-297. -/
def literalLoop (right : I) : List Member → List (Look I)
  | [] => []
  | .assignment n :: ms => ⟨n, some right, true⟩ :: literalLoop right ms
  | .shorthand s :: ms => ⟨.identifier s, some right, true⟩ :: literalLoop right ms
  | .spread :: ms => literalLoop right ms
  | .other :: ms => literalLoop right ms

/-- The listener for object literals that are patterns, lines 284-298. -/
def literal (parent : Parent I) (members : List Member) : List (Look I) := match parent with
  | .assignment false right => literalLoop right members
  | _ => []

/-- Lines 306-309. -/
def assignmentLike : Parent I → Bool
  | .element _ => true
  | .parameter _ => true
  | _ => false

/-- Lines 304 and 307-309. -/
def initOf : Parent I → Option I
  | .variable i => i
  | .element i => i
  | .parameter i => i
  | _ => none

/-- Lines 316-320: the name of the property. -/
def Element.name (e : Element) : Option Name := match e.propertyName with
  | some n => some n
  | none => e.bound.map .identifier

/-- The loop of lines 311-326. -/
def bindingLoop (parent : Parent I) : List Element → List (Look I)
  | [] => []
  | e :: es => match e.name with
    | some (.identifier s) => if e.dots then bindingLoop parent es else ⟨.identifier s, initOf parent, assignmentLike parent⟩ :: bindingLoop parent es
    | _ => bindingLoop parent es

/-- The listener for binding patterns, lines 299-327. -/
def binding (ancestors : List Ancestor) (parent : Parent I) (elements : List Element) : List (Look I) :=
  if insideTypeDeclaration ancestors then [] else bindingLoop parent elements

end Tsgolint.UnboundPatterns
