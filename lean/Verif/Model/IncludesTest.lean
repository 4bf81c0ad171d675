import Verif.Model.Includes
/-!
# Model of the `test` calls of prefer-includes (/repo/internal/rules/prefer_includes/prefer_includes.go, lines 24-192 and 324-411)

The texts of patterns are treated in `Verif.Model.Includes`; here are the calls looked at and the variables followed.
-/
namespace Tsgolint.IncludesTest
open Includes (Text RegexNode resolve escapeString)

/-- The kinds of expressions an argument can be, as far as line 365 tells them apart; `spread`: `...xs`, `other`: operators, arrow
functions, `await` and so on. -/
inductive ArgKind
  | identifier | string | number | template | property | call | element | parenthesized
  | this | regex | array | templateWithHoles | nonNull | newWithArguments
  | spread | other
deriving DecidableEq, Repr

/-- An argument: its kind, and the declarations of the property `includes` of its type (`none`: there is no type or no property;
`some false`: the property has no declarations), lines 350-359. -/
structure Arg where
  kind : ArgKind
  includes : Option Bool

/-- What initialises a variable, lines 65-145. -/
inductive Init
  | literal (text : Text)
  | constructor (pattern flags : Text)
  | other

/-- A declaration of a value: a variable with its keyword (which is not looked at) and initialiser, or something else. -/
inductive Decl
  | variable (isConst : Bool) (init : Option Init)
  | other

/-- The object of the call: a regular expression, a name with its value declaration, or something else. -/
inductive Object
  | literal (text : Text)
  | name (decl : Option Decl)
  | other

/-- `resolveVariablePattern`, lines 145-173, and `resolveRegexPattern`, lines 175-192: what the object is resolved to. -/
def Object.node : Object → RegexNode
  | .literal t => .literal t
  | .name none => .other
  | .name (some .other) => .other
  | .name (some (.variable _ none)) => .other
  | .name (some (.variable _ (some (.literal t)))) => .variableLiteral t
  | .name (some (.variable _ (some (.constructor p f)))) => .variableConstructor p f
  | .name (some (.variable _ (some .other))) => .other
  | .other => .other

/-- A call: `property`: the name after the dot (`none`: what is called is not a property access, or the name is private). -/
structure Call where
  property : Option Text
  object : Object
  args : List Arg

/-- Lines 361-369: parentheses are put around the argument. -/
def needsParens : ArgKind → Bool
  | .identifier | .string | .number | .template | .property | .call | .element | .parenthesized => false
  | _ => true

/-- The listener for calls, lines 326-411: the pattern, escaped for a string literal, and whether parentheses are needed. -/
def test (compiles : Text → Bool) (c : Call) : Option (Text × Bool) :=
  match c.property with
  | none => none
  | some name =>
    if name ≠ ['t', 'e', 's', 't'] then none
    else match c.args with
      | [a] => match resolve compiles c.object.node with
        | none => none
        | some pattern => match a.includes with
          | none => none
          | some false => none
          | some true => some (escapeString pattern, needsParens a.kind)
      | _ => none

end Tsgolint.IncludesTest
