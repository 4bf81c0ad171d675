import Verif.Model.IncludesTest
/-!
# Which expressions can stand before `.includes`

ECMA-262 §13.3: before a dot stands a MemberExpression or a CallExpression; any other expression has to be parenthesised; a spread
element is not an expression.  A number before a dot takes the dot as its decimal point.
-/
namespace Tsgolint.IncludesTest
open Includes (Text)

/-- Member and call expressions. -/
inductive BeforeDot : ArgKind → Prop
  | identifier : BeforeDot .identifier
  | this : BeforeDot .this
  | string : BeforeDot .string
  | template : BeforeDot .template
  | templateWithHoles : BeforeDot .templateWithHoles
  | regex : BeforeDot .regex
  | array : BeforeDot .array
  | property : BeforeDot .property
  | element : BeforeDot .element
  | call : BeforeDot .call
  | nonNull : BeforeDot .nonNull
  | newWithArguments : BeforeDot .newWithArguments
  | parenthesized : BeforeDot .parenthesized

/-- What is written before `.includes` can stand there. -/
def Valid (k : ArgKind) (parens : Bool) : Prop := if parens then k ≠ .spread else BeforeDot k

/-- The regular expression the object stands for: written there, or the initialiser of the variable named. -/
inductive Denotes : Object → Text → Prop
  /-- a literal, the pattern being accepted -/
  | literal {t} : Denotes (.literal t) t
  | variable {b t} : Denotes (.name (some (.variable b (some (.literal t))))) t

/-- The object is a variable initialised with `new RegExp('p', f)`. -/
inductive Constructed : Object → Text → Prop
  | mk {b p f} : Constructed (.name (some (.variable b (some (.constructor p f))))) p

end Tsgolint.IncludesTest
