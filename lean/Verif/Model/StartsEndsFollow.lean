import Verif.Model.StartsEnds
/-!
# Model of how prefer-string-starts-ends-with follows variables
(/repo/internal/rules/prefer_string_starts_ends_with/prefer_string_starts_ends_with.go)

Expressions are nodes of an arbitrary graph: an identifier leads to the initialiser of its variable.  The Go functions recurse without a limit; in
the model `fuel` bounds the depth and the outer `none` says that it did not suffice.
-/
namespace Tsgolint.StartsEnds
variable {N : Type}

/-- What an expression (parentheses skipped) is, as far as the look-ups of lines 183-241 and 391-457 tell. -/
inductive Kind (N : Type)
  /-- string literals and templates without substitutions -/
  | text (t : List Nat)
  | null
  /-- `undefined` and `void e` -/
  | undefined
  /-- a regular expression literal, as written -/
  | regex (source : Text)
  /-- `new`: the name called, if it is an identifier, and for each argument its text, if it is a string literal -/
  | construct (name : Option Text) (args : List (Option Text))
  /-- an identifier; the initialiser, if its symbol is declared as a variable with one; `constant`: by `const`, which the code does not ask -/
  | identifier (constant : Bool) (init : Option N)
  | other

/-- `staticString`, lines 183-207. -/
def lookText (kind : N → Kind N) : Nat → N → Option (Option (List Nat))
  | 0, _ => none
  | fuel + 1, n => match kind n with
    | .text t => some (some t)
    | .identifier _ (some i) => lookText kind fuel i
    | .identifier _ none => some none
    | _ => some none

/-- `getNullishKind`, lines 217-241. -/
def lookNullish (kind : N → Kind N) : Nat → N → Option Nullish
  | 0, _ => none
  | fuel + 1, n => match kind n with
    | .null => some .null
    | .undefined => some .undefined
    | .identifier _ (some i) => lookNullish kind fuel i
    | .identifier _ none => some .unknown
    | _ => some .unknown

/-- Lines 408-421: pattern and flags of `new RegExp(…)`. -/
def constructed (name : Option Text) (args : List (Option Text)) : Option (Text × Text) :=
  if name ≠ some "RegExp".toList then none
  else match args with
    | some p :: [] => some (p, [])
    | some p :: some f :: _ => some (p, f)
    | _ => none

/-- `parseRegExp`, lines 391-457. -/
def lookRegex (isDigit : Char → Bool) (kind : N → Kind N) : Nat → N → Option (Option Parsed)
  | 0, _ => none
  | fuel + 1, n => match kind n with
    | .regex s => some ((splitRegexLiteral s).bind fun pf => parseRegExp isDigit pf.1 pf.2)
    | .construct name args => some ((constructed name args).bind fun pf => parseRegExp isDigit pf.1 pf.2)
    | .identifier _ (some i) => lookRegex isDigit kind fuel i
    | .identifier _ none => some none
    | _ => some none

/-- The callee of a call (parentheses skipped), lines 146-152, and its object. -/
inductive Callee (N : Type)
  | property (obj : N) (name : Text)
  /-- `obj[e]`; the text, if `e` (parentheses skipped) is a string literal or a template without substitutions -/
  | element (obj : N) (text : Option Text)
  | other

/-- `getPropertyName`, lines 114-134. -/
def Callee.name : Callee N → Option Text
  | .property _ n => some n
  | .element _ t => t
  | .other => none

/-- `memberObject`, lines 87-95. -/
def Callee.object : Callee N → Option N
  | .property o _ => some o
  | .element o _ => some o
  | .other => none

/-- `handleRegexTestCall`, lines 729-760: which method is proposed for a call (`none`: no report); the outer `none` as above. -/
def testCall (isDigit : Char → Bool) (kind : N → Kind N) (fuel : Nat) (arguments : Nat) (callee : Callee N) : Option (Option Parsed) :=
  if arguments ≠ 1 then some none
  else if callee.name ≠ some "test".toList then some none
  else match callee.object with
    | none => some none
    | some o => lookRegex isDigit kind fuel o

/-- Lines 766-772: kinds of argument (parentheses skipped) that need no parentheses before a dot. -/
inductive Argument
  | literal
  | template
  | identifier
  | member
  | call
  /-- anything else; `tight`: what may stand before a dot without parentheses (`this`, `new F()`, `super`, a tagged template, …) -/
  | other (tight : Bool)
deriving DecidableEq

/-- `needsParen`, lines 766-772. -/
def needsParen : Argument → Bool
  | .other _ => true
  | _ => false

end Tsgolint.StartsEnds
