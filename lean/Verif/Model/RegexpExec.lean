import Verif.Model.Fixer
/-!
# Model of prefer-regexp-exec (/repo/internal/rules/prefer_regexp_exec/prefer_regexp_exec.go)
-/
namespace Tsgolint.RegexpExec
open Tsgolint.Fixer

/-- Expressions, as far as the rule tells them apart. -/
inductive Arg
  /-- string literals, with their value -/
  | str (value : List Char)
  /-- regular expression literals, with their text -/
  | regex (text : List Char)
  /-- template literals without substitutions, numbers, `true`, `false`, `null` -/
  | literal
  /-- the identifier `undefined` -/
  | undef
  /-- other identifiers, with their symbol -/
  | ident (symbol : Option Nat)
  /-- `e as T`, `<T>e`, `e!` -/
  | wrap (e : Arg)
  | paren (e : Arg)
  /-- `RegExp()`, `RegExp(p)`, `RegExp(p, f)` (further arguments do not matter), with or without `new` -/
  | regExp0
  | regExp1 (p : Arg)
  | regExp2 (p f : Arg)
  | other
deriving DecidableEq, Repr

/-- The value declaration of a symbol, if it is a variable declaration (lines 200-211). -/
structure Variable where
  init : Option Arg
  isConst : Bool

/-- What the rule asks: variables, and whether `regexp2.Compile` accepts a pattern. -/
structure Env where
  var : Nat → Option Variable
  compiles : List Char → Bool

/-- `ast.SkipParentheses` -/
def skipParens : Arg → Arg
  | .paren e => skipParens e
  | e => e

/-- Lines 117-122 `isEscaped`: whether the number of backslashes before is odd; the text before is given reversed. -/
def backslashes : List Char → Nat
  | '\\' :: l => backslashes l + 1
  | _ => 0

def isEscaped (before : List Char) : Bool := backslashes before % 2 == 1

/-- The loop of lines 124-130 over the text reversed (from its last character down to index 1): what follows the slash found. -/
def closingLoop : List Char → List Char → Option (List Char)
  | [], _ => none
  | [_], _ => none
  | c :: d :: l, after => if c = '/' && !isEscaped (d :: l) then some after else closingLoop (d :: l) (c :: after)

/-- `extractRegexLiteralFlags`, lines 106-137, for a regular expression literal. -/
def extractFlags (text : List Char) : Option (List Char) :=
  if text.length < 2 then none
  else if text.head? ≠ some '/' then none
  else closingLoop text.reverse []

/-- Lines 35-38 and 26-33. -/
inductive Static
  | unknown
  | string
  | regExp (flags : List Char)
  | other
deriving DecidableEq, Repr

/-- Lines 173-245 for everything but variables: `follow` is the call for the initialiser of a constant (line 213). -/
def staticWith (E : Env) (follow : Nat → Arg → Option Static) (visited : List Nat) : Arg → Option Static
  | .paren e => staticWith E follow visited e
  | .str _ => some .string
  | .regex text => some (match extractFlags text with
    | none => .unknown
    | some f => .regExp f)
  | .literal => some .other
  | .undef => some .unknown
  | .ident none => some .unknown
  | .ident (some s) =>
    if visited.contains s then some .unknown
    else match E.var s with
      | none => some .unknown
      | some v => match v.init with
        | none => some .unknown
        | some e => if v.isConst then follow s e else some .unknown
  | .wrap e => staticWith E follow visited e
  | .regExp0 => some (.regExp [])
  | .regExp1 (.str p) => some (if E.compiles p then .regExp [] else .unknown)
  | .regExp1 _ => some .unknown
  | .regExp2 (.str p) (.str f) => some (if E.compiles p then .regExp f else .unknown)
  | .regExp2 _ _ => some .unknown
  | .other => some .unknown

/-- `getStaticArgumentValue`, lines 173-245.  `fuel` bounds the number of variables followed; `none` if that is not enough (it always is,
`C74_terminates`).  The variables being looked at are passed down, so that the deferred `delete` of line 197 has no effect to model. -/
def getStatic (E : Env) : Nat → List Nat → Arg → Option Static
  | 0, visited, e => staticWith E (fun _ _ => none) visited e
  | fuel + 1, visited, e => staticWith E (fun s e => getStatic E fuel (s :: visited) e) visited e

/-- `definitelyDoesNotContainGlobalFlag`, lines 151-170. -/
def definitelyNotGlobal (e : Arg) : Bool :=
  match skipParens e with
  | .regExp0 => true
  | .regExp1 _ => true
  | .regExp2 _ f => match skipParens f with
    | .undef => true
    | .str s => !s.contains 'g'
    | _ => false
  | _ => false

/-- `collectArgumentTypes`, lines 247-259: the two bits. -/
structure Types where
  string : Bool
  regExp : Bool
deriving DecidableEq, Repr

def collect (names : List String) : Types :=
  names.foldl (fun r n => if n = "RegExp" then { r with regExp := true } else if n = "string" then { r with string := true } else r) ⟨false, false⟩

/-- `buildStringToRegExpLiteral`, lines 261-263: `strings.ReplaceAll` of slashes. -/
def buildLiteral (pattern : List Char) : List Char := '/' :: pattern.flatMap (fun c => if c = '/' then ['\\', '/'] else [c]) ++ ['/']

/-- What is reported: nothing, or the fix to `/p/.exec(s)`, `r.exec(s)`, `RegExp(x).exec(s)`. -/
inductive Outcome
  | nothing
  | literal (text : List Char)
  | exec
  | construct
deriving DecidableEq, Repr

/-- Line 309. -/
def isGlobal : Static → Bool
  | .regExp f => f.contains 'g'
  | _ => false

/-- Lines 337-346. -/
def byTypes : Types → Outcome
  | ⟨false, true⟩ => .exec
  | ⟨true, false⟩ => .construct
  | _ => .nothing

/-- A call `object.match(arguments)` or `object["match"](arguments)`; `calleeName` is what `Checker_getAccessedPropertyName` gives for an
access, `none` for other callees. -/
structure Call where
  arguments : List Arg
  calleeName : Option String
  /-- `GetTypeName` of the object -/
  objectName : String
  /-- `GetTypeName` of each union part of the argument -/
  argumentNames : List String

/-- The listener, lines 284-347. -/
def check (E : Env) (fuel : Nat) (c : Call) : Option Outcome :=
  match c.arguments with
  | [arg] =>
    if c.calleeName ≠ some "match" then some .nothing
    else if c.objectName ≠ "string" then some .nothing
    else match getStatic E fuel [] arg with
      | none => none
      | some st =>
        let types := collect c.argumentNames
        if isGlobal st then some .nothing
        else if decide (st = .unknown) && types.regExp && !definitelyNotGlobal arg then some .nothing
        else match arg with
          | .str p => some (if E.compiles p then .literal (buildLiteral p) else .nothing)
          | _ => some (byTypes types)
  | _ => some .nothing

/-- `buildWrappingFix`, lines 85-104: the object and the argument are put in parentheses unless they are strong, the result if its parent binds
more tightly and it is not in parentheses already. -/
def paren (weak : Bool) (code : Bytes) : Bytes := if weak then ascii "(" ++ code ++ ascii ")" else code

def fixText (o : Outcome) (weakObject weakArgument wrapResult : Bool) (object argument : Bytes) (literal : Bytes) : Bytes :=
  paren wrapResult (match o with
    | .literal _ => literal ++ ascii ".exec(" ++ paren weakObject object ++ ascii ")"
    | .exec => paren weakArgument argument ++ ascii ".exec(" ++ paren weakObject object ++ ascii ")"
    | .construct => ascii "RegExp(" ++ paren weakArgument argument ++ ascii ").exec(" ++ paren weakObject object ++ ascii ")"
    | .nothing => [])

/-- Line 103: `RuleFixReplace`. -/
def wrappingFix (text : Bytes) (start stop : Nat) : Fix := ⟨text, start, stop⟩

end Tsgolint.RegexpExec
