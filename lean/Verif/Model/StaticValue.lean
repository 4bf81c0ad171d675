/-!
# Static values of variables in prefer-string-starts-ends-with
(/repo/internal/rules/prefer_string_starts_ends_with/prefer_string_starts_ends_with.go)

`Model/StartsEnds` writes the initial value of a variable into the variable; here variables and their declarations are apart, so that declarations can go in circles.
-/
namespace Tsgolint.StaticValue

/-- Expressions, as far as the rule looks into them.  A string is a list of UTF-16 units; `regex`, `newRegExp`: lines 400-423; `other` numbers everything else. -/
inductive Expr
  | string (units : List Nat)
  | null
  /-- the identifier `undefined` -/
  | undefined
  | regex (n : Nat)
  | newRegExp (n : Nat)
  /-- another identifier, and its symbol -/
  | var (symbol : Option Nat)
  | paren (e : Expr)
  | other (n : Nat)
  deriving DecidableEq

/-- `ast.SkipParentheses` -/
def Expr.skip : Expr → Expr
  | .paren e => e.skip
  | e => e

/-- What the checker knows of symbols: the initialiser, if the symbol's value declaration is a variable declaration that has one -/
structure Env where
  init : Nat → Option Expr

/-- Lines 194-203, 229-238, 424-433: where the search goes on -/
def Env.next (E : Env) (e : Expr) : Option Expr :=
  match e.skip with
  | .var (some x) => E.init x
  | _ => none

/-- The search common to the three functions; `none`: not finished after `fuel` calls -/
def Env.follow {V : Type} (E : Env) (leaf : Expr → V) : Nat → Expr → Option V
  | 0, e => if (E.next e).isSome then none else some (leaf e.skip)
  | fuel + 1, e =>
    match E.next e with
    | none => some (leaf e.skip)
    | some i => E.follow leaf fuel i

/-- Lines 190-192, 206 -/
def stringLeaf : Expr → Option (List Nat)
  | .string s => some s
  | _ => none

/-- Lines 183-207 `staticString` -/
def Env.staticString (E : Env) (fuel : Nat) (e : Expr) : Option (Option (List Nat)) := E.follow stringLeaf fuel e

/-- Lines 209-215 `isCharacter` -/
def Env.isCharacter (E : Env) (fuel : Nat) (e : Expr) : Option Bool :=
  (E.staticString fuel e).map fun s => s.any fun u => u.length == 1

inductive NullishKind
  | unknown
  | null
  | undefined
  deriving DecidableEq

/-- Lines 223-228, 240 -/
def nullishLeaf : Expr → NullishKind
  | .null => .null
  | .undefined => .undefined
  | _ => .unknown

/-- Lines 217-241 `getNullishKind` -/
def Env.nullishKind (E : Env) (fuel : Nat) (e : Expr) : Option NullishKind := E.follow nullishLeaf fuel e

/-- Lines 400-423, 438-457; `literal`, `constructed`: what is made of the pattern and the flags (`Model/StartsEnds`) -/
def regexLeaf {P : Type} (literal constructed : Nat → Option P) : Expr → Option P
  | .regex n => literal n
  | .newRegExp n => constructed n
  | _ => none

/-- Lines 390-457 `parseRegExp` -/
def Env.parseRegExp {P : Type} (E : Env) (literal constructed : Nat → Option P) (fuel : Nat) (e : Expr) : Option (Option P) :=
  E.follow (regexLeaf literal constructed) fuel e

end Tsgolint.StaticValue
