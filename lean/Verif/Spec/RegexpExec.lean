import Verif.Model.RegexpExec
/-! # What prefer-regexp-exec promises -/
namespace Tsgolint.RegexpExec

/-! ## Regular expression literals (ECMAScript, 12.9.5) -/

def isLineEnd (c : Char) : Bool := c = '\n' || c = '\r' || c = '\u2028' || c = '\u2029'

/-- Reads the body of a regular expression literal, up to the slash that ends it; what follows it is left. -/
def readBody : Bool → List Char → Option (List Char × List Char)
  | _, [] => none
  | _, ['\\'] => none
  | k, '\\' :: c :: l => if isLineEnd c then none else (readBody k l).map fun r => ('\\' :: c :: r.1, r.2)
  | k, c :: l =>
    if isLineEnd c then none
    else if c = '/' && !k then some ([], l)
    else (readBody (if c = '[' then true else if c = ']' then false else k) l).map fun r => (c :: r.1, r.2)

/-- Reads a regular expression literal: it begins with a slash, its body is neither empty nor begins with a star (those are comments). -/
def readLiteral : List Char → Option (List Char × List Char)
  | '/' :: l => match readBody false l with
    | none => none
    | some (body, rest) => if body = [] ∨ body.head? = some '*' then none else some (body, rest)
  | _ => none

/-- In a body `\/` stands for a slash. -/
def unslash : List Char → List Char
  | '\\' :: c :: l => if c = '/' then '/' :: unslash l else '\\' :: c :: unslash l
  | c :: l => c :: unslash l
  | [] => []

/-- Patterns without line ends, without an escaped slash, whose classes are closed; `inClass` at the start. -/
inductive Pattern : Bool → List Char → Prop
  | done : Pattern false []
  | escape {k c l} : c ≠ '/' → isLineEnd c = false → Pattern k l → Pattern k ('\\' :: c :: l)
  | openClass {k l} : Pattern true l → Pattern k ('[' :: l)
  | closeClass {k l} : Pattern false l → Pattern k (']' :: l)
  | char {k c l} : c ≠ '\\' → c ≠ '[' → c ≠ ']' → isLineEnd c = false → Pattern k l → Pattern k (c :: l)

/-! ## Values -/

inductive Val
  | str (s : List Char)
  /-- a regular expression with its flags -/
  | regex (flags : List Char)
  | undefined
  | other

/-- The values an expression may have.  `RegExp(r)` of a regular expression keeps its flags. -/
inductive Evals (E : Env) : Arg → Val → Prop
  | str {s} : Evals E (.str s) (.str s)
  | regex {text body flags} : readLiteral text = some (body, flags) → (∀ c ∈ flags, c.isAlpha = true) → Evals E (.regex text) (.regex flags)
  | literal : Evals E .literal .other
  | undef : Evals E .undef .undefined
  | const {s v e x} : E.var s = some v → v.init = some e → v.isConst = true → Evals E e x → Evals E (.ident (some s)) x
  | mutable {s x} : (∀ v e, E.var s = some v → v.init = some e → v.isConst = false) → Evals E (.ident (some s)) x
  | unresolved {x} : Evals E (.ident none) x
  | wrap {e x} : Evals E e x → Evals E (.wrap e) x
  | paren {e x} : Evals E e x → Evals E (.paren e) x
  | new0 : Evals E .regExp0 (.regex [])
  | new1 {p x} : Evals E p x → (∀ f, x ≠ .regex f) → Evals E (.regExp1 p) (.regex [])
  | copy1 {p f} : Evals E p (.regex f) → Evals E (.regExp1 p) (.regex f)
  | new2 {p f s} : Evals E f (.str s) → Evals E (.regExp2 p f) (.regex s)
  | undef2 {p f x} : Evals E f .undefined → Evals E p x → (∀ g, x ≠ .regex g) → Evals E (.regExp2 p f) (.regex [])
  | copy2 {p f g} : Evals E f .undefined → Evals E p (.regex g) → Evals E (.regExp2 p f) (.regex g)
  | odd2 {p f g x} : Evals E f x → (∀ s, x ≠ .str s) → x ≠ .undefined → Evals E (.regExp2 p f) (.regex g)
  | other {x} : Evals E .other x

/-- The argument is not a call `RegExp(p)` or `RegExp(p, undefined)` that copies a regular expression. -/
def NoCopy (E : Env) (e : Arg) : Prop :=
  ∀ p, (skipParens e = .regExp1 p ∨ ∃ f, skipParens e = .regExp2 p f ∧ skipParens f = .undef) → ∀ g, ¬ Evals E p (.regex g)

/-- The calls that are candidates: `match` of a string, with one argument that is not known to be global and, if nothing is known about it, is not of the
type `RegExp` or a call `RegExp(…)` written without the flag `g`. -/
def Candidate (c : Call) (arg : Arg) (st : Static) : Prop :=
  c.calleeName = some "match" ∧ c.objectName = "string" ∧ (∀ f, st = .regExp f → 'g' ∉ f) ∧
  (st = .unknown → "RegExp" ∈ c.argumentNames → definitelyNotGlobal arg = true)

end Tsgolint.RegexpExec
