import Verif.Model.AccessorNames
/-! # Which property a member is -/
namespace Tsgolint.Accessors

/-- Property keys: strings, private names, and what an expression gives, which is not known. -/
inductive Key
  | text (t : Text)
  | secret (t : Text)
  | value (raw : Text)
deriving DecidableEq

/-- The key a member name stands for (ECMA-262: numbers are keys as strings, `1n` as "1"). -/
def MemberName.key : MemberName → Key
  | .identifier t => .text t
  | .privateName t => .secret t
  | .string _ t => .text t
  | .number _ t => .text t
  | .computedString t => .text t
  | .computedNumber t => .text t
  | .computedBigint t => .text t.dropLast
  | .computed raw => .value raw

/-- How names are written: identifiers are valid, `#` begins private names only, brackets expressions only, a quote strings only, a digit or dot numbers only;
a string without escapes means what is between the quotes, and a literal as written determines the text. -/
structure Lexical (valid : Text → Bool) (meaning : Text → Text) (n : MemberName) : Prop where
  identifier : ∀ t, n = .identifier t → valid t = true
  secret : ∀ t, n = .privateName t → t.head? = some '#'
  string : ∀ raw t, n = .string raw t → t = meaning raw ∧ (raw.head? = some '"' ∨ raw.head? = some '\'') ∧ ∀ body, raw = '"' :: body ++ ['"'] → '\\' ∉ body → t = body
  number : ∀ raw t, n = .number raw t → t = meaning raw ∧ ∃ c rest, raw = c :: rest ∧ (c.isDigit = true ∨ c = '.')
  computed : ∀ raw, n = .computed raw → raw.head? = some '['

/-- What `valid` must know: a valid identifier does not begin with a digit, a dot, a quote, a bracket or `#`. -/
def Identifiers (valid : Text → Bool) : Prop :=
  ∀ c t, valid (c :: t) = true → c ≠ '"' ∧ c ≠ '\'' ∧ c ≠ '[' ∧ c ≠ '#' ∧ c ≠ '.' ∧ c.isDigit = false

/-- The text of a computed literal has no backslash. -/
def Unescaped : MemberName → Prop
  | .computedString t => '\\' ∉ t
  | .computedNumber t => '\\' ∉ t
  | _ => True

/-- No big integer. -/
def NoBigint : MemberName → Prop
  | .computedBigint _ => False
  | _ => True

end Tsgolint.Accessors
