import Verif.Model.Accessors
/-!
# Model of the names of members (/repo/internal/utils/ts_eslint.go, lines 612-645)
-/
namespace Tsgolint.Accessors

abbrev Text := List Char

/-- The name of a member, as written.  Literals have the text as written (`raw`) and the text the compiler gives them (`text`). -/
inductive MemberName
  | identifier (text : Text)
  | privateName (text : Text)
  | string (raw text : Text)
  | number (raw text : Text)
  /-- `["a"]`, `` [`a`] `` -/
  | computedString (text : Text)
  /-- `[1]` -/
  | computedNumber (text : Text)
  /-- `[1n]` with the digits and the `n` -/
  | computedBigint (text : Text)
  /-- `[e]`, the brackets included -/
  | computed (raw : Text)

/-- `GetNameFromMember`, lines 625-645: the name, without its class (nobody asks for it).  `valid`: `scanner.IsValidIdentifier`. -/
def literalName (valid : Text → Bool) (text : Text) : Text := if valid text then text else '"' :: text ++ ['"']

def memberName (valid : Text → Bool) : MemberName → Text
  | .identifier t => t
  | .privateName t => t
  | .computedString t => literalName valid t
  | .computedNumber t => literalName valid t
  | .computedBigint t => literalName valid t
  | .string raw _ => raw
  | .number raw _ => raw
  | .computed raw => raw

end Tsgolint.Accessors
