/-!
# Model of the string literal printer (/repo/internal/utils/string_literal.go)

A Go string is taken as its sequence of code points (`for _, ch := range value`).  Simplification: a Go string that is not valid
UTF-8 (whose broken bytes the loop would turn into U+FFFD) is not represented.
-/
namespace Tsgolint.StringLiteral

/-- One digit of `strings.ToUpper(strconv.FormatInt(_, 16))` (string_literal.go:44). -/
def hexDigit (n : Nat) : Char :=
  if n < 10 then Char.ofNat (48 + n) else Char.ofNat (65 + (n - 10))

/-- `strconv.FormatInt(n, 16)` in upper case, without leading zeros (string_literal.go:44). -/
def hex (n : Nat) : List Char :=
  if n < 16 then [hexDigit n] else hex (n / 16) ++ [hexDigit (n % 16)]
termination_by n

/-- string_literal.go:43-50 `writeUnicodeEscape`. -/
def unicodeEscape (ch : Char) : List Char :=
  let h := hex ch.toNat
  ['\\', 'u'] ++ List.replicate (4 - h.length) '0' ++ h

/-- string_literal.go:12-37: what is written for one code point. -/
def quoteChar (ch : Char) : List Char :=
  if ch.toNat = 0x09 then ['\\', 't']
  else if ch.toNat = 0x0B then ['\\', 'v']
  else if ch.toNat = 0x0C then ['\\', 'f']
  else if ch.toNat = 0x08 then ['\\', 'b']
  else if ch.toNat = 0x0D then ['\\', 'r']
  else if ch.toNat = 0x0A then ['\\', 'n']
  else if ch = '\\' then ['\\', '\\']
  else if ch = '\'' then ['\\', '\'']
  else if ch.toNat = 0x2028 ∨ ch.toNat = 0x2029 ∨ ch.toNat = 0x85 then unicodeEscape ch
  else if ch.toNat ≤ 0x1F then unicodeEscape ch
  else [ch]

/-- string_literal.go:8-41 `QuoteSingleStringLiteral`. -/
def quote (value : List Char) : List Char :=
  ['\''] ++ value.flatMap quoteChar ++ ['\'']

end Tsgolint.StringLiteral
