import Verif.Model.StringLiteral
/-!
# What a JavaScript string literal denotes

Written from ECMA-262 §12.9.4 (String Literals), for the single quoted form in strict code: the value is a sequence of UTF-16 code
units.  Independent of the printer.
-/
namespace Tsgolint.StringLiteral

/-- UTF16EncodeCodePoint. -/
def utf16 (c : Char) : List Nat :=
  if c.toNat < 0x10000 then [c.toNat]
  else [0xD800 + (c.toNat - 0x10000) / 0x400, 0xDC00 + (c.toNat - 0x10000) % 0x400]

/-- HexDigit, in either case. -/
def hexValue (c : Char) : Option Nat :=
  let n := c.toNat
  if 48 ≤ n ∧ n ≤ 57 then some (n - 48)
  else if 65 ≤ n ∧ n ≤ 70 then some (n - 65 + 10)
  else if 97 ≤ n ∧ n ≤ 102 then some (n - 97 + 10)
  else none

/-- `n` hexadecimal digits and what follows. -/
def hexDigits : Nat → Nat → List Char → Option (Nat × List Char)
  | 0, acc, s => some (acc, s)
  | _ + 1, _, [] => none
  | n + 1, acc, c :: s => match hexValue c with
    | some v => hexDigits n (16 * acc + v) s
    | none => none

/-- CharacterEscapeSequence, `\0`, `\x`, `\u`, LineContinuation: the code units denoted by what follows a backslash, and the rest.
(`\u{…}` is left out: it is not an escape this reader accepts.) -/
def escape : List Char → Option (List Nat × List Char)
  | [] => none
  | c :: s =>
    if c = 'b' then some ([8], s)
    else if c = 't' then some ([9], s)
    else if c = 'n' then some ([10], s)
    else if c = 'v' then some ([11], s)
    else if c = 'f' then some ([12], s)
    else if c = 'r' then some ([13], s)
    else if c = 'x' then match hexDigits 2 0 s with
      | some (v, s') => some ([v], s')
      | none => none
    else if c = 'u' then match hexDigits 4 0 s with
      | some (v, s') => some ([v], s')
      | none => none
    else if c = '0' then match s with
      | d :: _ => if d.isDigit then none else some ([0], s)
      | [] => some ([0], s)
    else if c.isDigit then none
    else if c.toNat = 10 ∨ c.toNat = 0x2028 ∨ c.toNat = 0x2029 then some ([], s)
    else if c.toNat = 13 then match s with
      | d :: s' => if d.toNat = 10 then some ([], s') else some ([], s)
      | [] => some ([], s)
    else some (utf16 c, s)

/-- SingleStringCharacters up to the closing quote; `none` when the literal is malformed or unterminated.  The first argument bounds
the number of steps. -/
def body : Nat → List Char → Option (List Nat × List Char)
  | 0, _ => none
  | _ + 1, [] => none
  | n + 1, c :: s =>
    if c = '\'' then some ([], s)
    else if c = '\\' then
      match escape s with
      | none => none
      | some (u, s') => match body n s' with
        | none => none
        | some (us, r) => some (u ++ us, r)
    else if c.toNat = 10 ∨ c.toNat = 13 then none
    else match body n s with
      | none => none
      | some (us, r) => some (utf16 c ++ us, r)

/-- Reads a single-quoted string literal from the beginning of a program text: its value and the text after it. -/
def readLiteral : List Char → Option (List Nat × List Char)
  | [] => none
  | c :: s => if c = '\'' then body (s.length + 1) s else none

end Tsgolint.StringLiteral
