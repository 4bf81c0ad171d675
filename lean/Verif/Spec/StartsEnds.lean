import Verif.Model.StartsEnds
import Verif.Spec.Template
import Verif.Spec.StableFix
/-!
# JavaScript strings and regular expressions, as far as needed

Independent of the rule: string methods on sequences of UTF-16 code units, and the ECMAScript reading of simple patterns.
-/
namespace Tsgolint.StartsEnds
open Tsgolint.StringLiteral (utf16)

/-- Strings are sequences of UTF-16 code units. -/
abbrev Str := List Nat

/-! ## Regular expressions -/

/-- Regular expressions without groups, classes and quantifiers. -/
inductive Re
  | empty
  | unit (u : Nat)
  | seq (a b : Re)
  | startOfInput
  | endOfInput
deriving DecidableEq, Repr

/-- `r` matches the part of `s` from position `i` to position `j` (flags without `i`, `m`).  With the `u` and `v` flags whole code
points are matched, which makes no difference for such expressions. -/
def Re.Matches (s : Str) : Re → Nat → Nat → Prop
  | .empty, i, j => i = j
  | .unit u, i, j => s[i]? = some u ∧ j = i + 1
  | .seq a b, i, k => ∃ j, a.Matches s i j ∧ b.Matches s j k
  | .startOfInput, i, j => i = 0 ∧ i = j
  | .endOfInput, i, j => i = s.length ∧ i = j

/-- `RegExp.prototype.test` without the `g` and `y` flags: a match anywhere. -/
def Re.Test (r : Re) (s : Str) : Prop := ∃ i j, i ≤ s.length ∧ r.Matches s i j

/-- The code units one after the other, then `tail`. -/
def literal : Str → Re → Re
  | [], tail => tail
  | u :: t, tail => .seq (.unit u) (literal t tail)

def octal (c : Char) : Option Nat := if '0' ≤ c ∧ c ≤ '7' then some (c.toNat - 48) else none

/-- SyntaxCharacter (ECMA-262 §22.2.1). -/
def syntaxCharacter (c : Char) : Bool := "^$\\.*+?()[]{}|".toList.contains c

/-- ECMAScript reading of a pattern (with the Annex B rules for `\0` followed by octal digits); `none` for everything that is not
plain characters, anchors, control escapes, `\0` and identity escapes. -/
def read : Nat → Text → Option Re
  | 0, _ => none
  | _ + 1, [] => some .empty
  | n + 1, c :: rest =>
    let put (c : Char) (rest : Text) := (read n rest).map (literal (utf16 c))
    if c = '^' then (read n rest).map (Re.seq .startOfInput)
    else if c = '$' then (read n rest).map (Re.seq .endOfInput)
    else if c = '\\' then match rest with
      | [] => none
      | e :: rest =>
        if e = 't' then put (Char.ofNat 9) rest
        else if e = 'n' then put (Char.ofNat 10) rest
        else if e = 'v' then put (Char.ofNat 11) rest
        else if e = 'f' then put (Char.ofNat 12) rest
        else if e = 'r' then put (Char.ofNat 13) rest
        else if e = '0' then match rest with
          | [] => put (Char.ofNat 0) []
          | d :: rest' => match octal d with
            | none => put (Char.ofNat 0) (d :: rest')
            | some a => match rest' with
              | [] => put (Char.ofNat a) []
              | d' :: rest'' => match octal d' with
                | none => put (Char.ofNat a) (d' :: rest'')
                | some b => put (Char.ofNat (8 * a + b)) rest''
        else if e.isDigit || "dDwWsSbBcxukpP".toList.contains e then none
        else put e rest
    else if syntaxCharacter c then none
    else put c rest

/-- The regular expression a pattern denotes, if it is a simple one. -/
def reading (pattern : Text) : Option Re := read (pattern.length + 1) pattern

def beginsWithOctal : Text → Bool
  | c :: _ => (octal c).isSome
  | [] => false

/-- Somewhere the pattern has `\0` followed by an octal digit. -/
def legacyOctal : Text → Bool
  | [] => false
  | c :: rest =>
    if c = '\\' then match rest with
      | [] => false
      | d :: rest' => (d == '0' && beginsWithOctal rest') || legacyOctal rest'
    else legacyOctal rest

/-! ## Strings -/

/-- Values of the expressions compared. -/
inductive Value
  | str (s : Str)
  | num (n : Int)
  | undefined
deriving DecidableEq, Repr

/-- `s[n]` -/
def elementAt (s : Str) (n : Int) : Value :=
  if n < 0 then .undefined else match s[n.toNat]? with
    | some u => .str [u]
    | none => .undefined

/-- `s.charAt(n)` -/
def charAt (s : Str) (n : Int) : Str :=
  if n < 0 then [] else match s[n.toNat]? with
    | some u => [u]
    | none => []

/-- `s.indexOf(x)`: the first position where `x` occurs. -/
def indexOf (s x : Str) : Int := match (List.range (s.length + 1)).find? (fun k => x.isPrefixOf (s.drop k)) with
  | some k => k
  | none => -1

/-- `s.lastIndexOf(x)`: the last one. -/
def lastIndexOf (s x : Str) : Int := match (List.range (s.length + 1)).reverse.find? (fun k => x.isPrefixOf (s.drop k)) with
  | some k => k
  | none => -1

/-- Relative index of `slice`. -/
def relative (len : Nat) (n : Int) : Nat := if n < 0 then (len + n).toNat else min n.toNat len

/-- `s.slice(from, to)` -/
def slice (s : Str) (start : Int) (stop : Option Int) : Str :=
  let a := relative s.length start
  let b := match stop with | some e => relative s.length e | none => s.length
  (s.take b).drop a

/-- `s.substring(start, stop)`: clamps, then swaps if needed. -/
def substring (s : Str) (start : Int) (stop : Option Int) : Str :=
  let a := min start.toNat s.length
  let b := match stop with | some e => min e.toNat s.length | none => s.length
  (s.take (max a b)).drop (min a b)

/-- What the left operand evaluates to (`undefined` when it is not well typed). -/
def evalLeft (ev : Expr → Value) : Left → Value
  | .index o i => match ev o, ev i with
    | .str s, .num n => elementAt s n
    | _, _ => .undefined
  | .charAt o [i] => match ev o, ev i with
    | .str s, .num n => .str (charAt s n)
    | _, _ => .undefined
  | .indexOf o [x] => match ev o, ev x with
    | .str s, .str t => .num (indexOf s t)
    | _, _ => .undefined
  | .lastIndexOf o [x] => match ev o, ev x with
    | .str s, .str t => .num (lastIndexOf s t)
    | _, _ => .undefined
  | .slice o [a] => match ev o, ev a with
    | .str s, .num n => .str (slice s n none)
    | _, _ => .undefined
  | .slice o [a, b] => match ev o, ev a, ev b with
    | .str s, .num n, .num m => .str (slice s n (some m))
    | _, _, _ => .undefined
  | .substring o [a] => match ev o, ev a with
    | .str s, .num n => .str (substring s n none)
    | _, _ => .undefined
  | .substring o [a, b] => match ev o, ev a, ev b with
    | .str s, .num n, .num m => .str (substring s n (some m))
    | _, _, _ => .undefined
  | _ => .undefined

def leftObject : Left → Expr
  | .index o _ | .charAt o _ | .indexOf o _ | .lastIndexOf o _ | .slice o _ | .substring o _ => o

/-- `ev` gives the values of expressions at one moment: literals, `-`, `.length`, variables that still have their initial value,
and expressions with the same tokens have the same value. -/
structure Coherent (same : Expr → Expr → Bool) (ev : Expr → Value) : Prop where
  number : ∀ n : Nat, ev (.number n) = .num n
  str : ∀ t, ev (.str t) = .str t
  neg : ∀ e n, ev e = .num n → ev (.neg e) = .num (-n)
  sub : ∀ a b m n, ev a = .num m → ev b = .num n → ev (.sub a b) = .num (m - n)
  length : ∀ e s, ev e = .str s → ev (.length e) = .num s.length
  var : ∀ x i, ev (.var x i) = ev i
  same : ∀ a b, same a b = true → ev a = ev b

/-- The value of the comparison, the operands having the same type or being unequal. -/
def compare (op : Op) (a b : Value) : Bool := (a == b) != op.negative

/-- The value of `s.match(re) op null` (or `undefined`): `match` gives null if there is no match and an array otherwise. -/
def compareMatch (op : Op) (matched : Bool) (right : Nullish) : Bool :=
  let equal := !matched && (right == .null || (op.loose && right == .undefined))
  equal != op.negative

/-- The number of backslashes at the end of a text. -/
def endingBackslashes (t : Text) : Nat := (t.reverse.takeWhile (· == '\\')).length

end Tsgolint.StartsEnds
