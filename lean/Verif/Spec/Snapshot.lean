import Verif.Model.Snapshot
/-!
# Natural order, and what may be in a snapshot file
-/
namespace Tsgolint.Snapshot

/-- A number or another byte: (0, byte, 0) for bytes before the digits, (1, value, number of digits) for numbers, (2, byte, 0) for bytes after the digits -/
abbrev Token := Nat × Nat × Nat

/-- the value of a digit -/
def digitValue (b : UInt8) : Nat := b.toNat - 48

/-- the number that digits are -/
def value : Bytes → Nat
  | [] => 0
  | b :: rest => digitValue b * 10 ^ rest.length + value rest

def Digits (s : Bytes) : Prop := ∀ b ∈ s, isDigit b = true

/-- A key as a sequence of numbers, as long as possible, and other bytes -/
def tokens : Bytes → List Token
  | [] => []
  | b :: rest =>
    if b.toNat < 48 then (0, b.toNat, 0) :: tokens rest
    else if 57 < b.toNat then (2, b.toNat, 0) :: tokens rest
    else match tokens rest with
      | (1, v, n) :: ts => (1, digitValue b * 10 ^ n + v, n + 1) :: ts
      | ts => (1, digitValue b, 1) :: ts

/-- Tokens are in order of their three numbers: first the first, and so on -/
def Token.Before (t u : Token) : Prop := t.1 < u.1 ∨ (t.1 = u.1 ∧ (t.2.1 < u.2.1 ∨ (t.2.1 = u.2.1 ∧ t.2.2 < u.2.2)))

/-- Sequences are in the order of their first tokens that are not the same; a beginning comes before the whole -/
def Before : List Token → List Token → Prop
  | _, [] => False
  | [], _ :: _ => True
  | t :: ts, u :: us => t.Before u ∨ (t = u ∧ Before ts us)

/-- The text `---` and a line end occurs -/
def Separated (s : Bytes) : Prop := ∃ a b, s = a ++ [dash, dash, dash, newline] ++ b

/-- A key as `MatchSnapshot` makes them: in brackets, on one line -/
def GoodKey (k : Bytes) : Prop := k.head? = some openBracket ∧ k.getLast? = some closeBracket ∧ newline ∉ k

/-- No line of the content ends in `---`, and no line end is at its end -/
def GoodContent (c : Bytes) : Prop := ¬ Separated (c ++ [newline]) ∧ c.getLast? ≠ some newline

/-- No key twice, as in a map -/
def Entries.Map (es : Entries) : Prop := (es.map Prod.fst).Nodup

/-- All can be stored -/
def Entries.Good (es : Entries) : Prop := es.Map ∧ ∀ e ∈ es, GoodKey e.1 ∧ GoodContent e.2

/-- What a call for the key makes of its content: the first is kept until an update -/
def nextContent (c : Call) : Option Bytes → Option Bytes
  | none => some c.content
  | some x => if c.update then some c.content else some x

/-- What becomes of one key -/
def outcomeFor (k : Bytes) (start : Option Bytes) : List Call → Option Bytes
  | [] => start
  | c :: cs => outcomeFor k (if c.key = k then nextContent c start else start) cs

/-- the file as a new process finds it -/
def File.fresh (f : File) : File := { f with memory := none }

/-- the entries in memory, if any, have no key twice -/
def File.Map (f : File) : Prop := ∀ es, f.memory = some es → es.Map

/-- a call is written if it is an update, or there is no content for its key -/
def Call.writes (c : Call) (es : Entries) : Prop := c.update = true ∨ es.get c.key = none

/-- maps are listed in any order -/
def Call.Lists (c : Call) : Prop := ∀ ks, (c.order ks).Perm ks

/-- the disk has the text of what is remembered -/
def Rendered (sorter : Sorter compareKeys) (f : File) : Prop := ∃ keys, keys.Perm ((load f).map Prod.fst) ∧ f.disk = some (render sorter keys (load f))

/-- what a call is for -/
def Call.what (c : Call) : Bytes × Bytes × Bool := (c.key, c.content, c.update)

/-- the calls for each key are the same, in the same order -/
def SameByKey (cs ds : List Call) : Prop := ∀ k, (cs.filter fun c => c.key == k).map Call.what = (ds.filter fun c => c.key == k).map Call.what

end Tsgolint.Snapshot
