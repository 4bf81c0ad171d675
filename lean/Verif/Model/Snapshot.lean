import Verif.Model.Sorter
/-!
# The snapshot files of the rule tester
(/repo/internal/rule_tester/snapshot.go)

Strings are bytes.  A Go map is an association list without two entries for one key; the order in which its keys are listed is an argument.
-/
namespace Tsgolint.Snapshot

abbrev Bytes := List UInt8

def dash : UInt8 := 45
def newline : UInt8 := 10
def openBracket : UInt8 := 91
def closeBracket : UInt8 := 93

/-- Lines 235-237 `isASCIIDigit` -/
def isDigit (b : UInt8) : Bool := decide (48 ≤ b.toNat) && decide (b.toNat ≤ 57)

/-- `a < b` of strings (bytewise) -/
def less : Bytes → Bytes → Bool
  | [], [] => false
  | [], _ :: _ => true
  | _ :: _, [] => false
  | x :: xs, y :: ys => decide (x.toNat < y.toNat) || (x == y && less xs ys)

/-- `strings.TrimLeft(s, "0")`, "0" if nothing is left (lines 201-209) -/
def trimZeros (a : Bytes) : Bytes :=
  match a.dropWhile (fun b => b == 48) with
  | [] => [48]
  | t => t

/-- Lines 200-233 `compareDigitRuns` -/
def compareRuns (a b : Bytes) : Int :=
  let at' := trimZeros a
  let bt := trimZeros b
  if at'.length ≠ bt.length then (if at'.length < bt.length then -1 else 1)
  else if at' ≠ bt then (if less at' bt then -1 else 1)
  else if a.length ≠ b.length then (if a.length < b.length then -1 else 1)
  else 0

/-- Lines 190-197 -/
def compareLengths (la lb : Nat) : Int := if la < lb then -1 else if lb < la then 1 else 0

/-- Lines 154-188, on what is left of the two keys; `la`, `lb` are their whole lengths.  Every turn takes at least one byte: `fuel` is the length of the first. -/
def compareLoop (la lb : Nat) : Nat → Bytes → Bytes → Int
  | fuel + 1, x :: xs, y :: ys =>
    if isDigit x && isDigit y then
      let c := compareRuns ((x :: xs).takeWhile isDigit) ((y :: ys).takeWhile isDigit)
      if c ≠ 0 then c else compareLoop la lb fuel ((x :: xs).dropWhile isDigit) ((y :: ys).dropWhile isDigit)
    else if x ≠ y then (if x.toNat < y.toNat then -1 else 1)
    else compareLoop la lb fuel xs ys
  | _, _, _ => compareLengths la lb

/-- Lines 150-198 `compareSnapshotKeys` -/
def compareKeys (a b : Bytes) : Int := compareLoop a.length b.length a.length a b

/-! ### The file -/

/-- `entries map[string]string` -/
abbrev Entries := List (Bytes × Bytes)

def Entries.get (es : Entries) (k : Bytes) : Option Bytes := (es.find? fun e => e.1 == k).map Prod.snd

/-- `entries[k] = c` -/
def Entries.set (es : Entries) (k c : Bytes) : Entries :=
  match es with
  | [] => [(k, c)]
  | e :: rest => if e.1 = k then (k, c) :: rest else e :: Entries.set rest k c

/-- Lines 134-136: an entry in the file -/
def entryText (k c : Bytes) : Bytes := newline :: k ++ newline :: c ++ [newline, dash, dash, dash, newline]

/-- Lines 120-142 `write`: the text; `keys` are the keys of the map as its iteration lists them.  Not modelled: errors of the file system. -/
def render (sorter : Sorter compareKeys) (keys : List Bytes) (es : Entries) : Bytes :=
  (sorter.sort keys).flatMap fun k => entryText k ((es.get k).getD [])

/-- `strings.SplitSeq(data, "---\n")` (line 244) -/
def blocks : Bytes → List Bytes
  | [] => [[]]
  | c :: rest =>
    match c, rest with
    | 45, 45 :: 45 :: 10 :: rest' => [] :: blocks rest'
    | c, rest =>
      match blocks rest with
      | b :: bs => (c :: b) :: bs
      | [] => [[c]]

/-- `strings.TrimLeft(s, "\n")` -/
def trimLeft (s : Bytes) : Bytes := s.dropWhile fun b => b == newline
/-- `strings.TrimRight(s, "\n")` -/
def trimRight (s : Bytes) : Bytes := (trimLeft s.reverse).reverse

/-- `strings.Cut(s, "\n")` (line 252) -/
def cut : Bytes → Option (Bytes × Bytes)
  | [] => none
  | c :: rest => if c = newline then some ([], rest) else (cut rest).map fun p => (c :: p.1, p.2)

/-- `strings.HasPrefix(key, "[")` and `strings.HasSuffix(key, "]")` (line 258) -/
def isKey (k : Bytes) : Bool := k.head? == some openBracket && k.getLast? == some closeBracket

/-- Lines 247-262: the entry of a block -/
def parseBlock (block : Bytes) : Option (Bytes × Bytes) :=
  (cut (trimLeft block)).bind fun p => if isKey p.1 then some (p.1, trimRight p.2) else none

/-- Lines 241-266 `parseSnapshotFile` -/
def parseBlocks (es : Entries) : List Bytes → Entries
  | [] => es
  | b :: bs =>
    match parseBlock b with
    | none => parseBlocks es bs
    | some (k, c) => parseBlocks (es.set k c) bs

/-- Lines 241-266 `parseSnapshotFile` -/
def parse (data : Bytes) : Entries := parseBlocks [] (blocks data)

/-! ### Matching -/

/-- A snapshot file: on the disk (`none`: it cannot be read), and in memory (`none`: not loaded) -/
structure File where
  disk : Option Bytes
  memory : Option Entries

/-- A call of `MatchSnapshot` for the file: with `UPDATE_SNAPS`, and the order in which the map's keys are listed if they are -/
structure Call where
  key : Bytes
  content : Bytes
  update : Bool
  order : List Bytes → List Bytes

inductive Outcome
  | written
  | same
  | mismatch
  deriving DecidableEq

/-- Lines 109-118 `load` -/
def load (f : File) : Entries :=
  match f.memory with
  | some es => es
  | none => match f.disk with
    | some d => parse d
    | none => []

/-- Lines 78-100 `matchSnapshot`, under the file's lock -/
def step (sorter : Sorter compareKeys) (f : File) (c : Call) : File × Outcome :=
  let es := load f
  match (if c.update then none else es.get c.key) with
  | none =>
    let es' := es.set c.key c.content
    ({ disk := some (render sorter (c.order (es'.map Prod.fst)) es'), memory := some es' }, .written)
  | some existing => ({ f with memory := some es }, if existing ≠ c.content then .mismatch else .same)

/-- The calls one after another, in the order in which they get the lock -/
def run (sorter : Sorter compareKeys) (f : File) : List Call → File × List Outcome
  | [] => (f, [])
  | c :: cs =>
    let r := step sorter f c
    let r' := run sorter r.1 cs
    (r'.1, r.2 :: r'.2)

end Tsgolint.Snapshot
