/-!
# Model of the slice helpers (/repo/internal/utils/utils.go:79-148, map.go) and of `Set` (set.go)

Go slices are modelled with their memory: a heap of backing arrays, and slice headers (array, offset, length, capacity), because
the helpers alias their input in some cases and `append` may write in place.  Callbacks have a state of their own (`σ`), so that
how often and in which order they are called is observable; a callback does not write to the slices (simplification).
How much spare capacity the runtime allocates is a parameter (`spare`).
-/
namespace Tsgolint.Slices

/-- The backing arrays; an array's length never changes. -/
abbrev Heap (α : Type) := List (List α)

/-- A slice header.  `nil` is any header of capacity 0. -/
structure Slice where
  arr : Nat
  off : Nat
  len : Nat
  cap : Nat
deriving DecidableEq, Repr

/-- The `nil` slice. -/
def nilSlice : Slice := ⟨0, 0, 0, 0⟩

/-- The backing array of a slice. -/
def array {α : Type} (h : Heap α) (s : Slice) : List α := (h[s.arr]?).getD []

/-- The elements of a slice. -/
def contents {α : Type} (h : Heap α) (s : Slice) : List α := ((array h s).drop s.off).take s.len

/-- A slice into a fresh array holding `l`, with spare capacity filled with zero values. -/
def alloc {α : Type} (spare : Nat → Nat) (zero : α) (h : Heap α) (l : List α) : Heap α × Slice :=
  (h ++ [l ++ List.replicate (spare l.length) zero], ⟨h.length, 0, l.length, l.length + spare l.length⟩)

/-- Go's `append(s, xs...)`: in place when the capacity suffices, else into a fresh array. -/
def append {α : Type} (spare : Nat → Nat) (zero : α) (h : Heap α) (s : Slice) (xs : List α) : Heap α × Slice :=
  if s.len + xs.length ≤ s.cap then
    (h.modify s.arr fun a => a.take (s.off + s.len) ++ xs ++ a.drop (s.off + s.len + xs.length), { s with len := s.len + xs.length })
  else alloc spare zero h (contents h s ++ xs)

/-- `slices.Clone(s)` is `append(s[:0:0], s...)`. -/
def clone {α : Type} (spare : Nat → Nat) (zero : α) (h : Heap α) (s : Slice) : Heap α × Slice :=
  append spare zero h { s with len := 0, cap := 0 } (contents h s)

/-- utils.go:85-90 and 101-106: the inner loop of `Filter` and `FilterIndex`; the first argument is how many elements remain. -/
def filterRest {α σ : Type} (spare : Nat → Nat) (zero : α) (f : σ → Nat → α → Bool × σ) (slice : Slice) :
    Nat → Nat → Heap α → σ → Slice → Heap α × σ × Slice
  | 0, _, h, st, result => (h, st, result)
  | n + 1, i, h, st, result =>
    match (contents h slice)[i]? with
    | none => (h, st, result)
    | some value =>
      let (keep, st) := f st i value
      if keep then
        let (h, result) := append spare zero h result [value]
        filterRest spare zero f slice n (i + 1) h st result
      else filterRest spare zero f slice n (i + 1) h st result

/-- utils.go:97-111 `FilterIndex`, and 80-94 `Filter` when `f` ignores the index (the two bodies are the same otherwise). -/
def filterFrom {α σ : Type} (spare : Nat → Nat) (zero : α) (f : σ → Nat → α → Bool × σ) (slice : Slice) :
    Nat → Nat → Heap α → σ → Heap α × σ × Slice
  | 0, _, h, st => (h, st, slice)
  | n + 1, i, h, st =>
    match (contents h slice)[i]? with
    | none => (h, st, slice)
    | some value =>
      let (keep, st) := f st i value
      if keep then filterFrom spare zero f slice n (i + 1) h st
      else
        let (h, result) := clone spare zero h { slice with len := i }
        filterRest spare zero f slice n (i + 1) h st result

/-- utils.go:97 `FilterIndex`. -/
def filterIndex {α σ : Type} (spare : Nat → Nat) (zero : α) (h : Heap α) (st : σ) (slice : Slice) (f : σ → Nat → α → Bool × σ) :
    Heap α × σ × Slice := filterFrom spare zero f slice slice.len 0 h st

/-- utils.go:80 `Filter`. -/
def filter {α σ : Type} (spare : Nat → Nat) (zero : α) (h : Heap α) (st : σ) (slice : Slice) (f : σ → α → Bool × σ) :
    Heap α × σ × Slice := filterFrom spare zero (fun st _ x => f st x) slice slice.len 0 h st

/-- map.go:7-14, the loop of `TryMap`; what has been stored so far is `done`. -/
def tryMapLoop {α β ε σ : Type} (f : σ → α → Except ε β × σ) : List α → σ → List β → Except ε (List β) × σ
  | [], st, done => (.ok done, st)
  | value :: rest, st, done =>
    match f st value with
    | (.error e, st) => (.error e, st)
    | (.ok b, st) => tryMapLoop f rest st (done ++ [b])

/-- map.go:3-16 `TryMap`; the result is written to a fresh slice (the `nil` of the empty case is the empty list here). -/
def tryMap {α β ε σ : Type} (f : σ → α → Except ε β × σ) (l : List α) (st : σ) : Except ε (List β) × σ :=
  if l.length = 0 then (.ok [], st) else tryMapLoop f l st []

/-- utils.go:117-119, the loop of `Map`. -/
def mapLoop {α β σ : Type} (f : σ → α → β × σ) : List α → σ → List β → List β × σ
  | [], st, done => (done, st)
  | value :: rest, st, done => let (b, st) := f st value; mapLoop f rest st (done ++ [b])

/-- utils.go:112-121 `Map`. -/
def map {α β σ : Type} (f : σ → α → β × σ) (l : List α) (st : σ) : List β × σ :=
  if l.length = 0 then ([], st) else mapLoop f l st []

/-- utils.go:124-126 `Some` (`slices.ContainsFunc`). -/
def some' {α σ : Type} (f : σ → α → Bool × σ) : List α → σ → Bool × σ
  | [], st => (false, st)
  | x :: l, st => match f st x with
    | (true, st) => (true, st)
    | (false, st) => some' f l st

/-- utils.go:129-136 `Every`. -/
def every {α σ : Type} (f : σ → α → Bool × σ) : List α → σ → Bool × σ
  | [], st => (true, st)
  | x :: l, st => match f st x with
    | (true, st) => every f l st
    | (false, st) => (false, st)

/-- utils.go:139-145 `Flatten`. -/
def flattenLoop {α : Type} (spare : Nat → Nat) (zero : α) : List Slice → Heap α → Slice → Heap α × Slice
  | [], h, result => (h, result)
  | sub :: rest, h, result =>
    let (h, result) := append spare zero h result (contents h sub)
    flattenLoop spare zero rest h result

/-- utils.go:139 `Flatten`. -/
def flatten {α : Type} (spare : Nat → Nat) (zero : α) (h : Heap α) (l : List Slice) : Heap α × Slice :=
  flattenLoop spare zero l h nilSlice

/-- set.go:5-7 `Set`: the Go map is its list of keys, without duplicates; `none` is the nil map. -/
abbrev GoSet (α : Type) := Option (List α)

variable {α : Type} [DecidableEq α]

/-- set.go:16-19 `Has`. -/
def GoSet.has (s : GoSet α) (x : α) : Bool := (s.getD []).contains x

/-- set.go:21-26 `Add`. -/
def GoSet.add (s : GoSet α) (x : α) : GoSet α :=
  let m := s.getD []
  some (if m.contains x then m else m ++ [x])

/-- set.go:28-30 `Delete` (a no-op on the nil map). -/
def GoSet.delete (s : GoSet α) (x : α) : GoSet α := s.map fun m => m.erase x

/-- set.go:32-34 `Len`. -/
def GoSet.len (s : GoSet α) : Nat := (s.getD []).length

/-- set.go:40-42 `Clear` (a no-op on the nil map). -/
def GoSet.clear (s : GoSet α) : GoSet α := s.map fun _ => []

/-- set.go:44-50 `NewSetFromItems`. -/
def GoSet.fromItems (items : List α) : GoSet α := items.foldl GoSet.add none

end Tsgolint.Slices
