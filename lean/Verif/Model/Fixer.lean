import Verif.Model.Sorter
/-!
# Model of `ApplyRuleFixes` (/repo/internal/linter/source_code_fixer.go)

Go strings are byte sequences: `List UInt8`.  Positions are Go `int`s: `Int` (no overflow modelled).
A slice expression out of range panics in Go: `none` here.
-/
namespace Tsgolint.Fixer

abbrev Bytes := List UInt8

/-- The bytes of an ASCII string literal of the Go source. -/
def ascii (s : String) : Bytes := s.toList.map fun c => c.toNat.toUInt8

/-- /repo/internal/rule/rule.go:45-48 `RuleFix{Text, Range}`; `Range` is `core.TextRange` with `Pos()`, `End()`. -/
structure Fix where
  text : Bytes
  pos : Int
  stop : Int
deriving DecidableEq, Repr

/-- A `LintMessage` (/repo/internal/linter/source_code_fixer.go:10-12) is anything with `Fixes()`; `tag` stands for
the rest of the message.  Simplification: two messages do not share one fixes slice in memory. -/
structure Msg (τ : Type) where
  tag : τ
  fixes : List Fix
deriving DecidableEq, Repr

/-- Go slice expression `s[lo:hi]` on a string: panics (`none`) unless `0 ≤ lo ≤ hi ≤ len(s)`. -/
def goSlice (s : Bytes) (lo hi : Int) : Option Bytes :=
  if 0 ≤ lo ∧ lo ≤ hi ∧ hi ≤ (s.length : Int) then some ((s.drop lo.toNat).take (hi.toNat - lo.toNat)) else none

/-- Go slice expression `s[lo:]`. -/
def goSliceFrom (s : Bytes) (lo : Int) : Option Bytes := goSlice s lo s.length

/-- Comparator for the fixes of one message: source_code_fixer.go:22-28. -/
def fixCmp (a b : Fix) : Int :=
  let start := a.pos - b.pos
  if start = 0 then a.stop - b.stop else start

variable {τ : Type}

/-- `Fixes()[0].Range.Pos()` — only evaluated on messages with a fix (source_code_fixer.go:21), see
`sorted_withFixes_ne_nil`; the `[]` case is never used. -/
def firstPos (m : Msg τ) : Int := match m.fixes with | [] => 0 | f :: _ => f.pos

/-- `Fixes()[len-1].Range.End()` — only evaluated on messages with a fix. -/
def lastEnd (m : Msg τ) : Int := match m.fixes.getLast? with | none => 0 | some f => f.stop

/-- Comparator for messages: source_code_fixer.go:35-43. -/
def msgCmp (a b : Msg τ) : Int :=
  let start := firstPos a - firstPos b
  if start = 0 then lastEnd a - lastEnd b else start

/-- Inner loop over the fixes of one message, source_code_fixer.go:55-62: writes `code[last:pos] ++ text` for each fix.
Returns the new builder contents and `lastFixEnd`. -/
def applyFixes (code : Bytes) : List Fix → Int → Bytes → Option (Int × Bytes)
  | [], last, out => some (last, out)
  | f :: fs, last, out =>
    match goSlice code last f.pos with
    | none => none
    | some s => applyFixes code fs f.stop (out ++ s ++ f.text)

/-- Mutable state of the outer loop, source_code_fixer.go:15-18,45-47. -/
structure LoopState (τ : Type) where
  last : Int
  out : Bytes
  unapplied : List (Msg τ)
  fixed : Bool

/-- Outer loop, source_code_fixer.go:48-63. -/
def loop (code : Bytes) : List (Msg τ) → LoopState τ → Option (LoopState τ)
  | [], s => some s
  | m :: ms, s =>
    if s.last > firstPos m then
      loop code ms { s with unapplied := s.unapplied ++ [m] }
    else
      match applyFixes code m.fixes s.last s.out with
      | none => none
      | some (last', out') => loop code ms { s with last := last', out := out', fixed := true }

/-- In-place sorting of a message's fixes, source_code_fixer.go:22. -/
def sortFixes (sf : Sorter fixCmp) (m : Msg τ) : Msg τ := { m with fixes := sf.sort m.fixes }

/-- `ApplyRuleFixes`, source_code_fixer.go:14-68.  The result is `none` exactly when the Go code panics. -/
def applyRuleFixes (sf : Sorter fixCmp) (sm : Sorter (msgCmp (τ := τ))) (code : Bytes) (diagnostics : List (Msg τ)) :
    Option (Bytes × List (Msg τ) × Bool) :=
  let unapplied := diagnostics.filter (fun m => m.fixes.isEmpty)
  let withFixes := (diagnostics.filter (fun m => !m.fixes.isEmpty)).map (sortFixes sf)
  match loop code (sm.sort withFixes) { last := 0, out := [], unapplied := unapplied, fixed := false } with
  | none => none
  | some s =>
    match goSliceFrom code s.last with
    | none => none
    | some tail => some (s.out ++ tail, s.unapplied, s.fixed)

end Tsgolint.Fixer
