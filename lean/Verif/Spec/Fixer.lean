import Verif.Model.Fixer
/-! # Independent specification of "applying edits" -/
namespace Tsgolint.Fixer

/-- One textual edit: replace the bytes in `[pos, stop)` by `text`. -/
def edit (code : Bytes) (f : Fix) : Bytes := code.take f.pos.toNat ++ f.text ++ code.drop f.stop.toNat

/-- Perform the edits one at a time, the right-most first (so that earlier positions stay valid). -/
def editAll (code : Bytes) (edits : List Fix) : Bytes := edits.foldr (fun f acc => edit acc f) code

/-- A fix range lies inside the text. -/
def InRange (code : Bytes) (f : Fix) : Prop := 0 ≤ f.pos ∧ f.pos ≤ f.stop ∧ f.stop ≤ code.length

/-- Edits are listed left to right and do not overlap (touching is allowed). -/
def Disjoint (edits : List Fix) : Prop := edits.Pairwise (fun a b => a.stop ≤ b.pos)

/-- No two edits of the list overlap, whatever their order (touching is allowed). -/
def NoOverlap (edits : List Fix) : Prop := edits.Pairwise (fun a b => a.stop ≤ b.pos ∨ b.stop ≤ a.pos)

/-- Two messages are the same up to the order in which the fixes were given. -/
def SameMsg {τ} (a b : Msg τ) : Prop := a.tag = b.tag ∧ a.fixes.Perm b.fixes

/-- `b` lists the same messages as `a` position by position, possibly with reordered fixes. -/
inductive AllSame {τ} : List (Msg τ) → List (Msg τ) → Prop
  | nil : AllSame [] []
  | cons {a b as bs} : SameMsg a b → AllSame as bs → AllSame (a :: as) (b :: bs)

/-- `b` contains the messages of `a` in any order, each with its fixes in any order. -/
def Reordered {τ} (a b : List (Msg τ)) : Prop := ∃ mid, a.Perm mid ∧ AllSame mid b

/-- Slice bounds demanded by consecutive copies `code[last:pos]` for the given fixes and the final `code[last:]`. -/
def Bounds (code : Bytes) : Int → List Fix → Prop
  | last, [] => 0 ≤ last ∧ last ≤ code.length
  | last, f :: fs => 0 ≤ last ∧ last ≤ f.pos ∧ f.pos ≤ code.length ∧ Bounds code f.stop fs

end Tsgolint.Fixer
