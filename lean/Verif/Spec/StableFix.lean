import Verif.Spec.Fixer
/-!
# The result of a fix whose edits share a position

Several rules insert more than one piece of text at the same place and rely on the edits being applied in the order in which
they were listed (Go sorts fewer than thirteen elements by insertion sort, which keeps the order of equal keys).
-/
namespace Tsgolint.Fixer

/-- `s` lists the edits of `l` from left to right (by start, then by end), edits of the same range staying in their order. -/
def StableSorted (l s : List Fix) : Prop :=
  s.Perm l ∧ s.Pairwise (fun a b => a.pos < b.pos ∨ a.pos = b.pos ∧ a.stop ≤ b.stop) ∧
    ∀ p e : Int, s.filter (fun f => decide (f.pos = p ∧ f.stop = e)) = l.filter (fun f => decide (f.pos = p ∧ f.stop = e))

/-- Applying the edits `l` to `code` gives `out`, whenever edits of the same range are applied in the order given. -/
def AppliesTo (code : Bytes) (l : List Fix) (out : Bytes) : Prop :=
  (∃ s, StableSorted l s) ∧ ∀ s, StableSorted l s → Disjoint s ∧ (∀ f ∈ s, InRange code f) ∧ editAll code s = out

end Tsgolint.Fixer
