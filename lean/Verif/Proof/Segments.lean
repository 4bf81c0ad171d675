import Verif.Spec.Fixer
/-! # Edits described by cutting the code into segments -/
namespace Tsgolint.Fixer

inductive Seg
  | keep (b : Bytes)
  | sub (old new : Bytes)

def Seg.old : List Seg → Bytes
  | [] => []
  | .keep b :: r => b ++ Seg.old r
  | .sub o _ :: r => o ++ Seg.old r

def Seg.new : List Seg → Bytes
  | [] => []
  | .keep b :: r => b ++ Seg.new r
  | .sub _ n :: r => n ++ Seg.new r

def Seg.edits : Nat → List Seg → List Fix
  | _, [] => []
  | n, .keep b :: r => Seg.edits (n + b.length) r
  | n, .sub o w :: r => ⟨w, n, ((n + o.length : Nat) : Int)⟩ :: Seg.edits (n + o.length) r

theorem Seg.editAll (segs : List Seg) (pre : Bytes) :
    editAll (pre ++ Seg.old segs) (Seg.edits pre.length segs) = pre ++ Seg.new segs := by
  induction segs generalizing pre with
  | nil => simp [Seg.old, Seg.new, Seg.edits, Fixer.editAll]
  | cons s r ih =>
    cases s with
    | keep b =>
      have := ih (pre ++ b)
      simpa [Seg.old, Seg.new, Seg.edits] using this
    | sub o w =>
      have := ih (pre ++ o)
      simp only [List.length_append, List.append_assoc] at this
      simp only [Seg.old, Seg.new, Seg.edits, Fixer.editAll, List.foldr_cons]
      rw [show List.foldr (fun f acc => edit acc f) (pre ++ (o ++ Seg.old r)) (Seg.edits (pre.length + o.length) r)
        = pre ++ (o ++ Seg.new r) from this]
      simp only [edit, Int.toNat_natCast]
      rw [show (pre ++ (o ++ Seg.new r)).take pre.length = pre by simp,
        show (pre ++ (o ++ Seg.new r)).drop (pre.length + o.length) = Seg.new r by
          rw [← List.append_assoc, show pre.length + o.length = (pre ++ o).length by simp, List.drop_left]]
      simp

theorem Seg.edits_ge (segs : List Seg) (n : Nat) : ∀ f ∈ Seg.edits n segs, (n : Int) ≤ f.pos := by
  induction segs generalizing n with
  | nil => simp [Seg.edits]
  | cons s r ih =>
    cases s with
    | keep b => intro f hf; have := ih _ f hf; omega
    | sub o w =>
      intro f hf
      rcases List.mem_cons.1 hf with rfl | hf
      · exact Int.le_refl _
      · have := ih _ f hf; omega

theorem Seg.disjoint (segs : List Seg) (n : Nat) : Disjoint (Seg.edits n segs) := by
  induction segs generalizing n with
  | nil => exact .nil
  | cons s r ih =>
    cases s with
    | keep b => exact ih _
    | sub o w =>
      refine List.pairwise_cons.2 ⟨fun f hf => ?_, ih _⟩
      exact Seg.edits_ge _ _ f hf

/-- If the edits of a fix are, in some order, those of a list of segments, they do not overlap and change exactly those segments. -/
theorem Seg.apply (segs : List Seg) (code out : Bytes) (fixes : List Fix) (hc : Seg.old segs = code) (ho : Seg.new segs = out)
    (hp : fixes.Perm (Seg.edits 0 segs)) : ∃ sorted, fixes.Perm sorted ∧ Disjoint sorted ∧ Fixer.editAll code sorted = out := by
  refine ⟨_, hp, Seg.disjoint segs 0, ?_⟩
  have := Seg.editAll segs []
  simp only [List.nil_append, List.length_nil] at this
  rw [← hc, this, ho]

end Tsgolint.Fixer
