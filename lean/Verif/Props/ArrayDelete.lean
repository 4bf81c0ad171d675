import Verif.Spec.ArrayDelete
import Verif.Proof.StableFix
/-! # C68: no-array-delete -/
namespace Tsgolint.ArrayDelete
open Tsgolint.TypeGraph Tsgolint.Fixer
variable {T : Type}

/-- C68.  `delete` is reported exactly if its operand, parentheses apart, is an element of an array. -/
theorem C68_reported (shape : T → Shape T) (isArray : T → Bool) (x : Operand T) :
    reported shape isArray x = true ↔ ∃ t, ElementOf x t ∧ AllArrays shape isArray t := by
  induction x with
  | paren x ih =>
    rw [reported, ih]
    constructor
    · rintro ⟨t, h1, h2⟩; exact ⟨t, .paren h1, h2⟩
    · rintro ⟨t, h1, h2⟩; cases h1 with | paren h => exact ⟨t, h, h2⟩
  | other =>
    simp only [reported, Bool.false_eq_true, false_iff]
    rintro ⟨t, h, -⟩; cases h
  | element t =>
    have : reported shape isArray (.element t) = true ↔ AllArrays shape isArray t := by
      unfold reported isUnderlyingTypeArray AllArrays
      cases h : shape t <;> simp
    rw [this]
    constructor
    · intro h; exact ⟨t, .here t, h⟩
    · rintro ⟨u, h1, h2⟩; cases h1; exact h2

/-- C68.  The suggestion turns `delete a[i]` into ` a.splice(i, 1)`; everything else, comments too, is kept. -/
theorem C68_fix (pre gap array t1 t2 index t3 post : Bytes) :
    AppliesTo (pre ++ ascii "delete" ++ gap ++ array ++ t1 ++ ascii "[" ++ t2 ++ index ++ t3 ++ ascii "]" ++ post)
      (fixes (pre.length, (pre ++ ascii "delete").length)
        ((pre ++ ascii "delete" ++ gap ++ array ++ t1).length, (pre ++ ascii "delete" ++ gap ++ array ++ t1 ++ ascii "[").length)
        ((pre ++ ascii "delete" ++ gap ++ array ++ t1 ++ ascii "[" ++ t2 ++ index ++ t3).length,
          (pre ++ ascii "delete" ++ gap ++ array ++ t1 ++ ascii "[" ++ t2 ++ index ++ t3 ++ ascii "]").length))
      (pre ++ gap ++ array ++ t1 ++ ascii ".splice(" ++ t2 ++ index ++ t3 ++ ascii ", 1)" ++ post) := by
  have := Seg.applies_sorted [.keep pre, .sub (ascii "delete") [], .keep gap, .keep array, .keep t1, .sub (ascii "[") (ascii ".splice("), .keep t2,
    .keep index, .keep t3, .sub (ascii "]") (ascii ", 1)"), .keep post]
  simpa [Seg.old, Seg.new, Seg.edits, fixes, List.append_assoc, Nat.add_assoc] using this

/-! ## Cases: 0 = array, 1 = string, 2 = 0 | 0, 3 = 0 | 1, 4 = 1 & 0, 5 = 4 | 0 -/

def shape : Nat → Shape Nat
  | 2 => .union [0, 0]
  | 3 => .union [0, 1]
  | 4 => .intersection [1, 0]
  | 5 => .union [4, 0]
  | _ => .other

def isArray (t : Nat) : Bool := t == 0

example : (List.range 5).map (fun t => reported shape isArray (.paren (.element t))) = [true, false, true, false, true] := by decide
example : AllArrays shape isArray 4 := .inr (.inl ⟨[1, 0], rfl, 0, by simp, rfl⟩)
example : reported shape isArray .other = false := rfl

/-- C68 (finding).  In `delete a?.[i]` the token after `a` is `?.`: the suggestion is `a.splice([i, 1)`, which is not a program. -/
theorem C68_hazard_optional :
    AppliesTo (ascii "delete a?.[i];") (fixes (0, 6) (8, 10) (12, 13)) (ascii " a.splice([i, 1);") := by
  have := Seg.applies_sorted [.sub (ascii "delete") [], .keep (ascii " a"), .sub (ascii "?.") (ascii ".splice("), .keep (ascii "[i"),
    .sub (ascii "]") (ascii ", 1)"), .keep (ascii ";")]
  exact this

/-- C68 (finding).  `delete a[f(), i]` deletes element `i`; the suggestion is `a.splice(f(), i, 1)`, which removes `i` elements at `f()` and puts in 1. -/
theorem C68_hazard_comma :
    AppliesTo (ascii "delete a[f(), i];") (fixes (0, 6) (8, 9) (15, 16)) (ascii " a.splice(f(), i, 1);") := by
  have := Seg.applies_sorted [.sub (ascii "delete") [], .keep (ascii " a"), .sub (ascii "[") (ascii ".splice("), .keep (ascii "f(), i"),
    .sub (ascii "]") (ascii ", 1)"), .keep (ascii ";")]
  exact this

/-- C68 (finding).  Parts of a union that are intersections with an array do not count as arrays. -/
theorem C68_hazard_nested : reported shape isArray (.element 5) = false ∧ AllArrays shape isArray 4 ∧ AllArrays shape isArray 0 :=
  ⟨by decide, .inr (.inl ⟨[1, 0], rfl, 0, by simp, rfl⟩), .inr (.inr ⟨by simp [shape], by simp [shape], rfl⟩)⟩

end Tsgolint.ArrayDelete
