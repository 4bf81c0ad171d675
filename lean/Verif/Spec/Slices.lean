import Verif.Model.Slices
/-! # What the slice helpers are meant to compute -/
namespace Tsgolint.Slices

/-- A header that the runtime could have made: it lies within its array. -/
def Valid {α : Type} (h : Heap α) (s : Slice) : Prop :=
  s.len ≤ s.cap ∧ (s.cap = 0 ∨ (s.arr < h.length ∧ s.off + s.cap ≤ (array h s).length))

/-- Calling `f` once on each element of a list in order (with its index, counted from `i`): the answers and the final state. -/
def callEach {α β σ : Type} (f : σ → Nat → α → β × σ) : Nat → σ → List α → List β × σ
  | _, st, [] => ([], st)
  | i, st, x :: l =>
    let r := f st i x
    let rest := callEach f (i + 1) r.2 l
    (r.1 :: rest.1, rest.2)

/-- The elements whose answer is `true`. -/
def kept {α : Type} : List α → List Bool → List α
  | x :: l, b :: bs => if b then x :: kept l bs else kept l bs
  | _, _ => []

/-- The operations of a set. -/
inductive SetOp (α : Type)
  | add (x : α)
  | delete (x : α)
  | clear

/-- Membership after a history of operations, most recent first: decided by the last operation that concerns the element. -/
def member {α : Type} (x : α) : List (SetOp α) → Prop
  | [] => False
  | .add y :: l => x = y ∨ member x l
  | .delete y :: l => x ≠ y ∧ member x l
  | .clear :: _ => False

end Tsgolint.Slices
