import Verif.Model.Duplicates
/-! # What it means for constituents to be duplicates -/
namespace Tsgolint.Duplicates
variable {T : Type}

mutual
/-- A constituent and all nested ones in document order, each with the groups it is in. -/
def Node.all (above : List (Node T)) : Node T → List (Node T × List (Node T))
  | .mk id ty e u parts => (.mk id ty e u parts, above) :: allParts (.mk id ty e u parts :: above) parts
def allParts (above : List (Node T)) : List (Node T) → List (Node T × List (Node T))
  | [] => []
  | p :: rest => p.all above ++ allParts above rest
end

/-- All identifiers are different. -/
def Distinct (top : List (Node T)) : Prop := ((allParts [] top).map (·.1.id)).Nodup

/-- A constituent is reported as a duplicate. -/
def Reported (reports : List Report) (id : Nat) : Prop := ∃ prev fix, ⟨id, some prev, fix⟩ ∈ reports

/-- A constituent counts if it has a type and neither it nor a group it is in is reported as a duplicate or lacks a type. -/
def Counts (reports : List Report) (n : Node T × List (Node T)) : Prop :=
  ∀ a ∈ n.1 :: n.2, a.isError = false ∧ ¬ Reported reports a.id

/-- Nor does a group around it. -/
def Seen (reports : List Report) (n : Node T × List (Node T)) : Prop :=
  ∀ a ∈ n.2, a.isError = false ∧ ¬ Reported reports a.id

/-- For one value: `D t` says that it is in the type `t` of a union (or, for an intersection, that it is not).  A group has a value if one
of its parts has. -/
def Meaning (D : T → Prop) (top : List (Node T)) : Prop :=
  ∀ n ∈ allParts [] top, n.1.parts ≠ [] → (D n.1.ty ↔ ∃ p ∈ n.1.parts, D p.ty)

mutual
/-- The value is still there when the constituents in `gone` have been removed. -/
def Still (D : T → Prop) (gone : Nat → Prop) : Node T → Prop
  | .mk id ty _ _ parts => ¬ gone id ∧ (parts = [] ∧ D ty ∨ StillAny D gone parts)
def StillAny (D : T → Prop) (gone : Nat → Prop) : List (Node T) → Prop
  | [] => False
  | p :: ps => Still D gone p ∨ StillAny D gone ps
end

mutual
/-- A value is in an intersection from which the constituents in `gone` have been removed. -/
def InAll (In : T → Prop) (gone : Nat → Prop) : Node T → Prop
  | .mk id ty _ _ parts => gone id ∨ ((parts = [] → In ty) ∧ InAllParts In gone parts)
def InAllParts (In : T → Prop) (gone : Nat → Prop) : List (Node T) → Prop
  | [] => True
  | p :: ps => InAll In gone p ∧ InAllParts In gone ps
end

end Tsgolint.Duplicates
