import Verif.Model.ReturnThis
/-! # What prefer-return-this-type promises -/
namespace Tsgolint.ReturnThis
variable {T : Type}

mutual
/-- The type references of a type annotation outside other types, from left to right: the annotation itself or the members of unions. -/
def TypeNode.refs : TypeNode → List (Option String × Nat × Nat)
  | .ref n pos stop => [(n, pos, stop)]
  | .union ps => refsOf ps
  | .other => []
def refsOf : List TypeNode → List (Option String × Nat × Nat)
  | [] => []
  | p :: ps => p.refs ++ refsOf ps
end

/-- The first reference to the class in the annotation. -/
def Names (name : String) (a : TypeNode) (r : Nat × Nat) : Prop := ∃ pre post, a.refs = pre ++ (some name, r) :: post ∧ ∀ q ∈ pre, q.1 ≠ some name

/-- A returned value is `this`. -/
inductive IsThis (cls : Option (T × T)) : Ret T → Prop
  | keyword : IsThis cls .this
  | typed {c t} : cls = some (c, t) → IsThis cls (.value t)

/-- The body returns `this` somewhere, and nowhere a value of the class's own type. -/
inductive ReturnsThis (cls : Option (T × T)) : Body T → Prop
  | block {rs r} : r ∈ rs → IsThis cls r → (∀ c t, cls = some (c, t) → .value c ∉ rs) → ReturnsThis cls (.block rs)
  | expression {c t} : cls = some (c, t) → ReturnsThis cls (.expression t)

end Tsgolint.ReturnThis
