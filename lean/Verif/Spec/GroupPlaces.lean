import Verif.Model.GroupPlaces
/-!
# The constituents of the unions of a file
-/
namespace Tsgolint.GroupPlaces

/-- There is a node at a place. -/
inductive Occurs : Node → Path → Node → Prop
  | here (n) : Occurs n [] n
  | inside {k cs i c p n} : cs[i]? = some c → Occurs c p n → Occurs (.mk k cs) (i :: p) n

/-- A constituent of a group of a kind: a child of such a node. -/
def Constituent (kind : Kind) (file : Node) (p : Path) : Prop :=
  ∃ q i cs c, p = q ++ [i] ∧ Occurs file q (.mk kind cs) ∧ cs[i]? = some c

mutual
/-- A type in parentheses is one type. -/
def Proper : Node → Prop
  | .mk k cs => (k = .parens → cs.length = 1) ∧ ProperAll cs
def ProperAll : List Node → Prop
  | [] => True
  | c :: cs => Proper c ∧ ProperAll cs
end

end Tsgolint.GroupPlaces
