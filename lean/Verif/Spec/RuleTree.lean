import Verif.Model.RuleTree
/-! # Functions of a file and what belongs to each -/
namespace Tsgolint.RuleTree
variable {α : Type}

mutual
/-- The labels of the nodes of a tree that do not lie in a function of that tree, in document order. -/
def own (isFunc : α → Bool) : Tree α → List α
  | .node a cs => if isFunc a then [] else a :: owns isFunc cs
/-- The same for a list of trees. -/
def owns (isFunc : α → Bool) : List (Tree α) → List α
  | [] => []
  | t :: ts => own isFunc t ++ owns isFunc ts
end

mutual
/-- The functions of a tree, each with what it owns: the nodes below it that do not lie in a function nested in it. -/
def funcs (isFunc : α → Bool) : Tree α → List (α × List α)
  | .node a cs => if isFunc a then (a, owns isFunc cs) :: funcss isFunc cs else funcss isFunc cs
/-- The same for a list of trees. -/
def funcss (isFunc : α → Bool) : List (Tree α) → List (α × List α)
  | [] => []
  | t :: ts => funcs isFunc t ++ funcss isFunc ts
end

/-- A node lies in a tree. -/
inductive Occurs : Tree α → Tree α → Prop
  | self {t} : Occurs t t
  | inner {a cs c t} : c ∈ cs → Occurs c t → Occurs (.node a cs) t

/-- The label of a node that lies in a tree but not in a function of it. -/
inductive OwnedBy (isFunc : α → Bool) : Tree α → α → Prop
  | self {a cs} : isFunc a = false → OwnedBy isFunc (.node a cs) a
  | inner {a cs c x} : isFunc a = false → c ∈ cs → OwnedBy isFunc c x → OwnedBy isFunc (.node a cs) x

open Tsgolint.Visit (Node Kinds)

mutual
/-- All kinds of a tree are below 1000 (rule.go:11: there are fewer than 1000 kinds). -/
def smallKinds (K : Kinds) : Node → Prop
  | .other k _ cs => k < 1000 ∧ smallKindss K cs
  | .arr _ cs => K.arr < 1000 ∧ smallKindss K cs
  | .obj _ cs => K.obj < 1000 ∧ smallKindss K cs
  | .spread k _ e => k < 1000 ∧ smallKinds K e
  | .prop _ ps e => K.prop < 1000 ∧ smallKindss K ps ∧ smallKinds K e
  | .assign _ ms l ty o r => K.assign < 1000 ∧ smallKindss K ms ∧ smallKinds K l ∧ smallKindss K ty ∧ smallKinds K o ∧ smallKinds K r
/-- The same for a list of nodes. -/
def smallKindss (K : Kinds) : List Node → Prop
  | [] => True
  | n :: ns => smallKinds K n ∧ smallKindss K ns
end

end Tsgolint.RuleTree
