import Verif.Model.Qualifier
import Verif.Spec.RuleTree
/-! # What no-unnecessary-qualifier promises -/
namespace Tsgolint.Qualifier
open Tsgolint.RuleTree

/-- The expression is a name, or names joined by dots. -/
inductive DottedName : Expr → Prop
  | name : DottedName .identifier
  | dot {e} : DottedName e → DottedName (.propertyAccess e)

/-- Following aliases from the qualifier one comes to a namespace or enum declared by a node of the list. -/
inductive Reaches (enclosing : List Nat) : List Sym → Prop
  | here {s rest d} : d ∈ s.declarations → d ∈ enclosing → Reaches enclosing (s :: rest)
  | alias {s rest} : s.isAlias = true → Reaches enclosing rest → Reaches enclosing (s :: rest)

/-- The symbol the name alone would be looked up as, among symbols with one of the flags: the innermost of that name. -/
def Innermost (scopes : List (List InScope)) (flags : Nat) (name : String) (s : InScope) : Prop :=
  ∃ before after, scopes.flatten = before ++ s :: after ∧ s.name = name ∧ s.flags &&& flags ≠ 0 ∧
    ∀ r ∈ before, r.name = name → r.flags &&& flags = 0

/-- The qualifier of an access is not needed inside the given declarations. -/
def Unneeded (enclosing : List Nat) (a : Access) : Prop :=
  (∀ e, a.expression = some e → DottedName e) ∧ Reaches enclosing a.namespaceSymbol ∧
  ∃ sym flags s, a.accessed = some (sym, flags) ∧ Innermost a.scopes flags a.name s ∧ s.exported = sym

/-- An access in a tree, with the declarations around it, whose qualifier is not needed and that does not lie in another such. -/
inductive Found : List Nat → Tree Label → Access → Prop
  | here {enc a cs} : Unneeded enc a → Found enc (.node (.access a) cs) a
  | access {enc a cs c x} : ¬ Unneeded enc a → c ∈ cs → Found enc c x → Found enc (.node (.access a) cs) x
  | declaration {enc d cs c x} : c ∈ cs → Found (d :: enc) c x → Found enc (.node (.declaration d) cs) x
  | other {enc cs c x} : c ∈ cs → Found enc c x → Found enc (.node .other cs) x

mutual
/-- The identities of the accesses of a tree, in order. -/
def ids : Tree Label → List Nat
  | .node a cs => (match a with | .access a => [a.id] | _ => []) ++ idss cs
/-- The same for a list. -/
def idss : List (Tree Label) → List Nat
  | [] => []
  | t :: ts => ids t ++ idss ts
end

end Tsgolint.Qualifier
