import Verif.Model.TemplateSingle
/-! # What the replacement of a template by its only interpolation has to keep -/
namespace Tsgolint.TemplateSingle
variable {K T V : Type}

/-- The operands a kind of node may have without parentheses, at each position. -/
abbrev Accepts (K : Type) := K → Nat → K → Prop

/-- What is known of the grammar of expressions: an operand that binds tighter than its parent needs no parentheses, except that `??`
does not take `||` and `&&`. -/
def Lawful (G : Grammar K) (A : Accepts K) : Prop :=
  ∀ k i j, G.isExpression k = true → G.prec k < G.prec j → ¬(G.isNullish k = true ∧ G.isLogical j = true) → A k i j

/-- The syntax can be written down as it is: all operands are accepted where they stand. -/
inductive Legal (A : Accepts K) : Expr K → Prop
  | atom {id} : Legal A (.atom id)
  | paren {e} : Legal A e → Legal A (.paren e)
  | template {e} : Legal A e → Legal A (.template e)
  | node {k es} : (∀ e ∈ es, Legal A e) → (∀ i j cs, es[i]? = some (.node j cs) → A k i j) → Legal A (.node k es)

/-- What syntax means.  A meaning may be anything (a function of the state, say); that of a node depends on those of its operands.
`str`: what a template makes of its interpolation. -/
structure Meaning (K V : Type) where
  atom : Nat → V
  node : K → List V → V
  str : V → V

mutual
def Meaning.of (M : Meaning K V) : Expr K → V
  | .atom id => M.atom id
  | .node k es => M.node k (M.ofAll es)
  | .paren e => M.of e
  | .template e => M.str (M.of e)
def Meaning.ofAll (M : Meaning K V) : List (Expr K) → List V
  | [] => []
  | e :: es => M.of e :: M.ofAll es
end

/-- All values of the type are strings. -/
def AllStrings (Y : Types T) (t : T) : Prop := ∀ u ∈ Y.unionParts t, ∃ i ∈ Y.intersectionParts u, Y.stringLike i = true

end Tsgolint.TemplateSingle
