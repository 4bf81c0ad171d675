import Verif.Spec.OptionalCode

/-!
# Guards in OR chains
-/

namespace Tsgolint.OptionalChain

/-- guards that are negations or equalities with null or undefined -/
def OrGuard (x : Operand) : Prop :=
  x.kind ∈ [.not, .notBoth, .notNull, .notUndef] ∨
  (x.kind = .comparison ∧ ∃ l o t r, x.node.unwrap = .binary l o t r ∧ (o = .seq ∨ o = .eq) ∧
    ((x.expr = l.skip ∧ r.isNullishLit = true) ∨ (x.expr = r.skip ∧ l.isNullishLit = true)))

/-- where the guard has a question mark, so has the other expression -/
def KeepsMarks (g e : Expr) : Prop := ∀ (i : Nat) p q, (links false g)[i]? = some p → (links false e)[i]? = some q → p.opt = true → q.opt = true

/-- a `!` behind the root is behind a name -/
def BangedName (e : Expr) : Prop := rootBang false e = true → ∃ p n, rootOf false e = .nonNull (.ident p n)

end Tsgolint.OptionalChain
