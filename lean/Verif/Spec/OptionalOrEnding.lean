import Verif.Spec.OptionalOr
import Verif.Model.OptionalCode

/-!
# Truth tests at the end of OR chains
-/

namespace Tsgolint.OptionalChain

/-- a comparison with null or undefined -/
def NullishTest (x : Operand) : Prop :=
  x.kind ∈ [.notNull, .notUndef, .notBoth, .isNull, .isUndef, .isBoth] ∨
  (x.kind = .comparison ∧ ∃ l o t r, x.node.skip = .binary l o t r ∧ (r.skip.isNullLit = true ∨ r.skip.isUndefName = true ∨ l.skip.isNullLit = true ∨ l.skip.isUndefName = true))

/-- a chain of three or more that ends in a truth test of something longer than what is compared with null or undefined just before it: the truth test is kept -/
def KeepsTest (O : Options) (before : List Operand) (s l : Operand) : Prop :=
  before ≠ [] ∧ l.kind = .plain ∧ O.allowUnsafe = false ∧ NullishTest s ∧ s.expr.size < l.expr.size

end Tsgolint.OptionalChain
