import Verif.Spec.OptionalOperand
import Verif.Model.OptionalChains

/-!
# What chains of operands are
-/

namespace Tsgolint.OptionalChain

/-- pieces of a list, one after the other, with anything left out before, between and after them -/
inductive Cut {α : Type} : List (List α) → List α → Prop
  | done (xs : List α) : Cut [] xs
  | skip {cs : List (List α)} {xs : List α} (x : α) : Cut cs xs → Cut cs (x :: xs)
  | take {cs : List (List α)} {xs : List α} (c : List α) : Cut cs xs → Cut (c :: cs) (c ++ xs)

/-- the second operand is about the same expression as the first, or one that begins with it -/
def Follows (p q : Operand) : Prop := p.expr.eq q.expr = true ∨ p.expr.isPrefix q.expr = true

/-- of any two neighbours, the second follows the first -/
def Linked (c : List Operand) : Prop := ∀ a p q b, c = a ++ p :: q :: b → Follows p q

/-- a chain, as the rest of the rule relies on it: its operands follow each other, none is one that ends a chain, and one that is not about null, undefined or truth
is the last, or the first -/
structure Sound (c : List Operand) : Prop where
  linked : Linked c
  kinds : ∀ x ∈ c, x.kind ∉ [.invalid, .negated, .isNull, .isUndef, .isBoth]
  middle : ∀ x ∈ c.tail.dropLast, otherTrailing x = false

end Tsgolint.OptionalChain
