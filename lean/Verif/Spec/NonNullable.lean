import Verif.Model.NonNullable
import Verif.Spec.TypeGraph
/-! # What non-nullable-type-assertion-style promises -/
namespace Tsgolint.NonNullable
open Tsgolint.TypeGraph
variable {T : Type}

def Loose (E : Env T) (t : T) : Prop := E.shape t = .any ∨ E.shape t = .unknown

/-- The part may stand for null or undefined: it is one of them, or a type parameter without a constraint, or with one that has them. -/
def MayBeNull (E : Env T) (t : T) : Prop :=
  E.shape t = .param none ∨ (∃ c, E.shape t = .param (some c) ∧ ∃ p, UnionPart E.shape c p ∧ E.nullable p = true) ∨
  ((∀ k, E.shape t ≠ .param k) ∧ ∃ p, UnionPart E.shape t p ∧ E.nullable p = true)

/-- The asserted type is the original type without null and undefined — which it has. -/
def OnlyRemovesNull (E : Env T) (original asserted : T) : Prop :=
  (∃ p, UnionPart E.shape original p ∧ E.nullable p = true) ∧
  (∀ p, UnionPart E.shape asserted p ↔ UnionPart E.shape original p ∧ E.nullable p = false)

end Tsgolint.NonNullable
