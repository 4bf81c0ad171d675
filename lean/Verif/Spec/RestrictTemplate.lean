import Verif.Model.RestrictTemplate
import Verif.Spec.TypeGraph
import Verif.Spec.Switch
/-! # What restrict-template-expressions promises -/
namespace Tsgolint.RestrictTemplate
open Tsgolint.TypeGraph Tsgolint.Switch
variable {T : Type}

/-- The options allow the type itself: strings always; `any`, booleans, null and undefined, numbers and bigints, `never` and RegExp by their
options; and what is listed. -/
def Plain (E : Env T) (o : Opts) (t : T) : Prop :=
  E.has t .stringLike = true ∨ (o.allowAny = true ∧ E.has t .any = true) ∨ (o.allowBoolean = true ∧ E.has t .booleanLike = true) ∨
  (o.allowNullish = true ∧ E.has t .nullable = true) ∨ (o.allowNumber = true ∧ (E.has t .numberLike = true ∨ E.has t .bigIntLike = true)) ∨
  (o.allowNever = true ∧ E.has t .never = true) ∨ E.listed t = true ∨ (o.allowRegExp = true ∧ t = E.regexp)

/-- A part of a union is fine if a part of it (it may be an intersection) is: allowed itself, or an array (if arrays are allowed) of which
each part of the element type is fine. -/
inductive Fine (E : Env T) (o : Opts) : T → Prop
  | plain {t q} : IntersectionPart E.shape t q → Plain E o q → Fine E o t
  | array {t q} : IntersectionPart E.shape t q → o.allowArray = true → E.isArray q = true →
      (∀ r, UnionPart E.shape (E.element q) r → Fine E o r) → Fine E o t

/-- Each part of the type is fine. -/
def Allowed (E : Env T) (o : Opts) (t : T) : Prop := ∀ p, UnionPart E.shape t p → Fine E o p

/-- `u` is the element type of an array that is a part of a part of `t`. -/
def ElementOf (E : Env T) (u t : T) : Prop :=
  ∃ p q, UnionPart E.shape t p ∧ IntersectionPart E.shape p q ∧ E.isArray q = true ∧ u = E.element q

end Tsgolint.RestrictTemplate
