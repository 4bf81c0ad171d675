import Verif.Model.ReadonlyParam
/-! # Specification of prefer-readonly-parameter-types -/
namespace Tsgolint.ReadonlyParam
variable {T : Type}

/-- A property nobody outside can write: declared or made readonly, a `#name`, or private behind a mapped type. -/
def Protected (E : Env T) (p : Property T) : Prop :=
  (E.treatMethodsAsReadonly = true ∧ p.method = true) ∨ p.readonlySymbol = true ∨ p.checkReadonly = true ∨ p.synthetic = true ∨ p.declaredReadonly = true ∨
  (p.mapped = true ∧ (p.method = true ∨ p.valueDeclaration = none ∨ p.declaredPrivate = true)) ∨
  p.valueDeclaration = some true ∨ (p.valueDeclaration = none ∧ true ∈ p.declarations)

/-- A property whose type matters: no method, and visible outside. -/
def Visible (p : Property T) : Prop :=
  p.method = false ∧ ¬(p.mapped = true ∧ p.declaredPrivate = true) ∧ p.valueDeclaration ≠ some true ∧ ¬(p.valueDeclaration = none ∧ true ∈ p.declarations)

/-- Types that are looked at property by property: objects that are neither plain functions nor arrays, and intersections without arrays. -/
def ByProperties (E : Env T) (t : T) : Prop :=
  E.allowed t = false ∧
  ((∃ ts, E.kind t = .intersection ts ∧ ∀ c ∈ ts, E.arrayOrTuple c = false) ∨
   (E.kind t = .object ∧ ¬(E.callable t = true ∧ E.properties t = []) ∧ E.elements t = .notArray))

/-- Array and tuple types. -/
def ByElements (E : Env T) (t : T) (e : Elements T) : Prop :=
  E.allowed t = false ∧ E.kind t = .object ∧ ¬(E.callable t = true ∧ E.properties t = []) ∧ E.elements t = e

/-- Something in the type itself can be written. -/
inductive Mutable (E : Env T) : T → Prop
  | array {t} : ByElements E t .writable → Mutable E t
  | property {t p} : ByProperties E t → p ∈ E.properties t → ¬Protected E p → Mutable E t
  | index {t v} : ByProperties E t → (false, v) ∈ E.indexInfos t → Mutable E t

/-- One type is part of another. -/
inductive Contains (E : Env T) : T → T → Prop
  | union {t ts c} : E.allowed t = false → E.kind t = .union ts → c ∈ ts → Contains E t c
  | intersection {t ts c} : E.allowed t = false → E.kind t = .intersection ts → (∃ a ∈ ts, E.arrayOrTuple a = true) → c ∈ ts → Contains E t c
  | element {t args c} : ByElements E t (.fixed args) → c ∈ args → Contains E t c
  | property {t p c} : ByProperties E t → p ∈ E.properties t → Visible p → p.type = some c → Contains E t c
  | index {t r c} : ByProperties E t → (r, some c) ∈ E.indexInfos t → Contains E t c

inductive Reaches (E : Env T) : T → T → Prop
  | refl {t} : Reaches E t t
  | step {t c d} : Contains E t c → Reaches E c d → Reaches E t d

/-- A literal or primitive type marked by an object type. -/
def Branded (E : Env T) (B : Brands T) (t : T) : Prop :=
  ∃ cs, E.kind t = .intersection cs ∧ (∀ c ∈ cs, B.objectLike c = true ∨ B.primitiveLike c = true) ∧
    (∃ c ∈ cs, B.objectLike c = true) ∧ ∃ c ∈ cs, B.objectLike c = false ∧ B.primitiveLike c = true

end Tsgolint.ReadonlyParam
