import Verif.Model.TypeContains
/-!
# What it means for something to occur in a type
-/
namespace Tsgolint.TypeContains
variable {T S : Type}

/-- One type occurs directly in another: as a constituent, a type argument, or in a call signature. -/
inductive Step (E : Env T S) : T → T → Prop
  | union {t y} : y ∈ E.unionParts t → Step E t y
  | intersection {t y} : y ∈ E.intersectionParts t → Step E t y
  | argument {t y} : y ∈ E.typeArguments t → Step E t y
  | param {t y s} : s ∈ E.callSignatures t → y ∈ E.params s → Step E t y
  | result {t s} : s ∈ E.callSignatures t → Step E t (E.result s)

/-- Any number of steps. -/
inductive Reach (E : Env T S) (root : T) : T → Prop
  | refl : Reach E root root
  | step {t y} : Reach E root t → Step E t y → Reach E root y

/-- Somewhere in the type there is one the predicate holds of. -/
def Occurs (E : Env T S) (root : T) : Prop := ∃ t, Reach E root t ∧ E.holds t = true

/-- The signature was, in some number of steps, instantiated from this one, which was not instantiated from any. -/
inductive Origin (E : Env T S) : S → S → Prop
  | self {s} : E.target s = none → Origin E s s
  | next {s s' o} : E.target s = some s' → Origin E s' o → Origin E s o

/-- A type reached, with the origins of the signatures it lies within, the innermost first. -/
inductive Inside (E : Env T S) (root : T) : List S → T → Prop
  | root : Inside E root [] root
  | union {os t y} : Inside E root os t → y ∈ E.unionParts t → Inside E root os y
  | intersection {os t y} : Inside E root os t → y ∈ E.intersectionParts t → Inside E root os y
  | argument {os t y} : Inside E root os t → y ∈ E.typeArguments t → Inside E root os y
  | param {os t s o y} : Inside E root os t → s ∈ E.callSignatures t → Origin E s o → y ∈ E.params s → Inside E root (o :: os) y
  | result {os t s o} : Inside E root os t → s ∈ E.callSignatures t → Origin E s o → Inside E root (o :: os) (E.result s)

/-- Within a signature there is another one of the same origin: a recursive generic. -/
def Recursive (E : Env T S) (root : T) : Prop :=
  ∃ os t s o, Inside E root os t ∧ s ∈ E.callSignatures t ∧ Origin E s o ∧ o ∈ os

end Tsgolint.TypeContains
