import Verif.Model.AccessType
import Verif.Spec.Condition

/-!
# Objects at run time and what the checker says of them
-/

namespace Tsgolint.AccessType

open Condition

/-- a key: a string or a number -/
def IsKey (k : Value) : Prop := (∃ s, k = .string s) ∨ ∃ t, k = .number t

/-- The checker is right about the values.  `of t v`: the value is of the object or index type `t`; `get o k` is `o[k]`. -/
structure Agrees {τ : Type} (C : Checker τ) (M : Meaning) (of : τ → Value → Prop) (get : Value → Value → Value) : Prop where
  constraint : ∀ t c v, C.constraint t = some c → of t v → of c v
  string : ∀ t s v, C.literal t = some (.string s) → of t v → v = .string s
  number : ∀ t s v, C.literal t = some (.number s) → of t v → v = .number s
  /-- JavaScript: the key `1` is the key `"1"` -/
  same : ∀ t s o, C.literal t = some (.number s) → get o (.number s) = get o (.string s)
  parts : ∀ t v, of t v → ∃ p ∈ C.parts t, of p v
  stringLike : ∀ t v, C.stringLike t = true → of t v → ∃ s, v = .string s
  numberLike : ∀ t v, C.numberLike t = true → of t v → ∃ s, v = .number s
  property : ∀ t s u o, C.property t s = some u → of t o → Has M u (get o (.string s))
  /-- a string index signature speaks of all keys that are strings or numbers -/
  stringIndex : ∀ t u o k, C.stringIndex t = some u → of t o → IsKey k → Has M u (get o k)
  /-- a number index signature speaks of numbers -/
  numberIndex : ∀ t u o s, C.numberIndex t = some u → of t o → Has M u (get o (.number s))

/-- no part of the index is anything but like a string or a number, and numbers stand alone unless there is a string index signature (or the index is one
literal, whose property exists) -/
def Plain {τ : Type} (C : Checker τ) (o i : τ) : Prop :=
  (∃ k, C.literal (C.constrained i) = some k ∧ C.property (C.constrained o) k.name ≠ none) ∨
  ((∀ p ∈ C.parts (C.constrained i), C.stringLike p = true ∨ C.numberLike p = true) ∧
    ((∃ p ∈ C.parts (C.constrained i), C.stringLike p = true) → C.stringIndex (C.constrained o) ≠ none))

end Tsgolint.AccessType
