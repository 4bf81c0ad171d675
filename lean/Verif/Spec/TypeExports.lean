import Verif.Model.TypeExports
import Batteries.Data.List.Basic
/-! # Specification of consistent-type-exports -/
namespace Tsgolint.TypeExports
open Tsgolint.Fixer (Bytes ascii)

/-- What a symbol stands for, following aliases: a type (`true`) or a value (`false`). -/
inductive StandsFor (E : Nat → Info) : Nat → Bool → Prop
  /-- exported or imported with `type` on the way -/
  | typeOnly {s} : (E s).typeOnly = true → StandsFor E s true
  | value {s} : (E s).typeOnly = false → (E s).value = true → StandsFor E s false
  | aliased {s n b} : (E s).typeOnly = false → (E s).value = false → (E s).alias = true → (E s).next = some n → StandsFor E n b → StandsFor E s b
  | type {s} : (E s).typeOnly = false → (E s).value = false → (E s).alias = false → StandsFor E s true

/-- White space between words. -/
def Blanks (w : Bytes) : Prop := w ≠ [] ∧ ∀ b ∈ w, isBlank b = true

/-- The text of `local as exported`, or of the name if they agree. -/
inductive ItemText (l e : Bytes) : Bytes → Prop
  | same : l = e → ItemText l e l
  | renamed {w w'} : Blanks w → Blanks w' → ItemText l e (l ++ w ++ ascii "as" ++ w' ++ e)
  /-- behind a comment -/
  | commented {m w t} : (¬∃ a b, m = a ++ ascii "*/" ++ b) → (∀ b ∈ w, isBlank b = true) → ItemText l e t → ItemText l e (ascii "/*" ++ m ++ ascii "*/" ++ w ++ t)

/-- What may stand between the word `type` and the item: white space, or nothing if the item starts with a comment. -/
def Gap (w t : Bytes) : Prop := (∀ b ∈ w, isBlank b = true) ∧ (w = [] → t.head? = some 47)

/-- A specifier as the parser gives it: a type-only one is the word `type`, white space (or a comment) and the item. -/
inductive Specifier.WellFormed (s : Specifier) : Prop
  | plain : s.typeOnly = false → WellFormed s
  | typed {w t} : s.typeOnly = true → Gap w t → ItemText s.local s.exported t → (∀ c ∈ t.head?, isBlank c = false) → s.text = ascii "type" ++ w ++ t → WellFormed s

/-- An exported name: local name, exported name, exported as type only. -/
structure Export where
  «local» : Bytes
  exported : Bytes
  typeOnly : Bool
deriving DecidableEq

/-- The text of an export statement of these names. -/
inductive StatementText : List Export → Bytes → Bytes → Prop
  | mk {typeOnly : Bool} {items : List Export} {texts : List Bytes} {source : Bytes} :
      (∀ i ∈ items, i.typeOnly = typeOnly) → List.Forall₂ (fun (i : Export) t => ItemText i.local i.exported t) items texts →
      StatementText items source (ascii "export " ++ (if typeOnly then ascii "type " else []) ++ ascii "{ " ++ join (ascii ", ") texts ++ ascii " }" ++
        (if source.isEmpty then [] else ascii " from " ++ source) ++ ascii ";")

/-- What a specifier exports; `isType` is its judgement. -/
def Specifier.export (s : Specifier) (isType : Bool) : Export := ⟨s.local, s.exported, s.typeOnly || isType⟩

/-- Names listed in a sentence: `A`, `A and B`, `A, B, and C`. -/
inductive Listed : List Bytes → Bytes → Prop
  | one {a} : Listed [a] a
  | two {a b} : Listed [a, b] (a ++ ascii " and " ++ b)
  | more {l z} : 2 ≤ l.length → Listed (l ++ [z]) (join (ascii ", ") l ++ ascii ", and " ++ z)

end Tsgolint.TypeExports
