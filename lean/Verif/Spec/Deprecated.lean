import Verif.Model.Deprecated
/-!
# What no-deprecated should say
-/
namespace Tsgolint.Deprecated

/-- `a` is the first in the list of those that satisfy `p` -/
def FirstOf {A : Type} (p : A → Prop) (l : List A) (a : A) : Prop :=
  ∃ b c, l = b ++ a :: c ∧ p a ∧ ∀ x ∈ b, ¬ p x

/-- The text after the first `@deprecated` above a declaration; empty if there is no such tag -/
def HasReason (docs : List (List Tag)) (r : String) : Prop :=
  (∃ c, FirstOf (fun t => t.isDeprecated = true) docs.flatten (.deprecated c) ∧ r = String.join c) ∨
  ((∀ t ∈ docs.flatten, t = Tag.other) ∧ r = "")

section
variable {S D T : Type} (E : Checker S D T)

/-- The symbol has a deprecated declaration; the reason is given at the first one -/
def SymbolDeprecated (s : S) (r : String) : Prop :=
  ∃ d, FirstOf (fun d => E.deprecated d = true) (E.declarations s) d ∧ HasReason (E.docs d) r

/-- None of the symbol's declarations is deprecated -/
def Current (s : S) : Prop := ∀ d ∈ E.declarations s, E.deprecated d = false

/-- From `s`, by immediate aliases over those in `before`, one comes to `x` -/
inductive Chain : S → List S → S → Prop
  | start (s : S) : Chain s [] s
  | next {s y x : S} {before : List S} : E.isAlias s = true → E.declared s = true → E.immediate s = some y → Chain y before x → Chain s (s :: before) x

/-- The chain of aliases cannot be followed from here -/
def Ends (s : S) : Prop := E.isAlias s = false ∨ E.declared s = false ∨ E.immediate s = none

/-- Going from `s` to what it is an alias of, the first deprecated symbol has this reason.  Aliases on the way count; the symbol that all are aliases of, only if `check`. -/
def Found (check : Bool) (target : Option S) (s : S) (r : String) : Prop :=
  ∃ before x, Chain E s before x ∧ (∀ b ∈ before, Current E b) ∧
    (E.isAlias x = true ∨ (check = true ∧ target = some x)) ∧ SymbolDeprecated E x r

/-- There is an end, and nothing deprecated that counts -/
def NotFound (check : Bool) (target : Option S) (s : S) : Prop :=
  ∃ before x, Chain E s before x ∧ (∀ b ∈ before, Current E b) ∧ Ends E x ∧
    ((E.isAlias x = true ∨ (check = true ∧ target = some x)) → Current E x)

/-- What the symbol says about its use -/
def Says (check : Bool) (s : S) (r : String) : Prop :=
  if E.isAlias s then Found E check (E.aliased s) s r else check = true ∧ SymbolDeprecated E s r

/-- It says nothing -/
def Silent (check : Bool) (s : S) : Prop :=
  if E.isAlias s then NotFound E check (E.aliased s) s else check = true → Current E s

/-- What `GetAliasedSymbol` gives is not an alias itself -/
def Resolved : Prop := ∀ s t, E.isAlias s = true → E.aliased s = some t → E.isAlias t = false

/-- What is reported at a call whose signature has the given declaration -/
def CallSays (declaration : Option D) (symbol : Option S) (r : String) : Prop :=
  (∃ d, declaration = some d ∧ E.deprecated d = true ∧ HasReason (E.docs d) r) ∨
  ((∀ d, declaration = some d → E.deprecated d = false) ∧ ∃ s, symbol = some s ∧
    ((isFunction E s = false ∧ Says E true s r) ∨
     (isFunction E s = true ∧ (Says E false s r ∨ (Silent E false s ∧ declaration = none ∧ ∃ t, resolved E s = some t ∧ SymbolDeprecated E t r)))))

/-- What is reported of a name that stands for a property: the name itself, the property, or the variable of the same name -/
def PropertySays (symbol property : Option S) (r : String) : Prop :=
  (∃ s, symbol = some s ∧ Says E true s r) ∨
  ((∀ s, symbol = some s → Silent E true s) ∧
    ((∃ p, property = some p ∧ SymbolDeprecated E p r) ∨
     ((∀ p, property = some p → Current E p) ∧
       ((∃ s, symbol = some s ∧ SymbolDeprecated E s r) ∨
        ((∀ s, symbol = some s → Current E s) ∧ ∃ s v, symbol = some s ∧ E.shorthandValue s = some v ∧ SymbolDeprecated E v r)))))

/-- The type one gets from `t` by reading the properties in turn -/
def along (t : T) : List String → Option T
  | [] => some t
  | n :: ns => (E.property t n).bind fun p => along (E.typeOf p) ns

end

/-- A pattern `{…}` in `{ n₁: { n₂: … } }`: names from the outermost one -/
def nested {T : Type} (base : Place T) : List String → Place T
  | [] => base
  | n :: ns => nested (.element false (.named n) base) ns

end Tsgolint.Deprecated
