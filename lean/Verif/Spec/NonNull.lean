import Verif.Model.NonNull
/-!
# When `x!` is unnecessary
-/
namespace Tsgolint.NonNull
variable {N T : Type}

/-- Some constituent of the type is of the kind. -/
def Includes (E : Types T) (kind : Flags → Bool) (t : T) : Prop := ∃ p ∈ E.parts t, kind (E.flags p) = true

/-- The type may be null or undefined. -/
def Nullish (E : Types T) (t : T) : Prop := E.nullable t = true ∨ Includes E (·.any) t ∨ Includes E (·.unknown) t ∨ Includes E (·.void) t

/-- The type of the operand, or what it is constrained to -/
def ConstraintOf (E : Types T) (t c : T) : Prop := E.baseConstraint t = some c ∨ (E.baseConstraint t = none ∧ c = t)

/-- The type expected of a value by what it goes into -/
inductive Expected (typeAt : N → T) (n : Node N T) : T → Prop
  | argument {callee t} : n.parent = .callOrNew callee → n.node ≠ callee → n.contextual = some t → Expected typeAt n t
  | declared {t} : n.parent = .declaration (some t) → Expected typeAt n t
  | jsx {t} : n.parent = .jsxExpression (some t) → Expected typeAt n t
  | property {t} : n.parent = .property → n.identifier = true → n.contextual = some t → Expected typeAt n t
  | assigned {left} : n.parent = .assignment left n.node → Expected typeAt n (typeAt left)
  | template {t} : n.parent = .templateSpan → n.contextual = some t → Expected typeAt n t

/-- It may be read before a value was assigned: its declaration is not known, or (if that is checked at all) it is a `var` used in a block outside of the one with its
declaration, or it is declared with a type only, and that type is not narrowed here. -/
def MaybeUnassigned (E : Types T) (n : Node N T) : Prop :=
  n.declaration = none ∨
  (E.strictNullChecks = true ∧ ∃ var scopes typed ambient, n.declaration = some (.binding var scopes typed ambient) ∧
    ((var = true ∧ ∃ innermost outer s, scopes = innermost :: outer ∧ s ∈ outer ∧ n.scope = some s) ∨
     (ambient = false ∧ ∃ c, ConstraintOf E n.type c ∧ typed = some c)))

/-- It is assigned to, or is the value assigned. -/
def InAssignment (n : Node N T) : Prop := ∃ l r, n.parent = .assignment l r

/-- `x!` does not change the type of `x`. -/
def Unnecessary (E : Types T) (self operand : Node N T) : Prop :=
  ¬ InAssignment self ∧ (∀ c, ConstraintOf E operand.type c → ¬ Nullish E c) ∧ ¬ Nullish E operand.type ∧
    ¬ (operand.identifier = true ∧ MaybeUnassigned E operand)

/-- `x!` is assigned to, or goes into something that accepts null, undefined and void if `x` may be that, and unknown values if it is unknown. -/
def Contextual (E : Types T) (typeAt : N → T) (self operand : Node N T) : Prop :=
  (∃ r, self.parent = .assignment self.node r) ∨
  (¬ InAssignment self ∧ ConstraintOf E operand.type operand.type ∧ Nullish E operand.type ∧
    ∃ c, Expected typeAt self c ∧ (Includes E (·.unknown) operand.type → Includes E (·.unknown) c) ∧
      (Includes E (·.undefined) operand.type → Includes E (·.undefined) c) ∧ (Includes E (·.null) operand.type → Includes E (·.null) c) ∧
      (Includes E (·.void) operand.type → Includes E (·.void) c))

end Tsgolint.NonNull
