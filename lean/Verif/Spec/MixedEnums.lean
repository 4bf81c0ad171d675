import Verif.Model.MixedEnums
/-! # What no-mixed-enums promises -/
namespace Tsgolint.MixedEnums

/-- The member has a string value. -/
def IsString (m : Member) : Prop := ∃ i n, m.init = some (i, n) ∧ (i = .string ∨ ∃ b, i = .other true b)

/-- The member has a number value: counted, or initialised with a number. -/
def IsNumber (m : Member) : Prop := m.init = none ∨ ∃ i n, m.init = some (i, n) ∧ (i = .numeric ∨ i = .other false true)

/-- Where a member is reported: at its initializer, or else at the member. -/
def place (m : Member) : Nat := match m.init with
  | none => m.id
  | some (_, i) => i

/-- Two members of different kinds. -/
def Mixed (a b : Member) : Prop := (IsString a ∧ IsNumber b) ∨ (IsNumber a ∧ IsString b)

/-- Two members of the same known kind. -/
def Alike (a b : Member) : Prop := (IsString a ∧ IsString b) ∨ (IsNumber a ∧ IsNumber b)

end Tsgolint.MixedEnums
