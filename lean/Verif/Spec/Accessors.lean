import Verif.Model.Accessors
/-! # What related-getter-setter-pairs promises -/
namespace Tsgolint.Accessors
variable {T : Type}

/-- A getter with a declared type. -/
def HasGetter (members : List (Member T)) (g : Getter T) (t : T) : Prop := .getter g ∈ members ∧ g.type = some t

/-- A setter with its one parameter. -/
def HasSetter (members : List (Member T)) (s : Setter T) (t : T) : Prop := .setter s ∈ members ∧ s.params = [t]

/-- The same name is not used twice for getters, or twice for setters. -/
def Distinct (members : List (Member T)) : Prop :=
  members.Pairwise fun a b => match a, b with
    | .getter g, .getter h => g.name ≠ h.name
    | .setter s, .setter r => s.name ≠ r.name
    | _, _ => True

end Tsgolint.Accessors
