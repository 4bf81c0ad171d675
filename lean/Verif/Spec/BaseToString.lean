import Verif.Model.BaseToString
/-! # When a type's values are stringified as `[object Object]`: the specification, without memo -/
namespace Tsgolint.BaseToString

/-- A property declared outside the interface `Object`. -/
def UserDefined (i : Info) : Prop := ∃ ds, (i.toString = some ds ∨ i.toLocaleString = some ds ∨ i.valueOf = some ds) ∧ false ∈ ds

/-- A property with a declaration at all. -/
def Declared (i : Info) : Prop := ∃ ds, (i.toString = some ds ∨ i.toLocaleString = some ds ∨ i.valueOf = some ds) ∧ ds ≠ []

/-- None of the composite forms. -/
structure Plain (i : Info) : Prop where
  notParameter : i.isTypeParameter = false
  notBoolean : i.booleanLike = false
  notIgnored : i.ignored = false
  notInter : i.intersection = none
  notUnion : i.union = none
  notTuple : i.tuple = none
  notArray : i.array = none

/-- The equations for `f`: what the certainty of each question must be, given that of the types it is made of. -/
structure Answers (e : Env) (f : Query → Usefulness) (q : Query) : Prop where
  parameter : q.mode = .toString → (e.info q.type).isTypeParameter = true →
    f q = match (e.info q.type).baseConstraint with
      | some c => f ⟨.toString, c⟩
      | none => if e.checkUnknown then .sometimes else .always
  exempt : q.mode = .toString → (e.info q.type).isTypeParameter = false → (e.info q.type).booleanLike = true ∨ (e.info q.type).ignored = true →
    f q = .always
  inter : ∀ ts, (e.info q.type).intersection = some ts → (q.mode = .join ∧ (e.info q.type).union = none) ∨
      (q.mode = .toString ∧ (e.info q.type).isTypeParameter = false ∧ (e.info q.type).booleanLike = false ∧ (e.info q.type).ignored = false) →
    (f q = .always ∧ ∃ t ∈ ts, f ⟨q.mode, t⟩ = .always) ∨ (f q = .never ∧ ∀ t ∈ ts, f ⟨q.mode, t⟩ ≠ .always)
  union : ∀ ts, (e.info q.type).union = some ts → (q.mode = .join) ∨
      (q.mode = .toString ∧ (e.info q.type).isTypeParameter = false ∧ (e.info q.type).booleanLike = false ∧ (e.info q.type).ignored = false ∧
        (e.info q.type).intersection = none) →
    (f q = .never ∧ ∀ t ∈ ts, f ⟨q.mode, t⟩ = .never) ∨
    (f q = .always ∧ (∃ t ∈ ts, f ⟨q.mode, t⟩ ≠ .never) ∧ ∀ t ∈ ts, f ⟨q.mode, t⟩ = .always) ∨
    (f q = .sometimes ∧ (∃ t ∈ ts, f ⟨q.mode, t⟩ ≠ .never) ∧ ∃ t ∈ ts, f ⟨q.mode, t⟩ ≠ .always)
  tuple : ∀ ts, (e.info q.type).tuple = some ts → (e.info q.type).union = none → (e.info q.type).intersection = none →
      (q.mode = .toString → (e.info q.type).isTypeParameter = false ∧ (e.info q.type).booleanLike = false ∧ (e.info q.type).ignored = false) →
    (f q = .never ∧ ∃ t ∈ ts, f ⟨.toString, t⟩ = .never) ∨
    (f q = .sometimes ∧ (∀ t ∈ ts, f ⟨.toString, t⟩ ≠ .never) ∧ ∃ t ∈ ts, f ⟨.toString, t⟩ = .sometimes) ∨
    (f q = .always ∧ ∀ t ∈ ts, f ⟨.toString, t⟩ = .always)
  array : ∀ t, (e.info q.type).array = some t → (e.info q.type).tuple = none → (e.info q.type).union = none →
      (e.info q.type).intersection = none →
      (q.mode = .toString → (e.info q.type).isTypeParameter = false ∧ (e.info q.type).booleanLike = false ∧ (e.info q.type).ignored = false) →
    f q = f ⟨.toString, t⟩
  joinOther : q.mode = .join → (e.info q.type).union = none → (e.info q.type).intersection = none → (e.info q.type).tuple = none →
    (e.info q.type).array = none → f q = .always
  userDefined : q.mode = .toString → Plain (e.info q.type) → UserDefined (e.info q.type) → f q = .always
  fallback : q.mode = .toString → Plain (e.info q.type) → ¬ UserDefined (e.info q.type) → Declared (e.info q.type) → f q = .never
  other : q.mode = .toString → Plain (e.info q.type) → ¬ Declared (e.info q.type) →
    f q = if e.checkUnknown = true ∧ (e.info q.type).isUnknown = true then .sometimes else .always

/-- The questions a question leads to. -/
def Shape.children : Shape → List Query
  | .const _ => []
  | .ask _ q => [q]
  | .union qs => qs
  | .intersection qs => qs
  | .tuple _ qs => qs

def Env.Child (e : Env) (q r : Query) : Prop := q ∈ (e.shape r).children

/-- The type does not contain itself, and nor do the types it is made of. -/
abbrev Env.NotRecursive (e : Env) (q : Query) : Prop := Acc e.Child q

end Tsgolint.BaseToString
