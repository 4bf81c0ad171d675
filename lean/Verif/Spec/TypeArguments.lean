import Verif.Model.TypeArguments
/-! # What no-unnecessary-type-arguments promises -/
namespace Tsgolint.TypeArguments
variable {T D : Type}

/-- A meaning for types, given what the type parameters stand for. -/
structure Meaning (E : Env T) (D : Type) where
  meaning : (Nat → D) → T → D
  /-- references to the same generic type with the same arguments mean the same -/
  congr : ∀ ρ s t r, E.reference s = some r → E.reference t = some r → meaning ρ s = meaning ρ t
  /-- a generic type itself is what a reference to it without arguments means -/
  bare : ∀ ρ s t, E.reference s = some (t, []) → E.reference t = none → meaning ρ s = meaning ρ t

def update (ρ : Nat → D) (s : Nat) (v : D) : Nat → D := fun x => if x = s then v else ρ x

/-- The full list of arguments: those given, then the defaults, each of which may refer to the arguments before it. -/
def fill {E : Env T} (M : Meaning E D) : (Nat → D) → List (Param T) → List D → Option (List D)
  | _, [], [] => some []
  | _, [], _ :: _ => none
  | ρ, p :: ps, v :: vs => (fill M (update ρ p.symbol v) ps vs).map (v :: ·)
  | ρ, p :: ps, [] => match p.default with
    | none => none
    | some d => (fill M (update ρ p.symbol (M.meaning ρ d)) ps []).map (M.meaning ρ d :: ·)

/-- The default of the parameter does not depend on the parameters of its declaration. -/
def Independent {E : Env T} (M : Meaning E D) (params : List (Param T)) (d : T) : Prop :=
  ∀ ρ ρ', (∀ x, (∀ p ∈ params, p.symbol ≠ x) → ρ x = ρ' x) → M.meaning ρ d = M.meaning ρ' d

/-- Equal types as the compiler's objects go: the same object, or references to the same generic type with the same arguments. -/
def Same (E : Env T) (s t : T) : Prop :=
  s = t ∨ (∃ r, E.reference s = some r ∧ E.reference t = some r) ∨ (E.reference s = some (t, []) ∧ E.reference t = none) ∨
  (E.reference t = some (s, []) ∧ E.reference s = none)

/-- The declarations of what a name stands for, an alias (an import) standing for its target. -/
def declarations : Name T → List (Decl T)
  | .unknown => []
  | .plain ds => ds
  | .alias_ none => []
  | .alias_ (some ds) => ds

/-- The type parameters a list of type arguments belongs to.  `type`: what the declarations of the name give where a type (`true`) or a value (`false`) is meant. -/
inductive Parameters (type : Bool → List (Param T)) (signature : List (Param T)) : Place → Parent → List (Param T) → Prop
  /-- a type reference -/
  | reference (parent : Parent) : Parameters type signature .typeReference parent (type true)
  /-- `implements` -/
  | implemented (i : Bool) : Parameters type signature .heritage (.heritage true i) (type true)
  /-- `extends`, of a class or an interface -/
  | extended (i : Bool) : Parameters type signature .heritage (.heritage false i) (type false)
  /-- a call, `new`, a tagged template or a JSX element whose resolved signature has type parameters -/
  | resolved (place : Place) (parent : Parent) : place ≠ .heritage → place ≠ .typeReference → signature ≠ [] → Parameters type signature place parent signature
  /-- a `new` whose resolved signature has none -/
  | constructed (parent : Parent) : signature = [] → Parameters type signature .newCall parent (type false)

/-- What can stand above: a name in a heritage clause has the clause above it, and only a type reference has a type reference or an interface. -/
def Grammatical (place : Place) (parent : Parent) : Prop :=
  (place = .heritage → ∃ b i, parent = .heritage b i) ∧ (place ≠ .heritage → place ≠ .typeReference → parent = .other)

end Tsgolint.TypeArguments
