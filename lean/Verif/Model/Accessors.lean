/-!
# Model of related-getter-setter-pairs
(/repo/internal/rules/related_getter_setter_pairs/related_getter_setter_pairs.go)
-/
namespace Tsgolint.Accessors
variable {T : Type}

/-- A getter: its name (`GetNameFromMember`), its declared type if it has one, whether it is static, and which node it is. -/
structure Getter (T : Type) where
  name : String
  type : Option T
  isStatic : Bool := false
  id : Nat
deriving DecidableEq

/-- A setter: its name, the types of its parameters. -/
structure Setter (T : Type) where
  name : String
  params : List T
  isStatic : Bool := false
  id : Nat
deriving DecidableEq

inductive Member (T : Type)
  | getter (g : Getter T)
  | setter (s : Setter T)
  | other

/-- Go maps from names. -/
abbrev Names (α : Type) := String → Option α

/-- `m[name] = x` -/
def put {α : Type} (m : Names α) (name : String) (x : α) : Names α := fun n => if n = name then some x else m n

/-- The loop of lines 37-60: the pairs given to `checkAccessorsPair`, in order. -/
def pairs : List (Member T) → Names (Getter T) → Names (Setter T) → List (Getter T × Setter T)
  | [], _, _ => []
  | .getter g :: ms, gs, ss =>
    if g.type.isNone then pairs ms gs ss
    else match ss g.name with
      | some s => (g, s) :: pairs ms gs ss
      | none => pairs ms (put gs g.name g) ss
  | .setter s :: ms, gs, ss =>
    if s.params.length ≠ 1 then pairs ms gs ss
    else match gs s.name with
      | some g => (g, s) :: pairs ms gs ss
      | none => pairs ms gs (put ss s.name s)
  | .other :: ms, gs, ss => pairs ms gs ss

/-- `checkAccessorsPair`, lines 20-27, for one pair: the getter whose type is reported.  The types: of the getter and of the first parameter. -/
def mismatch (assignable : T → T → Bool) (p : Getter T × Setter T) : Bool :=
  match p.1.type, p.2.params with
  | some t, u :: _ => !assignable t u
  | _, _ => false

/-- `checkMembers`, lines 28-61: the getters reported, in order. -/
def report (assignable : T → T → Bool) (members : List (Member T)) : List (Getter T) :=
  ((pairs members (fun _ => none) (fun _ => none)).filter (mismatch assignable)).map (·.1)

end Tsgolint.Accessors
