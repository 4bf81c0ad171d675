/-! # Model of no-mixed-enums (/repo/internal/rules/no_mixed_enums/no_mixed_enums.go) -/
namespace Tsgolint.MixedEnums

/-- An initializer, as far as the rule looks at it. -/
inductive Init
  | numeric
  | string
  /-- anything else: whether its type is string-like, number-like -/
  | other (stringLike numberLike : Bool)

/-- An enum member; ids stand for the nodes. -/
structure Member where
  id : Nat
  /-- the initializer with the id of its node -/
  init : Option (Init × Nat)

/-- no_mixed_enums.go:17-23 `allowedType` -/
inductive Kind | number | string | unknown
deriving DecidableEq

/-- :28-50 `getMemberType` -/
def memberType (m : Member) : Kind :=
  match m.init with
  | none => .number
  | some (.numeric, _) => .number
  | some (.string, _) => .string
  | some (.other s n, _) => if s then .string else if n then .number else .unknown

/-- An enum declaration: its members and the members of the first declaration of its symbol (:51-57; a declaration that is not an enum
is taken as one whose members the rule cannot read). -/
structure Enum where
  members : List Member
  firstDeclaration : List Member

/-- :71-84 the loop over the members: the node reported, if any -/
def loop (desired : Kind) : List Member → Option Nat
  | [] => none
  | m :: ms =>
    if memberType m = .unknown then none
    else if memberType m ≠ desired then some (match m.init with
      | none => m.id
      | some (_, i) => i)
    else loop desired ms

/-- :59-85 the listener; `none` for the run-time panic of `Members()[0]` (:56) -/
def check (e : Enum) : Option (Option Nat) :=
  if e.members.length = 0 then some none
  else match e.firstDeclaration with
    | [] => none
    | f :: _ => if memberType f = .unknown then some none else some (loop (memberType f) e.members)

end Tsgolint.MixedEnums
