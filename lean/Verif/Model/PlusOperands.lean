/-!
# Model of restrict-plus-operands (/repo/internal/rules/restrict_plus_operands/restrict_plus_operands.go)

Types, their flags and parts are given by the compiler (after `getTypeConstrained`, lines 84-86).
-/
namespace Tsgolint.PlusOperands

/-- The flags of a type the rule looks at. -/
structure Flags where
  stringLike : Bool := false
  numberLike : Bool := false
  bigIntLike : Bool := false
  any : Bool := false
  symbolLike : Bool := false
  never : Bool := false
  unknown : Bool := false
  booleanLike : Bool := false
  nullable : Bool := false
deriving DecidableEq, Repr

/-- A part of a union: its flags, whether it is the global `RegExp` type, and whether all parts of it as an intersection (itself, if it
is none) are object types (`IsObjectType`). -/
structure Part where
  flags : Flags
  regexp : Bool := false
  objects : Bool := false
deriving DecidableEq, Repr

/-- A type: its identity, its own flags (a union has few), and its union parts (itself, if it is no union). -/
structure Ty where
  id : Nat
  flags : Flags
  parts : List Part
deriving DecidableEq, Repr

/-- Options that matter for the decision. -/
structure Options where
  allowAny : Bool
  allowBoolean : Bool
  allowNullish : Bool
  allowRegExp : Bool
  allowNumberAndString : Bool
  skipCompoundAssignments : Bool
deriving DecidableEq, Repr

/-- `invalidFlags`, lines 90-102, as a test. -/
def invalid (o : Options) (f : Flags) : Bool :=
  f.symbolLike || f.never || f.unknown || (!o.allowAny && f.any) || (!o.allowBoolean && f.booleanLike) || (!o.allowNullish && f.nullable)

/-- `flags |= …`, for the flags used afterwards. -/
def Flags.or (a b : Flags) : Flags :=
  ⟨a.stringLike || b.stringLike, a.numberLike || b.numberLike, a.bigIntLike || b.bigIntLike, a.any || b.any, a.symbolLike || b.symbolLike,
   a.never || b.never, a.unknown || b.unknown, a.booleanLike || b.booleanLike, a.nullable || b.nullable⟩

/-- The loop of `checkInvalidPlusOperand`, lines 110-126: accumulated flags and whether the operand is invalid. -/
def loop (o : Options) (other : Ty) : Flags → Bool → List Part → Flags × Bool
  | flags, found, [] => (flags, found)
  | flags, found, part :: rest =>
    let flags := flags.or part.flags
    if invalid o part.flags then (flags, true)
    else if part.regexp then
      if o.allowRegExp && !other.flags.numberLike then loop o other flags found rest
      else loop o other flags true rest
    else if (o.allowAny || !part.flags.any) && !part.objects then loop o other flags found rest
    else loop o other flags true rest

/-- `checkInvalidPlusOperand`, lines 104-133. -/
def checkInvalid (o : Options) (base other : Ty) : Flags × Bool := loop o other {} false base.parts

inductive Report
  | invalidLeft
  | invalidRight
  | mismatched
  | bigintAndNumber
deriving DecidableEq, Repr

/-- `checkMismatchedPlusOperands`, lines 168-182. -/
def mismatch (o : Options) (base other : Flags) : Option Report :=
  if !o.allowNumberAndString && base.stringLike && (other.numberLike || other.bigIntLike) then some .mismatched
  else if base.numberLike && other.bigIntLike then some .bigintAndNumber
  else none

/-- `checkPlusOperands`, lines 135-188. -/
def check (o : Options) (left right : Ty) : List Report :=
  if left.id = right.id ∧ (left.flags.bigIntLike || left.flags.numberLike || left.flags.stringLike) = true then []
  else
    let l := checkInvalid o left right
    let r := checkInvalid o right left
    if l.2 || r.2 then (if l.2 then [.invalidLeft] else []) ++ (if r.2 then [.invalidRight] else [])
    else match mismatch o l.1 r.1 with
      | some m => [m]
      | none => (mismatch o r.1 l.1).toList

/-- Binary operators. -/
inductive Op
  | plus
  | plusEquals
  | other
deriving DecidableEq, Repr

/-- The listener, lines 190-197. -/
def run (o : Options) (op : Op) (left right : Ty) : List Report :=
  if op = .plus ∨ (o.skipCompoundAssignments = false ∧ op = .plusEquals) then check o left right else []

end Tsgolint.PlusOperands
