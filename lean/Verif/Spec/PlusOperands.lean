import Verif.Model.PlusOperands
/-! # Which additions are meant to be reported; values of types -/
namespace Tsgolint.PlusOperands

/-- A part that is not allowed as an operand: symbols, never and unknown; any, booleans and nullish values, each unless the option
allows it; regular expressions unless allowed and the other operand is no number; other objects. -/
inductive Bad (o : Options) (other : Ty) (p : Part) : Prop
  | symbol : p.flags.symbolLike = true → Bad o other p
  | never : p.flags.never = true → Bad o other p
  | unknown : p.flags.unknown = true → Bad o other p
  | any : p.flags.any = true → o.allowAny = false → Bad o other p
  | boolean : p.flags.booleanLike = true → o.allowBoolean = false → Bad o other p
  | nullish : p.flags.nullable = true → o.allowNullish = false → Bad o other p
  | regexp : p.regexp = true → (o.allowRegExp = false ∨ other.flags.numberLike = true) → Bad o other p
  | object : p.regexp = false → p.objects = true → Bad o other p

def BadOperand (o : Options) (t other : Ty) : Prop := ∃ p ∈ t.parts, Bad o other p

def HasString (t : Ty) : Prop := ∃ p ∈ t.parts, p.flags.stringLike = true
def HasNumber (t : Ty) : Prop := ∃ p ∈ t.parts, p.flags.numberLike = true
def HasBigInt (t : Ty) : Prop := ∃ p ∈ t.parts, p.flags.bigIntLike = true

/-- Both operands are of the very same string, number or bigint type. -/
def SameSimple (l r : Ty) : Prop := l.id = r.id ∧ (l.flags.stringLike = true ∨ l.flags.numberLike = true ∨ l.flags.bigIntLike = true)

/-- Kinds of run-time values. -/
inductive Kind
  | string | number | bigint | other
deriving DecidableEq, Repr

/-- A value of this kind can belong to the part. -/
def Part.Has (p : Part) : Kind → Prop
  | .string => p.flags.stringLike = true ∨ p.regexp = true ∨ p.objects = true ∨ p.flags.any = true ∨ p.flags.unknown = true
  | .number => p.flags.numberLike = true ∨ p.regexp = true ∨ p.objects = true ∨ p.flags.any = true ∨ p.flags.unknown = true
  | .bigint => p.flags.bigIntLike = true ∨ p.regexp = true ∨ p.objects = true ∨ p.flags.any = true ∨ p.flags.unknown = true
  | .other => p.regexp = true ∨ p.objects = true ∨ p.flags.any = true ∨ p.flags.unknown = true ∨ p.flags.symbolLike = true ∨
      p.flags.booleanLike = true ∨ p.flags.nullable = true

/-- A value of this kind can belong to the type. -/
def Ty.Has (t : Ty) (k : Kind) : Prop := ∃ p ∈ t.parts, p.Has k

/-- The flags of a type whose own flags are string-, number- or bigint-like are those of its only part (it is no union). -/
def Ty.Simple (t : Ty) : Prop :=
  (t.flags.stringLike = true ∨ t.flags.numberLike = true ∨ t.flags.bigIntLike = true) →
    ∃ p, t.parts = [p] ∧ ((∀ k, p.Has k → k = .string) ∨ (∀ k, p.Has k → k = .number) ∨ (∀ k, p.Has k → k = .bigint))

end Tsgolint.PlusOperands
