import Verif.Model.StrictBoolean
/-! # What counts as a condition; values of types; asserted arguments -/
namespace Tsgolint.StrictBoolean

/-- `At root c₀ n c`: node `n` occurs in `root`, and its value is used as a condition (`c`); `c₀` says this of `root` itself.
Tests and the left sides of `&&` and `||` are conditions; parentheses and the right sides of `&&` and `||` are what the whole is. -/
inductive At (root : Node) (c₀ : Bool) : Node → Bool → Prop
  | root : At root c₀ root c₀
  | paren {i e c} : At root c₀ (.paren i e) c → At root c₀ e c
  | left {i l r c} : At root c₀ (.logic i l r) c → At root c₀ l true
  | right {i l r c} : At root c₀ (.logic i l r) c → At root c₀ r c
  | test {i b t a c} : At root c₀ (.cond i b t a) c → At root c₀ t true
  | before {i b t a c n} : At root c₀ (.cond i b t a) c → n ∈ b → At root c₀ n false
  | after {i b t a c n} : At root c₀ (.cond i b t a) c → n ∈ a → At root c₀ n false
  | kid {i ks c n} : At root c₀ (.other i ks) c → n ∈ ks → At root c₀ n false

/-- Neither parentheses nor `&&` or `||`. -/
inductive Atom : Node → Prop
  | cond {i b t a} : Atom (.cond i b t a)
  | other {i ks} : Atom (.other i ks)

mutual
/-- The identities of all nodes of a tree. -/
def ids : Node → List Nat
  | .paren i e => i :: ids e
  | .logic i l r => i :: (ids l ++ ids r)
  | .cond i b t a => i :: (idss b ++ ids t ++ idss a)
  | .other i ks => i :: idss ks

def idss : List Node → List Nat
  | [] => []
  | n :: ns => ids n ++ idss ns
end

/-- Run-time values as far as truthiness is concerned. -/
inductive Val
  | nullish
  | bool (b : Bool)
  | string (empty : Bool)
  | number (zeroOrNaN : Bool)
  | bigint (zero : Bool)
  | object
deriving DecidableEq, Repr

def Val.Falsy : Val → Prop
  | .nullish => True
  | .bool b => b = false
  | .string e => e = true
  | .number z => z = true
  | .bigint z => z = true
  | .object => False

/-- The values a type that is no intersection may have. -/
inductive Flags.Has (f : Flags) : Val → Prop
  | nullish : f.nullish = true → f.Has .nullish
  | boolean (b) : f.boolean = true → (f.isTrue = true → b = true) → f.Has (.bool b)
  | enumString (e) : f.enum = true → f.Has (.string e)
  | enumNumber (z) : f.enum = true → f.Has (.number z)
  | string (e) : f.string = true → (f.truthyLiteral = true → e = false) → f.Has (.string e)
  | number (z) : f.number = true → (f.truthyLiteral = true → z = false) → f.Has (.number z)
  | bigint (z) : f.bigint = true → (f.truthyLiteral = true → z = false) → f.Has (.bigint z)
  | symbol : f.symbol = true → f.Has .object
  | object : f.object = true → f.Has .object
  | top (v) : f.any = true ∨ f.unknown = true ∨ f.typeParameter = true → f.Has v

/-- A compiler's type that is no intersection has exactly one of these flags (enum members are also strings or numbers). -/
def Flags.Kinds (f : Flags) : List Bool :=
  [f.typeParameter, f.any, f.unknown, f.never, f.nullish, f.boolean, f.enum || f.string || f.number, f.bigint, f.symbol, f.object]

structure Flags.Ok (f : Flags) : Prop where
  one : f.Kinds.Pairwise (fun a b => ¬(a = true ∧ b = true))
  two : ¬(f.string = true ∧ f.number = true)

/-- `t.Has v`: a value `v` may belong to the type.  A value of an intersection belongs to all its parts. -/
inductive Ty.Has : Ty → Val → Prop
  | leaf {f v} : f.Has v → Ty.Has (.leaf f) v
  | inter {ts v} : (∀ t ∈ ts, Ty.Has t v) → Ty.Has (.inter ts) v

inductive Ty.Ok : Ty → Prop
  | leaf {f} : f.Ok → Ty.Ok (.leaf f)
  | inter {ts} : (∀ t ∈ ts, Ty.Ok t) → Ty.Ok (.inter ts)

/-- The type mentions an enum (as a part of its own). -/
def EnumPart (parts : List Ty) : Prop := ∃ f, Ty.leaf f ∈ parts ∧ f.enum = true

/-- The predicate asserts that argument `a` is truthy: `asserts x`, with no spread up to the argument for `x`. -/
def Asserts (p : Predicate) (args : List Arg) (a : Nat) : Prop :=
  p.assertsIdentifier = true ∧ p.hasType = false ∧
    ∃ k : Nat, p.index = k ∧ args[k]? = some ⟨a, false⟩ ∧ ∀ j x, j < k → args[j]? = some x → x.spread = false

end Tsgolint.StrictBoolean
