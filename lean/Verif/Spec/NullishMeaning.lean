import Verif.Spec.Nullish
/-! # The meaning of expressions, for prefer-nullish-coalescing -/
namespace Tsgolint.Nullish

/-- A world in which expressions are evaluated.  Evaluating does not change anything; it may throw (`none`). -/
structure World (V : Type) where
  null : V
  undefined : V
  /-- variables -/
  env : String → Option V
  this : V
  str : String → V
  num : String → V
  big : String → V
  bool : Bool → V
  /-- property of a value that is neither null nor undefined -/
  get : V → V → Option V
  getPrivate : V → String → Option V
  truthy : V → Bool
  looseEq : V → V → Bool
  strictEq : V → V → Bool
  /-- other operators -/
  op : Nat → V → V → Option V
  /-- other expressions -/
  other : Expr → Option V

variable {V : Type} [DecidableEq V]

/-- null or undefined -/
def World.Nullish (W : World V) (v : V) : Prop := v = W.null ∨ v = W.undefined

instance (W : World V) (v : V) : Decidable (W.Nullish v) := inferInstanceAs (Decidable (_ ∨ _))

/-- JavaScript's rules for comparisons with null and undefined, truth, and the name `undefined` -/
structure World.Lawful (W : World V) : Prop where
  distinct : W.null ≠ W.undefined
  undefined : W.env "undefined" = some W.undefined
  bool : ∀ b, W.truthy (W.bool b) = b
  falsy : ∀ v, W.Nullish v → W.truthy v = false
  strict : ∀ v w, W.Nullish w → (W.strictEq v w = true ↔ v = w) ∧ (W.strictEq w v = true ↔ v = w)
  loose : ∀ v w, W.Nullish w → (W.looseEq v w = true ↔ W.Nullish v) ∧ (W.looseEq w v = true ↔ W.Nullish v)

/-- The result of (part of) an optional chain -/
inductive Result (V : Type)
  | throws
  /-- the rest of the chain is skipped -/
  | short
  | value (v : V)

/-- At the end of a chain -/
def World.finish (W : World V) : Result V → Option V
  | .throws => none
  | .short => some W.undefined
  | .value v => some v

def ofOption : Option V → Result V
  | none => .throws
  | some v => .value v

/-- `?.` or `.` after a value; `get`: the property of a value that is not nullish -/
def World.access (W : World V) (optional : Bool) (get : V → Option V) : Result V → Result V
  | .throws => .throws
  | .short => .short
  | .value v => if W.Nullish v then (if optional then .short else .throws) else ofOption (get v)

/-- A comparison -/
def World.compare (W : World V) (op : Op) (v w : V) : Option V :=
  match op with
  | .eq => some (W.bool (W.looseEq v w))
  | .notEq => some (W.bool (!W.looseEq v w))
  | .strictEq => some (W.bool (W.strictEq v w))
  | .strictNotEq => some (W.bool (!W.strictEq v w))
  | .other n => W.op n v w
  | _ => none

/-- Binary operators; `r`: the right operand, if it is evaluated -/
def World.binary (W : World V) (op : Op) (l r : Option V) : Option V :=
  match op with
  | .or => l.bind fun v => if W.truthy v then some v else r
  | .and => l.bind fun v => if W.truthy v then r else some v
  | .coalesce => l.bind fun v => if W.Nullish v then r else some v
  | op => l.bind fun v => r.bind fun w => W.compare op v w

/-- The value of an expression, or of a part of an optional chain.  The key of an element access is evaluated only if the object is not nullish; otherwise the access throws anyway, or is
skipped. -/
def World.result (W : World V) : Expr → Result V
  | .ident n => ofOption (W.env n)
  | .prop q o n p => W.access q (fun v => if p then W.getPrivate v n else W.get v (W.str n)) (result W o)
  | .elem q o a => W.access q (fun v => (W.finish (result W a)).bind fun k => W.get v k) (result W o)
  | .null => .value W.null
  | .this => .value W.this
  | .str _ t => .value (W.str t)
  | .num t => .value (W.num t)
  | .big t => .value (W.big t)
  | .paren e => ofOption (W.finish (result W e))
  | .nonNull e => result W e
  | .not e => ofOption ((W.finish (result W e)).map fun v => W.bool (!W.truthy v))
  | .binary op l r => ofOption (W.binary op (W.finish (result W l)) (W.finish (result W r)))
  | .cond t y n => ofOption ((W.finish (result W t)).bind fun v => if W.truthy v then W.finish (result W y) else W.finish (result W n))
  | e => ofOption (W.other e)

/-- The value of an expression -/
def World.eval (W : World V) (e : Expr) : Option V := W.finish (W.result e)

/-! ## Statements -/

/-- What happens when a statement is executed. -/
inductive Effect (V : Type)
  | throws
  | nothing
  /-- the value is assigned to the variable or property on the left -/
  | assigned (v : V)
  deriving DecidableEq

/-- The place exists: a variable, or a property of a value that is not nullish (and whose key can be evaluated). -/
def World.place (W : World V) : Expr → Bool
  | .ident _ => true
  | .prop _ o _ _ => match W.result o with
    | .value v => !decide (W.Nullish v)
    | _ => false
  | .elem _ o a => match W.result o with
    | .value v => !decide (W.Nullish v) && (W.eval a).isSome
    | _ => false
  | .paren e => W.place e
  | _ => false

/-- Assigning to a place -/
def World.store (W : World V) (target : Expr) (v : Option V) : Effect V :=
  match v with
  | none => .throws
  | some v => if W.place target then .assigned v else .throws

/-- `if (test) target = e;` -/
def World.ifAssign (W : World V) (test target e : Expr) : Effect V :=
  match W.eval test with
  | none => .throws
  | some v => if W.truthy v then W.store target (W.eval e) else .nothing

/-- `target ??= e;` -/
def World.coalesceAssign (W : World V) (target e : Expr) : Effect V :=
  match W.eval target with
  | none => .throws
  | some v => if W.Nullish v then W.store target (W.eval e) else .nothing

/-! ## Hypotheses -/

/-- No property is read with a string that looks like a private name. -/
def NoHash : Expr → Prop
  | .prop _ o _ _ => NoHash o
  | .elem _ o a => NoHash o ∧ NoHash a ∧ ∀ b t, a = .str b t → t.front ≠ '#'
  | .paren e => NoHash e
  | .nonNull e => NoHash e
  | .not e => NoHash e
  | .binary _ l r => NoHash l ∧ NoHash r
  | _ => True

/-- Private names begin with `#`, others do not. -/
def Names : Expr → Prop
  | .prop _ o n p => Names o ∧ (p = true ↔ n.front = '#')
  | .elem _ o a => Names o ∧ Names a
  | .paren e => Names e
  | .nonNull e => Names e
  | .not e => Names e
  | .binary _ l r => Names l ∧ Names r
  | _ => True

/-- Every comparison is one with `null` or `undefined`. -/
inductive Proper : Expr → Prop
  | one {op l r} : (NullishLiteral l.skip ∨ NullishLiteral r.skip) → Proper (.binary op l r)
  | two {op lo ll lr ro rl rr} : (NullishLiteral ll.skip ∨ NullishLiteral lr.skip) → (NullishLiteral rl.skip ∨ NullishLiteral rr.skip) →
      Proper (.binary op (.binary lo ll lr) (.binary ro rl rr))

/-- The value is of the type, as far as null and undefined go. -/
def World.Fits (W : World V) (v : V) (t : Ty) : Prop :=
  t.any = true ∨ ((v = W.null → ∃ p ∈ t.parts, p.null = true) ∧ (v = W.undefined → ∃ p ∈ t.parts, p.undefined = true))

/-- There is no `?.` in it. -/
def NoOptional : Expr → Prop
  | .prop q o _ _ => q = false ∧ NoOptional o
  | .elem q o a => q = false ∧ NoOptional o ∧ NoOptional a
  | .paren e => NoOptional e
  | .nonNull e => NoOptional e
  | _ => True

/-- There is no `?.` in the keys `x[key]`. -/
def KeysPlain : Expr → Prop
  | .prop _ o _ _ => KeysPlain o
  | .elem _ o a => KeysPlain o ∧ NoOptional a
  | .paren e => KeysPlain e
  | .nonNull e => KeysPlain e
  | .not e => KeysPlain e
  | .binary _ l r => KeysPlain l ∧ KeysPlain r
  | _ => True

end Tsgolint.Nullish
