import Verif.Spec.OptionalMeaning
import Verif.Model.OptionalOperand

/-!
# What the operands of `&&` and `||` test
-/

namespace Tsgolint.OptionalChain

variable {V : Type}

/-- a text that `typeof` gives, or `"undefined"` -/
def World.Textual (W : World V) (v : V) : Prop := v = W.undefText ∨ ∃ u, v = W.typeof u

/-- JavaScript's operators, as far as null, undefined and the texts of `typeof` are concerned (`document.all` is not there) -/
structure World.Lawful (W : World V) : Prop where
  distinct : W.null ≠ W.undef
  undefined : W.var "undefined".toList = some W.undef
  voids : ∀ p, W.other .void p = some W.undef
  undefText : W.literal .string "undefined".toList = W.undefText
  typeof : ∀ v, W.typeof v = W.undefText ↔ v = W.undef
  not : ∀ v, ∃ r, W.unary .not v = some r ∧ (W.truthy r = true ↔ W.truthy v = false)
  seq : ∀ a b, W.Nullish a ∨ W.Nullish b ∨ (W.Textual a ∧ W.Textual b) → ∃ r, W.op .seq a b = some r ∧ (W.truthy r = true ↔ a = b)
  sne : ∀ a b, W.Nullish a ∨ W.Nullish b ∨ (W.Textual a ∧ W.Textual b) → ∃ r, W.op .sne a b = some r ∧ (W.truthy r = true ↔ a ≠ b)
  eq : ∀ a b, W.Nullish a ∨ W.Nullish b → ∃ r, W.op .eq a b = some r ∧ (W.truthy r = true ↔ W.Nullish a ∧ W.Nullish b)
  ne : ∀ a b, W.Nullish a ∨ W.Nullish b → ∃ r, W.op .ne a b = some r ∧ (W.truthy r = true ↔ ¬ (W.Nullish a ∧ W.Nullish b))
  textEq : ∀ a b, W.Textual a → W.Textual b → ∃ r, W.op .eq a b = some r ∧ (W.truthy r = true ↔ a = b)
  textNe : ∀ a b, W.Textual a → W.Textual b → ∃ r, W.op .ne a b = some r ∧ (W.truthy r = true ↔ a ≠ b)

/-- What an operand says of the value of its expression, in an AND chain and in an OR chain -/
def Says (W : World V) (isAnd : Bool) (k : Kind) (v : V) : Prop :=
  match k, isAnd with
  | .plain, _ => W.truthy v = true
  | .not, _ | .negated, _ => W.truthy v = false
  | .notNull, true | .isNull, false => v ≠ W.null
  | .notNull, false | .isNull, true => v = W.null
  | .notUndef, true | .isUndef, false | .typeof, true => v ≠ W.undef
  | .notUndef, false | .isUndef, true | .typeof, false => v = W.undef
  | .notBoth, true | .isBoth, false => ¬ W.Nullish v
  | .notBoth, false | .isBoth, true => W.Nullish v
  | .comparison, _ | .invalid, _ => True

/-- a value of a part of a type; type parameters can have any -/
def World.Has (W : World V) (p : Part) (v : V) : Prop :=
  match p with
  | .null => v = W.null
  | .undef => v = W.undef
  | .void => v = W.undef
  | .any | .unknown | .param => True
  | _ => ¬ W.Nullish v

/-- a value of a type -/
def World.HasType (W : World V) (t : List Part) (v : V) : Prop := ∃ p ∈ t, W.Has p v

/-- all the operands of a chain of `&&`s, or `||`s, in order: what is left when the operators and the parentheses around them are taken away -/
inductive Operands (o : Op) : Expr → List Expr → Prop
  | both {l r : Expr} {ls rs : List Expr} (t : Text) : Operands o l ls → Operands o r rs → Operands o (.binary l o t r) (ls ++ rs)
  | paren {e : Expr} {es : List Expr} : Operands o e es → 2 ≤ es.length → Operands o (.paren e) es
  | one (e : Expr) (h : ∀ l t r, e.skip ≠ .binary l o t r) : Operands o e [e]

/-- the value of operands joined by `&&`: the first falsy one, or the last one -/
noncomputable def World.conjunction (W : World V) : List Expr → Option V
  | [] => none
  | [e] => W.value e
  | e :: es => match W.value e with
    | none => none
    | some v => if W.truthy v = true then W.conjunction es else some v

/-- the value of operands joined by `||`: the first truthy one, or the last one -/
noncomputable def World.disjunction (W : World V) : List Expr → Option V
  | [] => none
  | [e] => W.value e
  | e :: es => match W.value e with
    | none => none
    | some v => if W.truthy v = true then some v else W.disjunction es

end Tsgolint.OptionalChain
