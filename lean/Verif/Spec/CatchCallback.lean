import Verif.Model.CatchCallback
/-! # What use-unknown-in-catch-callback-variable promises -/
namespace Tsgolint.CatchCallback
variable {T : Type}

/-- The callback may receive the error as something other than `unknown`. -/
inductive NotUnknown (E : Env T) : FirstParam T → Prop
  | plain {p} : p.rest = false → E.isUnknown p.type = false → NotUnknown E p
  | restOther {p} : p.rest = true → E.arrayOrTuple p.type = none → NotUnknown E p
  | restElement {p t ts} : p.rest = true → E.arrayOrTuple p.type = some (t :: ts) → E.isUnknown t = false → NotUnknown E p

/-- Some part of the type has a call signature whose first parameter is not `unknown`. -/
def Flaggable (E : Env T) (t : T) : Prop := ∃ part ∈ E.parts t, ∃ p, some p ∈ E.signatures part ∧ NotUnknown E p

/-- The functions an expression may evaluate to. -/
inductive Yields : Expr T → Nat → T → Prop
  | self {id t} : Yields (.function id t) id t
  | paren {e id t} : Yields e id t → Yields (.paren e) id t
  | left {l r id t} : Yields l id t → Yields (.logical l r) id t
  | right {l r id t} : Yields r id t → Yields (.logical l r) id t
  | comma {l r id t} : Yields r id t → Yields (.comma l r) id t
  | whenTrue {l r id t} : Yields l id t → Yields (.conditional l r) id t
  | whenFalse {l r id t} : Yields r id t → Yields (.conditional l r) id t

/-- The functions in an expression (outside other functions), in source order. -/
def Expr.functions : Expr T → List Nat
  | .function id _ => [id]
  | .paren e => e.functions
  | .logical l r => l.functions ++ r.functions
  | .comma l r => l.functions ++ r.functions
  | .conditional l r => l.functions ++ r.functions
  | .other => []

/-- No rest parameter of a callback has the empty tuple type. -/
def NoEmptyRest (E : Env T) : Prop := ∀ t p, some p ∈ E.signatures t → p.rest = true → E.arrayOrTuple p.type ≠ some []

end Tsgolint.CatchCallback
