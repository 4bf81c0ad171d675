import Verif.Model.ConsistentReturn
import Verif.Spec.RuleTree
import Verif.Spec.TypeGraph
/-! # What consistent-return is to report -/
namespace Tsgolint.ConsistentReturn
open Tsgolint.RuleTree Tsgolint.TypeGraph

/-- Functions are the scopes. -/
def Label.isFunc : Label → Bool
  | .func _ => true
  | _ => false

/-- The return statements among the nodes of a function that count: not `return;` where returning nothing is fine. -/
def counted (f : Func) : List Label → List Ret
  | [] => []
  | .ret r :: ls => if r.hasExpression = false ∧ f.allowsVoid = true then counted f ls else r :: counted f ls
  | _ :: ls => counted f ls

/-- A return statement returns a value: it has an expression, which with `treatUndefinedAsUnspecified` is neither of type `undefined` nor
written `undefined` or `void …`. -/
def ReturnsValue (treatUndefined : Bool) (r : Ret) : Prop :=
  r.hasExpression = true ∧ (treatUndefined = true → r.typeIsUndefined = false ∧ r.isUndefinedLiteral = false)

instance (treatUndefined : Bool) (r : Ret) : Decidable (ReturnsValue treatUndefined r) := by unfold ReturnsValue; infer_instance

/-- How a function is spoken of: whether it is asynchronous, and its name in quotes if it has one. -/
def described (f : Func) : String :=
  (if f.isAsync = true then "Async function" else "Function") ++ (if f.name = "" then "" else " '" ++ f.name ++ "'")

/-- The reports for a function `f` whose counting return statements are `rs`.  The first decides what is expected. -/
inductive Wants (treatUndefined : Bool) (f : Func) (rs : List Ret) : Report → Prop
  /-- a later one without a value although the first has one -/
  | missing {first rest r} : rs = first :: rest → r ∈ rest → ReturnsValue treatUndefined first → ¬ ReturnsValue treatUndefined r →
      Wants treatUndefined f rs (.missing r.id (described f))
  /-- a later one with a value although the first has none -/
  | unexpected {first rest r} : rs = first :: rest → r ∈ rest → ¬ ReturnsValue treatUndefined first → ReturnsValue treatUndefined r →
      Wants treatUndefined f rs (.unexpected r.id (described f))
  /-- all return a value but the end of the function can be reached -/
  | fallsThrough : rs ≠ [] → (∀ r ∈ rs, ReturnsValue treatUndefined r) → f.implicitReturn = true → f.allowsVoid = false →
      Wants treatUndefined f rs (.missing f.id (described f))

/-- How many of them there are: one per later return statement that deviates from the first, and one if the function falls through. -/
def wanted (treatUndefined : Bool) (f : Func) : List Ret → Nat
  | [] => 0
  | first :: rest => rest.countP (fun r => decide (¬ (ReturnsValue treatUndefined r ↔ ReturnsValue treatUndefined first))) +
      if (∀ r ∈ first :: rest, ReturnsValue treatUndefined r) ∧ f.implicitReturn = true ∧ f.allowsVoid = false then 1 else 0

variable {T : Type}

/-- One step from a type towards what it may resolve to: a part of a union or intersection; else the awaited type of a thenable.
Nothing is looked for below void. -/
inductive VoidStep (E : VoidEnv T) : T → T → Prop
  | union {t ps p} : E.isVoid t = false → E.shape t = .union ps → p ∈ ps → VoidStep E t p
  | intersection {t ps p} : E.isVoid t = false → E.shape t = .intersection ps → p ∈ ps → VoidStep E t p
  | awaited {t a} : E.isVoid t = false → (∀ ps, E.shape t ≠ .union ps) → (∀ ps, E.shape t ≠ .intersection ps) → E.isThenable t = true →
      E.awaited t = some a → VoidStep E t a

/-- A type resolves to void. -/
inductive ResolvesToVoid (E : VoidEnv T) : T → Prop
  | void {t} : E.isVoid t = true → ResolvesToVoid E t
  | step {t u} : VoidStep E t u → ResolvesToVoid E u → ResolvesToVoid E t

end Tsgolint.ConsistentReturn
