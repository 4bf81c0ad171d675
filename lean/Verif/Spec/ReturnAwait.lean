import Verif.Model.ReturnAwait
import Verif.Spec.RuleTree
import Verif.Spec.Fixer
/-! # What return-await is to report -/
namespace Tsgolint.ReturnAwait
open Tsgolint.RuleTree

/-- Functions are the scopes. -/
def Label.isFunc : Label → Bool
  | .func _ => true
  | _ => false

/-- An ancestor that does something when the expression throws: a try statement left from its `try` block (which is followed by a `catch`
or a `finally`), or from its `catch` block if there is a `finally`. -/
def Handles (a : Ancestor) : Prop := (∃ f, a = .tryStatement .try_ f) ∨ a = .tryStatement .catch_ true

/-- Some ancestor within the function handles what the expression throws. -/
def InHandledBlock (l : Leaf) : Prop :=
  ∃ below a above, l.ancestors = below ++ a :: above ∧ (∀ b ∈ below, b ≠ .functionLike) ∧ Handles a

/-- A `using` declaration stands before the expression in a block around it that belongs to the function. -/
def AfterUsing (l : Leaf) : Prop :=
  ∃ inner c outer, l.containers = inner ++ c :: outer ∧ (∀ i ∈ inner, i.isOwningFunc = false) ∧ ∃ p, (true, p) ∈ c.locals ∧ p < l.pos

/-- Awaiting the expression before returning makes a difference: errors are handled, or resources disposed of, in the function. -/
def Matters (f : Func) (l : Leaf) : Prop := InHandledBlock l ∨ (f.bodyIsBlock = true ∧ AfterUsing l)

/-- The documented meaning of the modes: a promise must be awaited. -/
def MustAwait (mode : Mode) (matters : Prop) : Prop :=
  mode = .always ∨ ((mode = .errorHandlingCorrectnessOnly ∨ mode = .inTryCatch) ∧ matters)

/-- A promise must not be awaited. -/
def MustNotAwait (mode : Mode) (matters : Prop) : Prop := mode = .never ∨ (mode = .inTryCatch ∧ ¬ matters)

/-- The reports for an expression returned by `f`. -/
inductive Wants (mode : Mode) (f : Func) (l : Leaf) : Report → Prop
  | nonPromise : l.isAwait = true → l.certainty = .never → Wants mode f l ⟨l.id, .nonPromiseAwait, true⟩
  | required {fix : Bool} : l.isAwait = false → l.certainty = .always → MustAwait mode (Matters f l) → (fix = true ↔ ¬ Matters f l) →
      Wants mode f l ⟨l.id, .requiredPromiseAwait (!l.highPrecedence), fix⟩
  | disallowed {fix : Bool} : l.isAwait = true → l.certainty = .always → MustNotAwait mode (Matters f l) → (fix = true ↔ ¬ Matters f l) →
      Wants mode f l ⟨l.id, .disallowedPromiseAwait, fix⟩

/-- A leaf is what an expression may evaluate to. -/
inductive PossibleResult : Expr → Leaf → Prop
  | leaf {l} : PossibleResult (.leaf l) l
  | paren {e l} : PossibleResult e l → PossibleResult (.paren e) l
  | whenTrue {t f l} : PossibleResult t l → PossibleResult (.conditional t f) l
  | whenFalse {t f l} : PossibleResult f l → PossibleResult (.conditional t f) l

/-- `f`, whose own nodes are `ns`, returns the expression `e`. -/
def Returns (f : Func) (ns : List Label) (e : Expr) : Prop := .ret (some e) ∈ ns ∨ f.arrowBody = some e

end Tsgolint.ReturnAwait
