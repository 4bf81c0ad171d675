import Verif.Spec.OptionalChains
import Verif.Spec.OptionalFix
import Verif.Model.OptionalCode

/-!
# When an optional chain means what the guards and the last access meant
-/

namespace Tsgolint.OptionalChain

variable {V : Type}

/-- a computed key or the arguments of a call do not throw -/
def Step.Calm (W : World V) : Step → Prop
  | .prop _ => True
  | .elem x => W.value x ≠ none
  | .call _ xs => W.evals xs ≠ none

/-- the root, the computed keys and the arguments of an expression do not throw by themselves -/
def Calm (W : World V) (e : Expr) : Prop := W.value (rootOf false e) ≠ none ∧ ∀ p ∈ links false e, p.step.Calm W

/-- the root's text does not end in `!` (a name never does) -/
def NoBang (e : Expr) : Prop := (rootOf false e).unbanged.text.getLast? ≠ some '!'

/-- a link's text without the question mark and dot in front of it and the `!` behind it -/
def Step.text : Step → Text
  | .prop n => n
  | .elem x => "[".toList ++ x.text ++ "]".toList
  | .call ts xs => Expr.tysText ts ++ "(".toList ++ Expr.commas (Expr.texts xs) ++ ")".toList

/-- the texts of an expression's root and links -/
def Expr.words (e : Expr) : List Text := (rootOf false e).unbanged.text :: (links false e).map fun p => p.step.text

/-- the checked expression is written like the beginning of the other one, but for question marks, `!` and parentheses -/
def WrittenAlike (g e : Expr) : Prop := NoBang g ∧ g.words <+: e.words

/-- guards that are tests of truth or comparisons with null and undefined -/
def Guard (x : Operand) : Prop := x.kind ∈ [.plain, .notBoth, .notNull, .notUndef]

/-- where `!`s are not, and parentheses and links are not -/
def originOf : Expr → Expr
  | .paren e => originOf e
  | .nonNull e => originOf e
  | .prop e _ _ => originOf e
  | .elem e _ _ => originOf e
  | .call e _ _ _ => originOf e
  | e => e

end Tsgolint.OptionalChain
