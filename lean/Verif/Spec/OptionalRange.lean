import Verif.Spec.OptionalOperand
import Verif.Model.OptionalRange

/-!
# Operands replaced by an expression

`Replaced o e i n c e'`: in `e`, a tree of `o`s (`&&`s, or `||`s), the `n` operands after the first `i` are replaced by the expression `c`, which gives the tree `e'`.
This is possible if the operands are all those that stand between two places of the tree at which as many parentheses are open.
-/

namespace Tsgolint.OptionalChain

variable {V : Type}

/-- no parentheses around operands stand at the beginning -/
inductive HeadOpen (o : Op) : Expr → Prop
  | one (e : Expr) (h : ∀ l t r, e.skip ≠ .binary l o t r) : HeadOpen o e
  | both {l : Expr} (t : Text) (r : Expr) : HeadOpen o l → HeadOpen o (.binary l o t r)

/-- no parentheses around operands stand at the end -/
inductive TailOpen (o : Op) : Expr → Prop
  | one (e : Expr) (h : ∀ l t r, e.skip ≠ .binary l o t r) : TailOpen o e
  | both {r : Expr} (l : Expr) (t : Text) : TailOpen o r → TailOpen o (.binary l o t r)

/-- the last operands, up to the end of the text, are replaced -/
inductive ReplacedLast (o : Op) : Expr → List Expr → List Expr → Expr → Expr → Prop
  | all {e : Expr} {es : List Expr} (c : Expr) : Operands o e es → HeadOpen o e → TailOpen o e → ReplacedLast o e [] es c c
  | right {l r c r' : Expr} {ls pre run : List Expr} (t : Text) : Operands o l ls → ReplacedLast o r pre run c r' →
      ReplacedLast o (.binary l o t r) (ls ++ pre) run c (.binary l o t r')
  | more {l r c l' : Expr} {rs pre run : List Expr} (t : Text) : ReplacedLast o l pre run c l' → Operands o r rs → TailOpen o r →
      ReplacedLast o (.binary l o t r) pre (run ++ rs) c l'

/-- the operands `run` between `pre` and `post` are replaced -/
inductive Replaced (o : Op) : Expr → List Expr → List Expr → List Expr → Expr → Expr → Prop
  | last {e c e' : Expr} {pre run : List Expr} : ReplacedLast o e pre run c e' → Replaced o e pre run [] c e'
  | paren {e c e' : Expr} {pre run post : List Expr} : Replaced o e pre run post c e' → 2 ≤ (pre ++ run ++ post).length → Replaced o (.paren e) pre run post c (.paren e')
  | left {l r c l' : Expr} {rs pre run post : List Expr} (t : Text) : Replaced o l pre run post c l' → Operands o r rs →
      Replaced o (.binary l o t r) pre run (post ++ rs) c (.binary l' o t r)
  | right {l r c r' : Expr} {ls pre run post : List Expr} (t : Text) : Operands o l ls → Replaced o r pre run post c r' →
      Replaced o (.binary l o t r) (ls ++ pre) run post c (.binary l o t r')

/-- operands joined without parentheses around them: `a && b && c` -/
inductive Spine (o : Op) : Expr → List Expr → Prop
  | one (e : Expr) (h : ∀ l t r, e.skip ≠ .binary l o t r) : Spine o e [e]
  | more {l : Expr} {ls : List Expr} (t : Text) (r : Expr) (h : ∀ l t r', r.skip ≠ .binary l o t r') : Spine o l ls → Spine o (.binary l o t r) (ls ++ [r])

/-- the value of operands joined by `&&`, or by `||` -/
noncomputable def World.joined (W : World V) (isAnd : Bool) (es : List Expr) : Option V := if isAnd then W.conjunction es else W.disjunction es

/-- the same value, or both end the evaluation: falsy with `&&`, truthy with `||` -/
def World.Alike (W : World V) (isAnd : Bool) (v w : V) : Prop := v = w ∨ (W.truthy v = !isAnd ∧ W.truthy w = !isAnd)

end Tsgolint.OptionalChain
