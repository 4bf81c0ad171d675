import Verif.Model.OptionalMemo

/-!
# What the rule should be told about a node, whatever was asked before
-/

namespace Tsgolint.OptionalMemo

open OptionalChain

/-- there is a question mark in the expression: at an access, at an access its object is made of, or in an operand; parentheses do not matter -/
inductive Questioned : Expr → Prop
  | prop (e x) : Questioned (.prop e true x)
  | elem (e x) : Questioned (.elem e true x)
  | call (e ts xs) : Questioned (.call e true ts xs)
  | inProp (e o x) : Questioned e → Questioned (.prop e o x)
  | inElem (e o x) : Questioned e → Questioned (.elem e o x)
  | inCall (e o ts xs) : Questioned e → Questioned (.call e o ts xs)
  | inParen (e) : Questioned e → Questioned (.paren e)
  | left (l o t r) : Questioned l → Questioned (.binary l o t r)
  | right (l o t r) : Questioned r → Questioned (.binary l o t r)

/-- the callees of the calls an expression begins with, not looked for inside parentheses, each with the text of its call -/
inductive Called : Expr → Text → Text → Prop
  | here (e o ts xs) : Called (.call e o ts xs) (Expr.text e) (Expr.text (.call e o ts xs))
  | inCall (e o ts xs c t) : Called e c t → Called (.call e o ts xs) c t
  | inProp (e o x c t) : Called e c t → Called (.prop e o x) c t
  | inElem (e o x c t) : Called e c t → Called (.elem e o x) c t
  | inNonNull (e c t) : Called e c t → Called (.nonNull e) c t

/-- the answer `a` to the question `q`, after the steps `before` -/
inductive Right {N I : Type} (T : Nodes N) (info : N → I) (before : List (Step N)) : Step N → Answer I → Prop
  | types (n) : Right T info before (.types n) (.types (info n))
  | calls (n sigs) : (∀ c t, (c, t) ∈ sigs ↔ Called (T.expr n) c t) → Right T info before (.calls n) (.calls sigs)
  | optional (n b) : (b = true ↔ Questioned (T.expr n)) → Right T info before (.optional n) (.optional b)
  /-- the parts are as many as they should be, and as they should be where nothing was written -/
  | flat (n parts) :
      parts.length = (flat false (T.expr n)).length →
      (∀ i, (∀ p, Step.write n i p ∉ before) → parts[i]? = (flat false (T.expr n))[i]?) →
      Right T info before (.flat n) (.flat parts)
  | write (n i p) : Right T info before (.write n i p) .written

end Tsgolint.OptionalMemo
