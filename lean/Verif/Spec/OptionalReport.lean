import Verif.Spec.OptionalEnding
import Verif.Spec.OptionalChains
import Verif.Model.OptionalOperand

/-!
# When a chain of operands is reported: the reasons why it is not

The specification of what prefer-optional-chain reports lists the reasons for passing over a chain one by one; a chain with at least two operands that begin alike, one of them an
access, is reported just if there is none.
-/

namespace Tsgolint.OptionalChain

/-! ### Words -/

/-- a question mark in a chain of accesses (also on a side of a binary expression) -/
inductive HasMark : Expr → Prop
  | prop (e : Expr) (n : Text) : HasMark (.prop e true n)
  | elem (e x : Expr) : HasMark (.elem e true x)
  | call (e : Expr) (ts : List TyNode) (xs : List Expr) : HasMark (.call e true ts xs)
  | propIn {e : Expr} (o : Bool) (n : Text) : HasMark e → HasMark (.prop e o n)
  | elemIn {e : Expr} (o : Bool) (x : Expr) : HasMark e → HasMark (.elem e o x)
  | callIn {e : Expr} (o : Bool) (ts : List TyNode) (xs : List Expr) : HasMark e → HasMark (.call e o ts xs)
  | paren {e : Expr} : HasMark e → HasMark (.paren e)
  | left {l : Expr} (o : Op) (t : Text) (r : Expr) : HasMark l → HasMark (.binary l o t r)
  | right {r : Expr} (l : Expr) (o : Op) (t : Text) : HasMark r → HasMark (.binary l o t r)

/-- all operands but the first have a question mark -/
def LaterMarked (chain : List Operand) : Prop := ∀ x ∈ chain.tail, HasMark x.expr

/-- an access to a member, an element or a call, in parentheses or not -/
def ReachesIn (e : Expr) : Prop := e.skip.isAccess = true

/-- a comparison by an operator, of what the sides say in either order; parentheses around it and around the sides do not matter -/
def Compares (x : Operand) (o : Op) (p : Expr → Prop) : Prop := ∃ l t r, x.node.skip = .binary l o t r ∧ (p l.skip ∨ p r.skip)

def NullExpr (e : Expr) : Prop := e.isNullLit = true
def UndefExpr (e : Expr) : Prop := e.isUndefLit = true

/-- a comparison of a member by `==` or `===` with null or undefined -/
def NullishEquality (x : Operand) : Prop :=
  x.kind = .comparison ∧ ∃ o, (o = .eq ∨ o = .seq) ∧ Compares x o fun e => NullExpr e ∨ UndefExpr e

/-! ### What is tested -/

inductive Aspect | null | undef | both
  deriving DecidableEq

/-- what of null and undefined an operand tests, in an OR chain or in an AND chain: truth tests are for both -/
inductive Concerns (isOr : Bool) (x : Operand) : Aspect → Prop
  | null : x.kind ∈ [.notNull, .isNull] → Concerns isOr x .null
  | undef : x.kind ∈ [.notUndef, .isUndef, .typeof] → Concerns isOr x .undef
  | both : x.kind ∈ [.notBoth, .isBoth] → Concerns isOr x .both
  | negation : isOr = true → x.kind = .not → Concerns isOr x .both
  | truth : isOr = false → x.kind = .plain → Concerns isOr x .both
  | strictNull : x.kind = .comparison → Compares x .seq NullExpr → Concerns isOr x .null
  | strictUndef : x.kind = .comparison → Compares x .seq UndefExpr → Concerns isOr x .undef
  | loose : x.kind = .comparison → Compares x .eq (fun e => NullExpr e ∨ UndefExpr e) → Concerns isOr x .both

/-- one thing is tested, and nothing else -/
def OnlyTests (isOr : Bool) (a : Aspect) (chain : List Operand) : Prop :=
  (∃ x ∈ chain, Concerns isOr x a) ∧ ∀ x ∈ chain, ∀ b, Concerns isOr x b → b = a

/-! ### Types -/

def Untyped (t : List Part) : Prop := .any ∈ t ∨ .unknown ∈ t
def CanBe (t : List Part) : Prop := .null ∈ t ∨ .undef ∈ t ∨ Untyped t
def NullAndUndef (t : List Part) : Prop := .null ∈ t ∧ .undef ∈ t

/-- a type with the one and not with the other -/
def Just : Aspect → List Part → Prop
  | .null, t => ¬ Untyped t ∧ .null ∈ t ∧ .undef ∉ t
  | .undef, t => ¬ Untyped t ∧ .undef ∈ t ∧ .null ∉ t
  | .both, _ => False

/-- a literal, and neither null nor undefined: an optional chain would have another type -/
def LiteralType (t : List Part) : Prop := (∃ p ∈ t, p ∈ [Part.boolLit, .numLit, .strLit, .bigLit]) ∧ .null ∉ t ∧ .undef ∉ t

/-- the option for a type -/
def Options.checks (O : Options) : Part → Bool
  | .any => O.checkAny
  | .unknown => O.checkUnknown
  | .big | .bigLit => O.checkBigInt
  | .boolean | .boolLit => O.checkBoolean
  | .num | .numLit => O.checkNumber
  | .str | .strLit => O.checkString
  | _ => true

/-- a type the options leave out -/
def LeftOut (O : Options) (t : List Part) : Prop := ¬ (O.requireNullish = true ∧ (.null ∈ t ∨ .undef ∈ t)) ∧ ∃ p ∈ t, O.checks p = false

/-- comparisons with a value of the type are false for undefined -/
def SafeValue (o : Op) (t : List Part) : Prop :=
  match o with
  | .eq => t ≠ [] ∧ ∀ p ∈ t, p ∉ [Part.null, .undef, .void, .any, .unknown]
  | .seq => t ≠ [] ∧ ∀ p ∈ t, p ∉ [Part.undef, .void, .any, .unknown]
  | .ne => t ≠ [] ∧ ∀ p ∈ t, p ∈ [Part.null, .undef, .void]
  | .sne => t ≠ [] ∧ ∀ p ∈ t, p ∈ [Part.undef, .void]
  | .lt | .gt | .le | .ge => False
  | _ => True

/-! ### What all chains need -/

/-- with `requireNullish`, a chain of truth tests needs a type with null or undefined in front of the last one (an OR chain cannot be one), and an OR chain must not begin with a negation -/
def Required (O : Options) (T : Types) (isAnd : Bool) (chain : List Operand) : Prop :=
  O.requireNullish = true →
    (isAnd = false → ∀ x, chain.head? = some x → x.kind ≠ .not) ∧
    ((∃ x ∈ chain, x.kind ≠ .plain) ∨ (isAnd = true ∧ ∃ x ∈ chain.dropLast, .null ∈ T x.expr ∨ .undef ∈ T x.expr))

/-- two or more operands about the same thing, one of them an access -/
def Candidate (O : Options) (T : Types) (isAnd : Bool) (chain : List Operand) : Prop :=
  (∃ first second rest, chain = first :: second :: rest ∧ ∀ x ∈ second :: rest, first.expr.base.eq x.expr.base = true) ∧ (∃ x ∈ chain, ReachesIn x.expr) ∧ Required O T isAnd chain

/-! ### AND chains -/

/-- the texts of the parts of an expression -/
def partTexts (e : Expr) : List Text := (flat false e).map Link.text
/-- and which of them have a question mark -/
def partMarks (e : Expr) : List (Text × Bool) := (flat false e).map fun p => (p.text, p.optional)

/-- `x !== null && x !== undefined`, in any order -/
def Split (chain : List Operand) : Prop := ∃ a b, chain = [a, b] ∧ ((AboutUndef a ∧ AboutNull b) ∨ (AboutNull a ∧ AboutUndef b))

/-- the last operand is not one of those that guard: it is a comparison, or a truth test of something longer than what is in front of it -/
def StandsApart (prev last : Operand) : Prop :=
  last.kind ∈ [.notNull, .notUndef, .notBoth, .comparison] ∨ (last.kind = .plain ∧ prev.expr.size < last.expr.size)

inductive Guards (chain : List Operand) : List Operand → Option Operand → Prop
  | apart (init : List Operand) (prev last : Operand) : chain = init ++ [prev, last] → StandsApart prev last → Guards chain (init ++ [prev]) (some last)
  | all : (∀ init prev last, chain = init ++ [prev, last] → ¬ StandsApart prev last) → Guards chain chain none

/-- only null, or only undefined, is tested, and the first operand's type is not just that -/
def Incomplete (T : Types) (chain : List Operand) : Prop :=
  ∃ guards trailing, Guards chain guards trailing ∧ (∀ x ∈ guards, x.kind ≠ .typeof) ∧ (∀ l, trailing = some l → l.kind ≠ .notBoth ∧ ¬ HasMark l.expr) ∧
    ∃ g, guards.head? = some g ∧ CanBe (T g.expr) ∧ ∃ a, a ≠ .both ∧ OnlyTests false a guards ∧ ¬ Just a (T g.expr)

/-- the side of a comparison that is not the operand's expression -/
def OtherSide (e l r v : Expr) : Prop :=
  (e.eq l = true ∧ v = r) ∨
  (e.eq l = false ∧ e.eq r = true ∧ v = l) ∨
  (e.eq l = false ∧ e.eq r = false ∧ l.isAccess = true ∧ v = r) ∨
  (e.eq l = false ∧ e.eq r = false ∧ l.isAccess = false ∧ r.isAccess = true ∧ v = l)

/-- the last operand compares with a value that undefined may be equal to -/
def UnsafeLast (T : Types) (chain : List Operand) : Prop :=
  ∃ init last, chain = init ++ [last] ∧
    (last.kind = .comparison ∨ (last.kind ∈ [.notNull, .notUndef, .notBoth] ∧ ∃ prev, init.getLast? = some prev ∧ prev.expr.size < last.expr.size)) ∧
    ∃ l o t r v, last.node.skip = .binary l o t r ∧ OtherSide last.expr l.skip r.skip v ∧ ¬ SafeValue o (T v)

/-- `x && x?.y` -/
def OneMore (x y : Expr) : Prop := ∃ t, partMarks y = partMarks x ++ [(t, true)]

/-- `x && x.a?.b`: the texts go on, with a question mark somewhere after the first -/
def GoesOn (x y : Expr) : Prop := x.size < y.size ∧ partTexts x <+: partTexts y ∧ ∃ p ∈ (flat false y).drop x.size, p.optional = true

/-- why an AND chain is passed over -/
inductive AndPassed (O : Options) (T : Types) (chain : List Operand) : Prop
  | markedFirst (first : Operand) : chain.head? = some first → HasMark first.expr → (first.kind = .plain ∨ (first.kind ∈ [.notNull, .notUndef] ∧ ¬ Split chain)) → AndPassed O T chain
  | repeated : 2 ≤ chain.length → (∀ x ∈ chain, ∀ y ∈ chain, partTexts x.expr = partTexts y.expr) → AndPassed O T chain
  | strictThenMarked (first : Operand) : chain.head? = some first → 2 ≤ chain.length → LaterMarked chain → (∃ x ∈ chain, x.kind ∈ [.notNull, .notUndef]) →
      (∀ x ∈ chain, x.kind ∉ [.not, .negated, .notBoth, .isBoth]) → NullAndUndef (T first.expr) → AndPassed O T chain
  | optionalCompared (x y : Operand) : chain = [x, y] → HasMark y.expr → OneMore x.expr y.expr → y.kind = .comparison → AndPassed O T chain
  | optionalAlready (x y : Operand) : chain = [x, y] → HasMark y.expr → ¬ OneMore x.expr y.expr → GoesOn x.expr y.expr → AndPassed O T chain
  | voidTest (first : Operand) : chain.head? = some first → first.kind = .plain → .void ∈ T first.expr → AndPassed O T chain
  | leftOut (first : Operand) : chain.head? = some first → first.kind = .plain → LeftOut O (T first.expr.base) → AndPassed O T chain
  | literalTest (first : Operand) : O.allowUnsafe = false → chain.head? = some first → first.kind = .plain → LiteralType (T first.expr) → AndPassed O T chain
  | bang (x : Operand) (e : Expr) : O.allowUnsafe = false → x ∈ chain → x.node = .nonNull e → AndPassed O T chain
  | incomplete : O.allowUnsafe = false → Incomplete T chain → AndPassed O T chain
  | typeofCall (x y : Operand) : chain = [x, y] → (∃ z ∈ chain, z.kind = .typeof ∧ ¬ CanBe (T z.expr)) → y.expr.skip.isCall = true → AndPassed O T chain
  | unsafeLast : O.allowUnsafe = false → UnsafeLast T chain → AndPassed O T chain

/-- why the rewrite of an AND chain is only suggested -/
inductive AndAsks (O : Options) (T : Types) (chain : List Operand) : Prop
  | mayReturnAnother (before : List Operand) (s l : Operand) : O.allowUnsafe = false → chain = before ++ [s, l] →
      l.kind ∉ [.isBoth, .notBoth, .isUndef, .notUndef, .typeof, .comparison, .notNull] → ¬ StrictThenPlain before s l →
      (∀ x ∈ chain, .undef ∉ T x.expr ∧ ¬ Untyped (T x.expr)) → AndAsks O T chain
  | explicitThenTest (first : Operand) (middle : List Operand) (last : Operand) : O.allowUnsafe = false → chain = first :: middle ++ [last] → first.kind ∈ [.notBoth, .notNull, .notUndef] →
      last.kind = .plain → ¬ Untyped (T first.expr) → AndAsks O T chain
  | pair (init : List Operand) (s l : Operand) : O.allowUnsafe = false → chain = init ++ [s, l] → Pair s l → (l.kind = .typeof ∨ s.kind = .notNull) → AndAsks O T chain

end Tsgolint.OptionalChain
