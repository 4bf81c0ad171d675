import Verif.Spec.OptionalReport

/-!
# When an OR chain is reported: the reasons why it is not
-/

namespace Tsgolint.OptionalChain

/-- the side a comparison is with: of an access, the other one -/
def ComparedWith (x : Operand) (o : Op) (v : Expr) : Prop :=
  ∃ l t r, x.node.skip = .binary l o t r ∧ ((l.skip.isAccess = true ∧ v = r.skip) ∨ (l.skip.isAccess = false ∧ r.skip.isAccess = true ∧ v = l.skip))

/-- a number, string, boolean, object or array -/
def LiteralExpr (e : Expr) : Prop := e.isLiteralNode = true

/-- a comparison that may be false for undefined: with `!==` of what is neither a literal nor null, with `===` of what is not undefined, with `!=` of what is no literal,
with `==` of what is neither null nor undefined, and by size -/
def UnsafeComparison (x : Operand) : Prop :=
  x.kind = .comparison ∧ ∃ o v, ComparedWith x o v ∧
    match o with
    | .sne => ¬ LiteralExpr v ∧ ¬ NullExpr v
    | .seq => ¬ UndefExpr v
    | .ne => ¬ LiteralExpr v
    | .eq => ¬ NullExpr v ∧ ¬ UndefExpr v
    | .lt | .gt | .le | .ge => True
    | _ => False

/-- a comparison of a member by `==` or `===` with null -/
def NullEquality (x : Operand) : Prop := x.kind = .comparison ∧ ∃ o, (o = .eq ∨ o = .seq) ∧ Compares x o NullExpr

/-- a strict test for null, of a name or a member -/
def TestsNull (x : Operand) : Prop := x.kind ∈ [.isNull, .notNull] ∨ (x.kind = .comparison ∧ Compares x .seq NullExpr)
/-- a strict test for undefined, of a name or a member -/
def TestsUndef (x : Operand) : Prop := x.kind ∈ [.isUndef, .notUndef, .typeof] ∨ (x.kind = .comparison ∧ Compares x .seq UndefExpr)

/-- a test for undefined of something shorter than what the last operand compares with null -/
def ShorterUndef (chain : List Operand) : Prop :=
  ∃ init last, chain = init ++ [last] ∧ TestsNull last ∧ ∃ x ∈ init, TestsUndef x ∧ x.expr.size < last.expr.size

/-- a comparison by `==` with null or `undefined`, not in parentheses -/
def LooseEquality (x : Operand) : Prop :=
  x.kind = .comparison ∧ ∃ l t r, x.node = .binary l .eq t r ∧ ((NullExpr l.skip ∨ NullExpr r.skip) ∨ (l.skip.isUndefName = true ∨ r.skip.isUndefName = true))

/-- an operand that tests for null or undefined strictly, or for something else -/
def StrictOperand (x : Operand) : Prop := x.kind ∉ [.notBoth, .isBoth, .plain, .not] ∧ ¬ LooseEquality x

/-- what can stand after the negation of a name, with what is before and after it -/
def FitsNegation (before : List Operand) (x : Operand) (after : List Operand) : Prop :=
  x.kind = .not ∨ (x.kind = .comparison ∧ ¬ UnsafeComparison x) ∨ (NullishEquality x ∧ after ≠ []) ∨
  x.kind ∈ [.notNull, .notUndef, .notBoth, .isNull, .isBoth, .isUndef, .typeof] ∨
  (x.kind = .plain ∧ after = [] ∧ ∃ y ∈ before, NullishEquality y)

/-- what can stand after an equality with null or undefined: a comparison that is not safe only if it is with null or undefined, and not at the end if the type has both, or any -/
def FitsEquality (t : List Part) (x : Operand) (after : List Operand) : Prop :=
  UnsafeComparison x → NullishEquality x ∧ (after = [] → ¬ NullAndUndef t ∧ ¬ Untyped t)

/-- why an OR chain is passed over, as a whole -/
inductive OrPassed (O : Options) (T : Types) (chain : List Operand) : Prop
  | truths : (∀ x ∈ chain, x.kind = .plain) → OrPassed O T chain
  | onlyNull (first second : Operand) (rest : List Operand) : chain = first :: second :: rest → LaterMarked chain → first.kind = .isNull → .undef ∉ T first.expr → ¬ Untyped (T first.expr) → OrPassed O T chain
  | repeated : 2 ≤ chain.length → (∀ x ∈ chain, ∀ y ∈ chain, partTexts x.expr = partTexts y.expr) → OrPassed O T chain
  | needlessNull (first : Operand) : chain.head? = some first → LaterMarked chain → (first.kind ∈ [.isNull, .isBoth] ∨ NullEquality first) →
      (∀ x ∈ chain, .null ∉ T x.expr ∧ .undef ∉ T x.expr) → OrPassed O T chain
  | strictThenMarked : LaterMarked chain → (∀ x ∈ chain, StrictOperand x) → ((∃ x ∈ chain, .null ∈ T x.expr) ↔ ∃ x ∈ chain, .undef ∈ T x.expr) → OrPassed O T chain
  | negatedName (first : Operand) (a : List Operand) (x : Operand) (b : List Operand) : O.allowUnsafe = false → chain = first :: a ++ x :: b → first.kind = .not → ¬ ReachesIn first.expr →
      ¬ FitsNegation a x b → OrPassed O T chain
  | negatedAccess (first : Operand) (rest : List Operand) (x : Operand) : O.allowUnsafe = false → chain = first :: rest → first.kind = .not → ReachesIn first.expr → x ∈ rest → UnsafeComparison x → OrPassed O T chain
  | equality (first : Operand) (a : List Operand) (x : Operand) (b : List Operand) : O.allowUnsafe = false → chain = first :: a ++ x :: b → first.kind ∈ [.notBoth, .notNull, .notUndef] →
      ¬ FitsEquality (T first.expr) x b → OrPassed O T chain
  | metaProperty (first : Operand) (p : Nat) (new : Bool) (name : Text) : chain.head? = some first → first.kind = .plain → first.expr.skip = .metaProp p new name → OrPassed O T chain
  | plainName (first : Operand) (rest : List Operand) (x : Operand) : O.allowUnsafe = false → chain = first :: rest → first.kind = .plain → ¬ ReachesIn first.expr → x ∈ rest → x.kind = .comparison → OrPassed O T chain

/-! ### Checks for only one of null and undefined -/

/-- a type that a test for only one of them suffices for: it has neither, or not both and not any, and if just the other one is tested for, not only this one -/
def Suffices (isOr : Bool) (chain : List Operand) (t : List Part) : Prop :=
  ¬ CanBe t ∨ (¬ Untyped t ∧ ¬ NullAndUndef t ∧ (OnlyTests isOr .null chain → .undef ∈ t → .null ∈ t) ∧ (OnlyTests isOr .undef chain → .null ∈ t → .undef ∈ t))

/-- the types of all operands are such, and one can be null or undefined -/
def TypesSuffice (T : Types) (chain : List Operand) : Prop := (∀ x ∈ chain, Suffices true chain (T x.expr)) ∧ ∃ x ∈ chain, CanBe (T x.expr)

/-- only null, or only undefined, is tested for, and that is not enough -/
def NotEnough (T : Types) (chain : List Operand) : Prop :=
  (∃ a, a ≠ .both ∧ OnlyTests true a chain) ∧ (∃ x, chain.head? = some x ∧ CanBe (T x.expr)) ∧ (∀ init l, chain = init ++ [l] → init ≠ [] → ¬ HasMark l.expr) ∧ ¬ TypesSuffice T chain

/-- a strict comparison with just one of null and undefined, without a question mark, of a type that has both -/
def Stops (T : Types) (x : Operand) : Prop :=
  ¬ HasMark x.expr ∧ NullAndUndef (T x.expr) ∧
  (x.kind ∈ [.notNull, .notUndef, .isNull, .isUndef] ∨
   (x.kind = .comparison ∧ ∃ l t r, x.node.skip = .binary l .seq t r ∧
      (((NullExpr l ∨ NullExpr r) ∧ ¬ (UndefExpr l ∨ UndefExpr r)) ∨ (¬ (NullExpr l ∨ NullExpr r) ∧ (UndefExpr l ∨ UndefExpr r)))))

/-- the chain is cut after the first operand that stops it, unless that is the last -/
inductive CutAfter (T : Types) (chain : List Operand) : List Operand → Prop
  | whole : (∀ x ∈ chain.dropLast, ¬ Stops T x) → CutAfter T chain chain
  | short (a : List Operand) (x : Operand) (b : List Operand) : chain = a ++ x :: b → b ≠ [] → (∀ y ∈ a, ¬ Stops T y) → Stops T x → CutAfter T chain (a ++ [x])

/-- what is reported of the chain: all of it with unsafe fixes -/
def Left (O : Options) (T : Types) (chain c : List Operand) : Prop := (O.allowUnsafe = true ∧ c = chain) ∨ (O.allowUnsafe = false ∧ CutAfter T chain c)

/-- why what is left of the chain is passed over -/
inductive LeftPassed (O : Options) (T : Types) (chain c : List Operand) : Prop
  | notEnough : O.allowUnsafe = false → NotEnough T chain → LeftPassed O T chain c
  | short : c.length < 2 → LeftPassed O T chain c
  | afterTypeof (first : Operand) (rest : List Operand) (x : Operand) : O.allowUnsafe = false → c = first :: rest → first.kind ∈ [.typeof, .isNull, .isUndef, .isBoth] → x ∈ rest →
      (UnsafeComparison x ∨ x.kind = .plain ∨ x.kind = .not) → LeftPassed O T chain c
  | onlyNull : O.allowUnsafe = false → OnlyTests true .null chain → ¬ TypesSuffice T chain → LeftPassed O T chain c
  | afterNullish (first : Operand) (rest : List Operand) (x : Operand) : O.allowUnsafe = false → c = first :: rest → NullishEquality first → x ∈ rest → UnsafeComparison x → ¬ NullishEquality x → LeftPassed O T chain c
  | strictThenNegated (a : List Operand) (g : Operand) (b : List Operand) (x : Operand) : O.allowUnsafe = false → c = a ++ g :: b → g.kind ∈ [.notNull, .notUndef] →
      (Untyped (T g.expr) ∨ NullAndUndef (T g.expr)) → x ∈ b → x.kind = .not → (compare g.expr x.expr = .equal ∨ compare g.expr x.expr = .subset) → ReachesIn x.expr → LeftPassed O T chain c
  | literalTest (x : Operand) : O.allowUnsafe = false → x ∈ c → x.kind ∈ [.plain, .not] → LiteralType (T x.expr) → LeftPassed O T chain c
  | negatedThenCalled (a : List Operand) (g : Operand) (b : List Operand) (x : Operand) (f : Expr) (o : Bool) (ts : List TyNode) (xs : List Expr) : c = a ++ g :: b → g.kind = .not → x ∈ b →
      x.kind ≠ .not → x.expr.skip = .call f o ts xs → compare g.expr f = .equal → LeftPassed O T chain c

/-! ### Fix or suggestion -/

/-- a type that is just what is tested for, or neither null nor undefined -/
def Matches (chain : List Operand) (t : List Part) : Prop :=
  ¬ CanBe t ∨ (¬ Untyped t ∧ ¬ NullAndUndef t ∧ (OnlyTests true .null chain → Just .null t) ∧ (OnlyTests true .undef chain → Just .undef t))

/-- strict tests whose replacement tests for more than they did -/
def TestsLess (T : Types) (chain : List Operand) : Prop :=
  ((∃ a, a ≠ .both ∧ OnlyTests true a chain) ∧ (∀ x ∈ chain, Matches chain (T x.expr)) ∧ ∃ x ∈ chain, CanBe (T x.expr)) ∨ ShorterUndef chain

/-- why the rewrite of an OR chain is only suggested: it ends in a truth test, or in a comparison that tests for less; and no operand is any, unknown, or both null and undefined -/
def OrAsks (O : Options) (T : Types) (chain : List Operand) : Prop :=
  O.allowUnsafe = false ∧ (∀ x ∈ chain, ¬ Untyped (T x.expr) ∧ ¬ NullAndUndef (T x.expr)) ∧
  ∃ init last, chain = init ++ [last] ∧
    (last.kind ∈ [.plain, .invalid, .negated] ∨ (last.kind ∈ [.comparison, .notNull, .isNull] ∧ TestsLess T chain))

end Tsgolint.OptionalChain
