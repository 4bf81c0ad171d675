import Verif.Model.Nullish
/-! # Specification of prefer-nullish-coalescing: what is reported -/
namespace Tsgolint.Nullish

/-! ## The same expression -/

/-- Without the parentheses around it, and without a `!` after it -/
inductive Bare : Expr → Expr → Prop
  | paren {e u} : Bare e u → Bare (.paren e) u
  | nonNull {e} : Bare (.nonNull e) e
  | plain {e} : (∀ x, e ≠ .paren x) → (∀ x, e ≠ .nonNull x) → Bare e e

/-- Written alike, but for `?.` -/
inductive Equal : Expr → Expr → Prop
  | ident {n} : Equal (.ident n) (.ident n)
  | prop {q q' o o' n} : Equal o o' → Equal (.prop q o n false) (.prop q' o' n false)
  | elem {q q' o o' a a'} : Equal o o' → Equal a a' → Equal (.elem q o a) (.elem q' o' a')
  | null : Equal .null .null
  | this : Equal .this .this
  | str {b t} : Equal (.str b t) (.str b t)
  | num {t} : Equal (.num t) (.num t)
  | big {t} : Equal (.big t) (.big t)

/-- The expression reads a property with this name: `o.n` or `o["n"]`. -/
inductive Reads : Expr → Expr → String → Prop
  | prop {q o n p} : Reads (.prop q o n p) o n
  | elem {q o b t} : t ≠ "" → Reads (.elem q o (.str b t)) o t

/-- The same property of the same object: parentheses, `!`, `?.` and quotes do not matter. -/
inductive Similar : Expr → Expr → Prop
  | equal {a b a' b'} : Bare a a' → Bare b b' → Equal a' b' → Similar a b
  | named {a b a' b' o o' n} : Bare a a' → Bare b b' → Reads a' o n → Reads b' o' n → Similar o o' → Similar a b
  | computed {a b q q' o o' k k'} : Bare a (.elem q o k) → Bare b (.elem q' o' k') → Similar o o' → Equal k k' → Similar a b

/-! ## Places -/

/-- The value (or whether it is truthy) decides what is executed: it is a test, or is passed on to one by `&&`, `||`, `??`, parentheses, a branch of `? :`, the right side of
`,`, or `!`. -/
inductive InTest : List Frame → Prop
  | here {f up} : f.logical = false → f.role = .test → InTest (f :: up)
  | logical {f up} : f.logical = true → InTest up → InTest (f :: up)
  | passed {f up} : f.role ∈ [.paren, .branch, .commaRight, .not] → InTest up → InTest (f :: up)

/-- The value is passed to the global `Boolean`, in the same ways except `!`. -/
inductive InBoolean : List Frame → Prop
  | here {f up} : f.logical = false → f.role = .boolean false → InBoolean (f :: up)
  | logical {f up} : f.logical = true → InBoolean up → InBoolean (f :: up)
  | passed {f up} : f.role ∈ [.paren, .branch, .commaRight] → InBoolean up → InBoolean (f :: up)

/-! ## Types -/

/-- Primitives in common -/
def Primitives.Common (a b : Primitives) : Prop :=
  (a.bigint = true ∧ b.bigint = true) ∨ (a.boolean = true ∧ b.boolean = true) ∨ (a.number = true ∧ b.number = true) ∨ (a.string = true ∧ b.string = true)

/-- The primitives to ignore: all, those of an object, or none -/
def Ignores (o : Options) (p : Primitives) : Prop :=
  (o.ignorePrimitives.objectVal = some p) ∨
  (o.ignorePrimitives.objectVal = none ∧ o.ignorePrimitives.isSet = true ∧ o.ignorePrimitives.boolVal = true ∧ p = ⟨true, true, true, true⟩) ∨
  (o.ignorePrimitives.objectVal = none ∧ ¬ (o.ignorePrimitives.isSet = true ∧ o.ignorePrimitives.boolVal = true) ∧ p = ⟨false, false, false, false⟩)

/-- It can be null or undefined, and has none of the primitives to ignore in it (of `any` and `unknown` that is not known). -/
def TypeEligible (ignored : Primitives) (t : Ty) : Prop :=
  (t.any = true ∨ ∃ p ∈ t.parts, p.null = true ∨ p.undefined = true) ∧
  (ignored = ⟨false, false, false, false⟩ ∨ (t.any = false ∧ ∀ p ∈ t.parts, ∀ q ∈ p.intersection, ¬ q.Common ignored))

/-- A test for truthiness is to be reported: by the type and the place. -/
def Eligible (o : Options) (conditional : Bool) (up : List Frame) (t : Ty) : Prop :=
  (∃ p, Ignores o p ∧ TypeEligible p t) ∧ (o.ignoreConditionalTests = true → ¬ InTest up) ∧
  (o.ignoreBooleanCoercion = true → InBoolean up → conditional = true ∧ ∃ f rest, up = f :: rest ∧ (f.role = .call ∨ ∃ d, f.role = .boolean d))

/-! ## Tests -/

/-- `x`, `x.y`, `x[y]`, `x?.y()` and the like -/
inductive Member : Expr → Prop
  | ident {n} : Member (.ident n)
  | prop {q o n p} : Member (.prop q o n p)
  | elem {q o a} : Member (.elem q o a)
  | chain {i} : Member (.other i true)

/-- A comparison: negated or not, strict or not, and what is compared -/
inductive Compares : Expr → (negated strict : Bool) → List Expr → Prop
  | eq {l r} : Compares (.binary .eq l r) false false [l.skip, r.skip]
  | notEq {l r} : Compares (.binary .notEq l r) true false [l.skip, r.skip]
  | strictEq {l r} : Compares (.binary .strictEq l r) false true [l.skip, r.skip]
  | strictNotEq {l r} : Compares (.binary .strictNotEq l r) true true [l.skip, r.skip]

/-- `null` or `undefined` -/
def NullishLiteral (e : Expr) : Prop := e = .null ∨ e = .ident "undefined"

/-- One comparison, or two of them: `==` joined with `||`, `!=` joined with `&&`; strict if both are. -/
inductive Compared : Expr → (negated strict : Bool) → List Expr → Prop
  | one {e n s xs} : Compares e n s xs → Compared e n s xs
  | either {l r s s' xs ys} : Compares l false s xs → Compares r false s' ys → ¬ (∀ x ∈ xs, NullishLiteral x) → ¬ (∀ y ∈ ys, NullishLiteral y) →
      Compared (.binary .or l r) false (s && s') (xs ++ ys)
  | both {l r s s' xs ys} : Compares l true s xs → Compares r true s' ys → ¬ (∀ x ∈ xs, NullishLiteral x) → ¬ (∀ y ∈ ys, NullishLiteral y) →
      Compared (.binary .and l r) true (s && s') (xs ++ ys)

/-- All that is compared is `null`, `undefined` and the value; `left` is the first place where the value is written. -/
def Only (value : Expr) (nodes : List Expr) (left : Expr) : Prop :=
  ∃ before after, nodes = before ++ left :: after ∧ (∀ x ∈ before, NullishLiteral x) ∧ ¬ NullishLiteral left ∧ Similar left value ∧
    ∀ x ∈ after, NullishLiteral x ∨ Similar x value

/-- The comparisons tell nullish values from others: there is one with `null` or `undefined`; both, or a comparison that is not strict, or the type lacks the other. -/
def Complete (strict : Bool) (nodes : List Expr) (t : Ty) : Prop :=
  (.null ∈ nodes ∧ .ident "undefined" ∈ nodes) ∨
  ((.null ∈ nodes ∨ .ident "undefined" ∈ nodes) ∧ (strict = false ∨ (t.any = false ∧
    (.null ∈ nodes → ∀ p ∈ t.parts, p.undefined = false) ∧ (.ident "undefined" ∈ nodes → ∀ p ∈ t.parts, p.null = false))))

/-- Conditional expressions to report, and the operands of `??` -/
inductive Ternary (o : Options) (typeOf : Expr → Ty) (up : List Frame) (test yes no : Expr) : Expr → Expr → Prop
  | truthy : o.ignoreTernaryTests = false → Member test.skip → Similar test.skip yes → Eligible o true up (typeOf test.skip) → Ternary o typeOf up test yes no test.skip no
  | negated {e} : o.ignoreTernaryTests = false → test.skip = .not e → Member e.skip → Similar e.skip no → Eligible o true up (typeOf e.skip) →
      Ternary o typeOf up test yes no e.skip yes
  | equal {s nodes left} : o.ignoreTernaryTests = false → Compared test.skip false s nodes → Only no nodes left → Complete s nodes (typeOf left) →
      Ternary o typeOf up test yes no left yes
  | notEqual {s nodes left} : o.ignoreTernaryTests = false → Compared test.skip true s nodes → Only yes nodes left → Complete s nodes (typeOf left) →
      Ternary o typeOf up test yes no left no

/-! ## If statements -/

/-- The statement consists of one expression. -/
inductive Single : Stmt → Expr → Prop
  | expression {e} : Single (.expression e) e
  | block {e} : Single (.block [.expression e]) e

/-- If statements to report, and the operands of `??=` -/
inductive If (o : Options) (typeOf : Expr → Ty) (up : List Frame) (test : Expr) (body : Stmt) (hasElse : Bool) : Expr → Expr → Prop
  | negated {e x left right plain} : o.ignoreIfStatements = false → hasElse = false → Single body e → e.skip = .assign plain left right → Member left.skip →
      test.skip = .not x → Member x.skip → Similar x.skip left → Eligible o false up (typeOf x.skip) → If o typeOf up test body hasElse left right
  | equal {e left right plain s nodes first} : o.ignoreIfStatements = false → hasElse = false → Single body e → e.skip = .assign plain left right → Member left.skip →
      Compared test.skip false s nodes → Only left nodes first → Complete s nodes (typeOf left) → If o typeOf up test body hasElse left right

/-! ## Mixed logical expressions -/

/-- Connected with the node by `||` -/
inductive Connected {N : Type} (E : Nodes N) (node left right : N) : N → Prop
  | parent {p} : E.parent node = some p → Connected E node left right p
  | left : Connected E node left right left
  | right : Connected E node left right right
  | up {c l r p} : Connected E node left right c → E.logical c = true → E.binary c = some (.or, l, r) → E.parent c = some p → Connected E node left right p
  | leftOf {c l r} : Connected E node left right c → E.logical c = true → E.binary c = some (.or, l, r) → Connected E node left right l
  | rightOf {c l r} : Connected E node left right c → E.logical c = true → E.binary c = some (.or, l, r) → Connected E node left right r

/-- Connected with `&&` -/
def Mixed {N : Type} (E : Nodes N) (node left right : N) : Prop :=
  ∃ c l r, Connected E node left right c ∧ E.logical c = true ∧ E.binary c = some (.and, l, r)

/-- An assignment is no logical expression. -/
def Sane {N : Type} (E : Nodes N) : Prop := ∀ c, E.logical c = true → E.isAssign c = false

end Tsgolint.Nullish
