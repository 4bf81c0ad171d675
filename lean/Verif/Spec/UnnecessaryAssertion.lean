import Verif.Model.UnnecessaryAssertion
/-!
# When an assertion is unnecessary
-/
namespace Tsgolint.UnnecessaryAssertion
variable {N T : Type}

/-! ### Places in the syntax tree -/

/-- A property of the value is written to: `(x as T).a.b = …`; between them there are only accesses and parentheses. -/
def WrittenThrough (W : World N T) (node : N) : Prop :=
  ∃ between access above, W.ancestors node = between ++ access :: above ∧ (∀ x ∈ between, W.kind x = .paren ∨ W.kind x = .propertyAccess ∨ ∃ e, W.kind x = .elementAccess e) ∧
    (W.kind access = .propertyAccess ∨ ∃ e, W.kind access = .elementAccess e) ∧ W.writeAccess access = true

/-- Of a chain of ancestors, the innermost that is not a pair of parentheses, and what lies above it. -/
def Outer (W : World N T) (chain : List N) (outer : N) (above : List N) : Prop :=
  ∃ parens, chain = parens ++ outer :: above ∧ (∀ x ∈ parens, W.kind x = .paren) ∧ W.kind outer ≠ .paren

/-- The same, with what lies directly within it. -/
def Outside (W : World N T) (node inner outer : N) (above : List N) : Prop :=
  ∃ parens, W.ancestors node = parens ++ outer :: above ∧ (∀ x ∈ parens, W.kind x = .paren) ∧ W.kind outer ≠ .paren ∧ inner = (node :: parens).getLast (by simp)

/-- `a[x as T]` -/
def IsIndex (W : World N T) (node : N) : Prop := ∃ inner outer above, Outside W node inner outer above ∧ W.kind outer = .elementAccess inner

/-- The `i`-th argument of a call or `new` is the node, possibly in parentheses, and no earlier one is. -/
def IsArgument (W : World N T) (callOrNew node : N) (i : Nat) : Prop :=
  ∃ callee args typeArguments a, (W.kind callOrNew = .call callee args typeArguments ∨ W.kind callOrNew = .construct callee args typeArguments) ∧
    args[i]? = some a ∧ (a = node ∨ W.skip a = node) ∧ ∀ j b, j < i → args[j]? = some b → ¬ (b = node ∨ W.skip b = node)

/-- A call or `new` without type arguments of something with a generic call signature; method calls that have the node itself as an argument do not count. -/
def Infers (W : World N T) (node c : N) : Prop :=
  ∃ callee args, ((W.kind c = .call callee args false ∧ ¬ ((W.kind callee = .propertyAccess ∨ ∃ e, W.kind callee = .elementAccess e) ∧ node ∈ args)) ∨
      W.kind c = .construct callee args false) ∧ ∃ s ∈ W.callSignatures (W.typeAt callee), s.generic = true

/-- Functions and arrow functions -/
def IsFunction (W : World N T) (n : N) : Prop := (∃ b a, W.kind n = .functionExpression b a) ∨ ∃ body b a, W.kind n = .arrow body b a
/-- with a block as the body -/
def HasBlock (W : World N T) (n : N) : Prop := (∃ a, W.kind n = .functionExpression true a) ∨ ∃ body a, W.kind n = .arrow body true a

/-- The type arguments of a call around the node are inferred, and the node may take part in that: between them there is no function with a block, and at most one without. -/
def GenericContext (W : World N T) (node : N) : Prop :=
  ∃ between c above, W.ancestors node = between ++ c :: above ∧ Infers W node c ∧
    (∀ x ∈ between, W.kind x ≠ .functionDeclaration ∧ ¬ HasBlock W x) ∧
    ∀ l m r x y, between = l ++ x :: m ++ y :: r → ¬ (IsFunction W x ∧ IsFunction W y)

/-- The node is the value of a property of the object literal; with the ancestors of the literal. -/
def PropertyOf (W : World N T) (node object : N) (above : List N) : Prop :=
  ∃ p, W.ancestors node = p :: object :: above ∧ W.kind p = .propertyAssignment node ∧ ∃ n, W.kind object = .objectLiteral n

/-! ### Types -/

/-- Lists of properties and constituents have no duplicates. -/
structure Proper (E : Types T) : Prop where
  names : ∀ t, ((E.properties t).map (·.name)).Nodup
  parts : ∀ t, (E.unionParts t).Nodup

/-- The same properties, and the same ones readonly. -/
def SameProperties (E : Types T) (u c : T) : Prop :=
  ∀ name readonly, (∃ p ∈ E.properties u, p.name = name ∧ p.readonly = readonly) ↔ ∃ p ∈ E.properties c, p.name = name ∧ p.readonly = readonly

/-- The same constituents, but for `undefined`. -/
def SameParts (E : Types T) (u c : T) : Prop := ∀ t, E.undefined t = false → (t ∈ E.unionParts u ↔ t ∈ E.unionParts c)

/-- Every value fits: `object`, or nothing is required of a value, neither properties nor that it can be called, constructed or indexed. -/
def EmptyObject (E : Types T) (t : T) : Prop :=
  E.nonPrimitive t = true ∨ (E.properties t = [] ∧ E.callSignatures t = [] ∧ E.constructible t = false ∧ E.indexed t = false)

/-- `T & {}` for a type parameter `T` that cannot be null or undefined. -/
def AddsNothing (E : Types T) (u c : T) : Prop :=
  ∃ other k, other ≠ u ∧ (E.types c = [u, other] ∨ E.types c = [other, u]) ∧ E.typeParameter u = true ∧ EmptyObject E other ∧
    E.containsVariable other = false ∧ E.baseConstraint u = some k ∧ E.nullable k = false

/-- An expression whose type may depend on the assertion. -/
def FreshLiteral (W : World N T) (e : N) (cast : T) : Prop :=
  (∃ n, W.kind e = .objectLiteral n ∧ (n = 0 ∨ ∃ p ∈ W.properties cast, p.literal = true)) ∨ (∃ l, W.kind e = .arrayLiteral l) ∨ IsFunction W e ∨
    W.kind e = .null ∨ W.kind e = .template ∨ W.kind e = .literal

/-- Nothing is hidden from the comparison by `object`, index signatures, `any` or type variables. -/
def Comparable (E : Types T) (u c : T) : Prop :=
  (E.nonPrimitive u = true → E.nonPrimitive c = true) ∧ ((∃ p ∈ E.unionParts u, E.indexed p = true) ↔ ∃ p ∈ E.unionParts c, E.indexed p = true) ∧
    E.containsAny u = false ∧ E.containsAny c = false ∧ (E.containsVariable c = true → E.containsVariable u = true)

/-- The assertion does not change the type. -/
def Unchanged (W : World N T) (node : N) (intersectionNode : Bool) (expression : N) (u c : T) : Prop :=
  u = c ∨
  (¬ (W.typeParameter u = true ∧ WrittenThrough W node) ∧ ¬ (W.noUncheckedIndexedAccess = true ∧ IsIndex W node) ∧
   ¬ (intersectionNode = true ∧ W.containsVariable c = true) ∧
   ((W.exactOptionalPropertyTypes = true ∧ W.undefined u = true ∧ W.undefined c = true ∧ SameParts W.toTypes u c) ∨
    (¬ (W.exactOptionalPropertyTypes = true ∧ W.undefined u = true ∧ W.undefined c = true) ∧ Comparable W.toTypes u c ∧ ¬ FreshLiteral W expression c ∧
     ((W.intersection c = true ∧ W.intersection u = false ∧ AddsNothing W.toTypes u c) ∨
      (¬ (W.intersection c = true ∧ W.intersection u = false) ∧ SameProperties W.toTypes u c ∧ W.typeArguments u = W.typeArguments c ∧
       W.assignable u c = true ∧ W.assignable c u = true)))))

/-! ### The expression without the assertion -/

/-- A call, `new` or tagged template, possibly awaited. -/
inductive CallLike (W : World N T) : N → Prop
  | call {e c a t} : W.kind e = .call c a t → CallLike W e
  | construct {e c a t} : W.kind e = .construct c a t → CallLike W e
  | tagged {e} : W.kind e = .taggedTemplate → CallLike W e
  | await {e x} : W.kind e = .await x → CallLike W (W.skip x) → CallLike W e

/-- The first expression on the way inwards that is not an assertion. -/
inductive Innermost (W : World N T) : N → N → Prop
  | here {e} : (∀ x, W.kind e ≠ .asExpression x) → (∀ x, W.kind e ≠ .angleBracket x) → Innermost W e e
  | inside {e x o} : W.kind e = .asExpression x ∨ W.kind e = .angleBracket x → Innermost W (W.skip x) o → Innermost W e o

/-- A function called where it is written. -/
def Iife (W : World N T) (e f : N) : Prop := ∃ callee args t, W.kind (W.skip e) = .call callee args t ∧ f = W.skip callee ∧ IsFunction W f

/-- It has a return type. -/
def Annotated (W : World N T) (f : N) : Prop := (∃ b, W.kind f = .functionExpression b true) ∨ ∃ body b, W.kind f = .arrow body b true

/-- The type an expression has on its own, not inferring it from what it is asserted to be. -/
def OwnType (W : World N T) (e : N) (t : T) : Prop :=
  (CallLike W e ∧ (W.contextFree e = some t ∨ (W.contextFree e = none ∧ t = W.typeAt e))) ∨ (¬ CallLike W e ∧ t = W.typeAt e)

/-- The type of the operand: of a function called where it is written, what the function returns (`void` for `undefined`, if it does not say). -/
def UncastType (W : World N T) (operand : N) (t : T) : Prop :=
  (∃ f s rest, Iife W (W.skip operand) f ∧ W.callSignatures (W.typeAt f) = s :: rest ∧
    ((¬ Annotated W f ∧ W.undefined s.result = true ∧ t = W.voidType) ∨ (¬ (¬ Annotated W f ∧ W.undefined s.result = true) ∧ t = s.result))) ∨
  ((∀ f, Iife W (W.skip operand) f → W.callSignatures (W.typeAt f) = []) ∧ OwnType W (W.skip operand) t)

/-- A variable declared with a conditional type has that type, even if the two have the same. -/
def DeclaredType (W : World N T) (operand : N) (u0 c u : T) : Prop :=
  (u0 = c ∧ (∃ name, W.kind (W.skip operand) = .identifier name) ∧ W.symbolType (W.skip operand) = some u ∧ W.conditional u = true) ∨
  (¬ (u0 = c ∧ (∃ name, W.kind (W.skip operand) = .identifier name) ∧ ∃ s, W.symbolType (W.skip operand) = some s ∧ W.conditional s = true) ∧ u = u0)

/-- One type parameter is constrained to another, directly or not. -/
inductive Constrained (W : World N T) (target : T) : T → Prop
  | same : Constrained W target target
  | parameter {s k} : W.typeParameter s = true → W.parameterConstraint s = some k → Constrained W target k → Constrained W target s
  | intersection {s p} : W.typeParameter s = false → W.intersection s = true → p ∈ W.types s → Constrained W target p → Constrained W target s

/-! ### The reports -/

/-- Literals keep their type without the assertion only as the values of constants. -/
def Inferred (W : World N T) (a : Assertion N) : Prop :=
  if W.literal (W.typeAt a.node) then
    W.kind a.operand ≠ .template ∧ ∃ p above, W.ancestors a.node = p :: above ∧
      ((∃ i b l, W.kind p = .variableDeclaration i b ∧ above.head? = some l ∧ W.kind l = .variableDeclarationList true) ∨ W.kind p = .propertyDeclaration true)
  else a.const = false

/-- The options exempt the assertion. -/
def Exempt (W : World N T) (opts : Options) (a : Assertion N) : Prop :=
  a.typeText ∈ opts.typesToIgnore ∨ (opts.checkLiteralConstAssertions = false ∧ W.literal (W.typeAt a.node) = true ∧ a.const = true)

/-- The generic methods required of what receives the value are generic in the value. -/
def GenericsMatch (E : Types T) (u ctx : T) : Prop := ∀ p ∈ E.properties ctx, p.generic = true → ∃ q, E.property u p.name = some q ∧ q.generic = true

/-- An empty type with type arguments. -/
def Phantom (E : Types T) (t : T) : Prop := EmptyObject E t ∧ E.typeArguments t ≠ []

/-- What receives the value accepts it as it is. -/
def Accepts (W : World N T) (a : Assertion N) (u c ctx : T) (castIsAny : Prop) : Prop :=
  a.const = false ∧ W.containsAny u = false ∧
  ((W.any ctx = false ∧ W.containsAny ctx = false ∧ W.assignable u ctx = true) ∨
   (W.any ctx = true ∧ W.containsAny c = false ∧ ∃ inner outer above i, Outside W a.node inner outer above ∧ IsArgument W outer a.node i)) ∧
  (GenericContext W a.node → Phantom W.toTypes u ∨ Phantom W.toTypes ctx → W.typeArguments u = W.typeArguments ctx) ∧
  (castIsAny ∨ GenericsMatch W.toTypes u ctx) ∧
  ¬ (W.union c = true ∧ (W.kind (W.skip a.operand) = .null ∨ W.kind (W.skip a.operand) = .identifier "undefined"))

/-! ### Where what receives the value does not count -/

/-- The value is asserted again, spread, or has to satisfy a type. -/
def Reasserted (W : World N T) (node : N) : Prop :=
  ∃ outer above, Outer W (W.ancestors node) outer above ∧
    ((∃ e, W.kind outer = .asExpression e) ∨ (∃ e, W.kind outer = .angleBracket e) ∨ W.kind outer = .spreadElement ∨ W.kind outer = .spreadAssignment ∨ W.kind outer = .satisfies)

/-- An object literal, by its ancestors, is asserted or satisfies a type, or a call of it does. -/
def ObjectAsserted (W : World N T) (chain : List N) : Prop :=
  ∃ q above, chain = q :: above ∧ ((∃ e, W.kind q = .asExpression e) ∨ (∃ e, W.kind q = .angleBracket e) ∨ W.kind q = .satisfies ∨
    ((∃ c a t, W.kind q = .call c a t) ∧ ∃ r, above.head? = some r ∧ W.kind r = .satisfies))

/-- The value of a property of an object that may be of several types, where it might decide which; or of an object that is itself asserted. -/
def Problematic (W : World N T) (node operand : N) : Prop :=
  ∃ object above, PropertyOf W node object above ∧
    ((∃ ctx, W.contextual object = some ctx ∧ W.union ctx = true ∧
        ∀ d, W.contextual node = some d → W.union (W.nonNullable d) = true ∨ W.assignable (W.typeAt operand) (W.nonNullable d) = false) ∨
     ((∀ ctx, W.contextual object = some ctx → W.union ctx = false) ∧ ObjectAsserted W above))

/-- The value of a property of an object that an arrow function returns, in a generic context. -/
def CallbackResult (W : World N T) (node : N) : Prop :=
  ∃ object above f above' body b a, PropertyOf W node object above ∧ Outer W above f above' ∧ W.kind f = .arrow body b a ∧ W.skip body = object ∧ GenericContext W node

/-- The right side of an assignment whose value is used. -/
def AssignedInExpression (W : World N T) (node : N) : Prop :=
  ∃ p above op l, W.ancestors node = p :: above ∧ W.kind p = .binary op l node ∧ op ≠ .other ∧ ∀ s, above.head? = some s → W.kind s ≠ .expressionStatement

/-- The right side of `&&=`, `||=`, `??=`. -/
def LogicallyAssigned (W : World N T) (node : N) : Prop := ∃ p above l, W.ancestors node = p :: above ∧ W.kind p = .binary .logicalAssign l node

/-- The initial value of a binding pattern. -/
def Destructured (W : World N T) (node : N) : Prop := ∃ p above, W.ancestors node = p :: above ∧ W.kind p = .variableDeclaration (some node) true

/-- The type of an argument, by the signature; of a rest parameter, its first type argument. -/
def ParameterAt (W : World N T) (s : Signature T) (i : Nat) (t : T) : Prop :=
  ∃ p, s.params[i]? = some p ∧ ((p.rest = true ∧ (W.typeArguments p.type).head? = some t) ∨ ((p.rest = false ∨ W.typeArguments p.type = []) ∧ t = p.type))

/-- The argument of a function with several signatures that differ in this argument, and not all accept the value. -/
def Overloaded (W : World N T) (node operand : N) : Prop :=
  ∃ outer above i callee args t, Outer W (W.ancestors node) outer above ∧ IsArgument W outer node i ∧
    (W.kind outer = .call callee args t ∨ W.kind outer = .construct callee args t) ∧ 2 ≤ (W.callSignatures (W.typeAt callee)).length ∧
    ((∃ s ∈ W.callSignatures (W.typeAt callee), s.params.length ≤ i) ∨
     ((∃ s ∈ W.callSignatures (W.typeAt callee), ∃ s' ∈ W.callSignatures (W.typeAt callee), ∃ x y, ParameterAt W s i x ∧ ParameterAt W s' i y ∧ x ≠ y) ∧
      ∃ s ∈ W.callSignatures (W.typeAt callee), ∃ x, ParameterAt W s i x ∧ W.assignable (W.typeAt operand) x = false))

/-- Following indices into tuples (the last element stands for all further ones) and arrays, as far as there are elements. -/
inductive ElementAt (W : World N T) : T → List Nat → T → Prop
  | done {t} : ElementAt W t [] t
  | tuple {t i path e r} : W.tuple t = true → (W.tupleArguments t)[min i ((W.tupleArguments t).length - 1)]? = some e → ElementAt W e path r → ElementAt W t (i :: path) r
  | array {t i path e r} : W.tuple t = false → W.numberIndex t = some e → ElementAt W e path r → ElementAt W t (i :: path) r
  | emptyTuple {t i path} : W.tuple t = true → W.tupleArguments t = [] → ElementAt W t (i :: path) t
  | notArray {t i path} : W.tuple t = false → W.numberIndex t = none → ElementAt W t (i :: path) t

/-- The type of the `i`-th argument by a signature with at least one parameter: further arguments belong to the last parameter; in rest parameters (arrays have one type argument, tuples several) they count on. -/
def ArgumentType (W : World N T) (s : Signature T) (i : Nat) (t : T) : Prop :=
  ∃ p, s.params[min i (s.params.length - 1)]? = some p ∧
    ((p.rest = true ∧ ∃ x, W.typeArguments p.type = [x] ∧ t = x) ∨
     (p.rest = true ∧ 2 ≤ (W.typeArguments p.type).length ∧ (W.typeArguments p.type)[min (i - (s.params.length - 1)) ((W.typeArguments p.type).length - 1)]? = some t) ∨
     ((p.rest = false ∨ W.typeArguments p.type = []) ∧ t = p.type))

/-- The type of (an element within) the argument takes part in inferring the type arguments. -/
def TakesPart (W : World N T) (callOrNew : N) (i : Nat) (path : List Nat) : Prop :=
  ∃ s t r, W.resolved callOrNew = some s ∧ s.generic = true ∧ ArgumentType W s i t ∧ ElementAt W t path r ∧ W.containsVariable r = true

/-- The node is the `i`-th element of the array literal, and no earlier one; parentheses do not matter. -/
def IsElement (W : World N T) (node array : N) (i : Nat) : Prop :=
  ∃ es e, W.kind array = .arrayLiteral es ∧ es[i]? = some e ∧ (e = node ∨ W.skip e = W.skip node) ∧ ∀ j x, j < i → es[j]? = some x → ¬ (x = node ∨ W.skip x = W.skip node)

/-- An array literal, by its ancestors, is the `j`-th argument of the call; if it is spread, its `i`-th element is the `j`-th. -/
def ArrayArgument (W : World N T) (array : N) (chain : List N) (i : Nat) (callOrNew : N) (j : Nat) (spread : Bool) : Prop :=
  (spread = false ∧ ∃ above, Outer W chain callOrNew above ∧ W.kind callOrNew ≠ .spreadElement ∧ IsArgument W callOrNew array j) ∨
  (spread = true ∧ ∃ s above above' k, Outer W chain s above ∧ W.kind s = .spreadElement ∧ Outer W above callOrNew above' ∧ IsArgument W callOrNew s k ∧ j = k + i)

/-- It has type arguments. -/
def Instantiated (W : World N T) (n : N) : Prop := ∃ c a, W.kind n = .call c a true ∨ W.kind n = .construct c a true

/-- The array literal lies in (or is spread into) a call with type arguments. -/
def InInstantiated (W : World N T) (chain : List N) : Prop :=
  ∃ c above, Instantiated W c ∧ (Outer W chain c above ∨ ∃ s above', Outer W chain s above' ∧ W.kind s = .spreadElement ∧ Outer W above' c above)

/-- The node (by its ancestors) lies in an array literal that is an argument, and takes part in inferring the type arguments; the innermost such literal decides, and functions are not left. -/
inductive NestedInArray (W : World N T) : N → List N → List Nat → Prop
  | here {child array above path i call j spread} : IsElement W child array i → ArrayArgument W array above i call j spread → ¬ InInstantiated W above →
      TakesPart W call j (if spread then path else i :: path) → NestedInArray W child (array :: above) path
  | element {child array above path i} : IsElement W child array i → (∀ call j spread, ¬ ArrayArgument W array above i call j spread) → ¬ InInstantiated W above →
      NestedInArray W array above (i :: path) → NestedInArray W child (array :: above) path
  | other {child c above path} : ¬ IsFunction W c → (∀ i, ¬ IsElement W child c i) → NestedInArray W c above path → NestedInArray W child (c :: above) path

/-- The type expected by what receives the value does not count. -/
def NoContext (W : World N T) (node operand original : N) (castIsAny : Prop) : Prop :=
  (castIsAny ∧ ((∃ outer above, Outer W (W.ancestors node) outer above ∧ W.logicalExpression outer = true) ∨ GenericContext W node ∨ Problematic W node operand)) ∨
  (¬ castIsAny ∧ (Reasserted W node ∨ (∃ es, W.kind operand = .arrayLiteral es) ∨ NestedInArray W node (W.ancestors node) [] ∨ Destructured W node ∨
    Problematic W node operand ∨ CallbackResult W node ∨ AssignedInExpression W node ∨ LogicallyAssigned W node ∨ Overloaded W node operand ∨
    (GenericContext W node ∧ ¬ ((∃ n, W.kind original = .objectLiteral n) ∨ (∃ l, W.kind original = .arrayLiteral l) ∨ IsFunction W original ∨
        W.kind original = .null ∨ W.kind original = .template ∨ W.kind original = .literal) ∧
      ¬ ∃ outer above v, Outer W (W.ancestors node) outer above ∧ W.kind outer = .propertyAssignment v)))

/-- The types before and after the assertion -/
def TypesAre (W : World N T) (a : Assertion N) (u c : T) : Prop :=
  c = W.typeAt a.node ∧ ∃ u0, UncastType W a.operand u0 ∧ DeclaredType W a.operand u0 c u

/-- The assertion can go: the type stays the same. -/
def Unnecessary (W : World N T) (a : Assertion N) (u c : T) : Prop := Unchanged W a.node a.intersectionNode a.operand u c ∧ Inferred W a

/-- The asserted type is `any`, and this is not asserted again. -/
def CastIsAny (W : World N T) (a : Assertion N) (c : T) : Prop := W.any c = true ∧ ¬ Reasserted W a.node

/-- The type what receives the value expects, if that counts -/
def Receiver (W : World N T) (a : Assertion N) (original : N) (c ctx : T) : Prop :=
  ¬ NoContext W a.node a.operand original (CastIsAny W a c) ∧ W.contextual a.node = some ctx

/-- It accepts the value as it is. -/
def ContextuallyUnnecessary (W : World N T) (a : Assertion N) (original : N) (u c : T) : Prop :=
  ∃ ctx, Receiver W a original c ctx ∧ Accepts W a u c ctx (CastIsAny W a c)

/-- The operand is an assertion, too. -/
def IsDouble (W : World N T) (a : Assertion N) : Prop := ∃ e, W.kind (W.skip a.operand) = .asExpression e ∨ W.kind (W.skip a.operand) = .angleBracket e

/-- The assertions together change nothing. -/
def DoubleUnnecessary (W : World N T) (a : Assertion N) (original : N) (c : T) : Prop :=
  IsDouble W a ∧ Unchanged W a.node a.intersectionNode (W.skip a.operand) (W.typeAt original) c ∧ W.any c = false

/-- By way of `any` or `unknown` to a type, where the original type would do. -/
def DoubleContextual (W : World N T) (a : Assertion N) (original : N) (c : T) : Prop :=
  IsDouble W a ∧ (∃ ctx, Receiver W a original c ctx ∧ W.assignable (W.typeAt original) ctx = true) ∧
  (W.any (W.typeAt (W.skip a.operand)) = true ∨ W.unknown (W.typeAt (W.skip a.operand)) = true) ∧
  ¬ (W.typeParameter (W.typeAt original) = true ∧ W.typeParameter c = true ∧ ¬ Constrained W c (W.typeAt original))

/-- What is to be reported for an assertion. -/
def Verdict (W : World N T) (opts : Options) (a : Assertion N) (r : Outcome N T) : Prop :=
  (Exempt W opts a ∧ r = .nothing) ∨
  ∃ u c original, ¬ Exempt W opts a ∧ TypesAre W a u c ∧ Innermost W (W.skip a.operand) original ∧
    ((Unnecessary W a u c ∧ r = .unnecessary u c) ∨
     (¬ Unnecessary W a u c ∧
      ((ContextuallyUnnecessary W a original u c ∧ r = .contextual) ∨
       (¬ ContextuallyUnnecessary W a original u c ∧
        ((DoubleUnnecessary W a original c ∧ r = .double true original) ∨
         (¬ DoubleUnnecessary W a original c ∧
          ((DoubleContextual W a original c ∧ r = .double false original) ∨
           (¬ DoubleContextual W a original c ∧ r = .nothing))))))))

end Tsgolint.UnnecessaryAssertion
