/-!
# Model of no-unnecessary-type-assertion: which type assertions are reported
(/repo/internal/rules/no_unnecessary_type_assertion/no_unnecessary_type_assertion.go; fixes and `!` are in other modules)

Nodes (`N`) and types (`T`) are the compiler's.
-/
namespace Tsgolint.UnnecessaryAssertion
variable {N T : Type}

/-- Classes of binary operators. -/
inductive Op
  | assign
  | compoundAssign
  /-- `&&=`, `||=`, `??=` -/
  | logicalAssign
  | other
  deriving DecidableEq

/-- The nodes the rule distinguishes. -/
inductive Kind (N : Type)
  | paren
  | propertyAccess
  | elementAccess (argument : N)
  /-- `typeArguments`: it has type arguments -/
  | call (callee : N) (args : List N) (typeArguments : Bool)
  | construct (callee : N) (args : List N) (typeArguments : Bool)
  | taggedTemplate
  | await (operand : N)
  | functionDeclaration
  /-- `block`: the body is a block; `annotated`: it has a return type -/
  | functionExpression (block annotated : Bool)
  | arrow (body : N) (block annotated : Bool)
  | arrayLiteral (elements : List N)
  | objectLiteral (properties : Nat)
  | propertyAssignment (initializer : N)
  /-- `pattern`: the name is a binding pattern -/
  | variableDeclaration (initializer : Option N) (pattern : Bool)
  | variableDeclarationList (const : Bool)
  | propertyDeclaration (readonly : Bool)
  | binary (op : Op) (left right : N)
  | asExpression (operand : N)
  | angleBracket (operand : N)
  | satisfies
  | spreadElement
  | spreadAssignment
  | expressionStatement
  | identifier (name : String)
  | null
  /-- a template with expressions -/
  | template
  /-- class expressions, JSX elements and fragments, string, number, boolean literals, templates without expressions -/
  | literal
  | other

/-- A property of a type. -/
structure Property where
  name : String
  readonly : Bool
  /-- its type is a literal type -/
  literal : Bool
  /-- its type has a call signature with type parameters -/
  generic : Bool

structure Param (T : Type) where
  type : T
  /-- declared with `...` -/
  rest : Bool

structure Signature (T : Type) where
  /-- it has type parameters -/
  generic : Bool
  params : List (Param T)
  result : T

/-- What is asked about types. -/
structure Types (T : Type) where
  any : T → Bool
  unknown : T → Bool
  undefined : T → Bool
  /-- `object` -/
  nonPrimitive : T → Bool
  typeParameter : T → Bool
  intersection : T → Bool
  union : T → Bool
  tuple : T → Bool
  /-- lines 338-340 `isTypeLiteral` -/
  literal : T → Bool
  conditional : T → Bool
  unionParts : T → List T
  /-- `Types()` -/
  types : T → List T
  /-- lines 170-178 `getTypeArguments` -/
  typeArguments : T → List T
  /-- `Checker_getTypeArguments` -/
  tupleArguments : T → List T
  numberIndex : T → Option T
  properties : T → List Property
  /-- `getPropertyOfType` -/
  property : T → String → Option Property
  callSignatures : T → List (Signature T)
  /-- it has construct signatures -/
  constructible : T → Bool
  /-- it has index signatures -/
  indexed : T → Bool
  baseConstraint : T → Option T
  parameterConstraint : T → Option T
  nullable : T → Bool
  nonNullable : T → T
  assignable : T → T → Bool
  voidType : T
  /-- lines 234-244 (C97) -/
  containsAny : T → Bool
  containsVariable : T → Bool

/-- What is asked about nodes. -/
structure World (N T : Type) extends Types T where
  kind : N → Kind N
  /-- `Parent`, its parent, and so on -/
  ancestors : N → List N
  /-- `SkipParentheses` -/
  skip : N → N
  writeAccess : N → Bool
  logicalExpression : N → Bool
  typeAt : N → T
  contextual : N → Option T
  contextFree : N → Option T
  /-- lines 669-675: the resolved signature, traced back to the one it was instantiated from (as `origin` in C97) -/
  resolved : N → Option (Signature T)
  /-- the symbol of an identifier has a type -/
  symbolType : N → Option T
  noUncheckedIndexedAccess : Bool
  exactOptionalPropertyTypes : Bool

/-! ### Types -/

/-- Lines 246-250 `hasIndexSignature` -/
def Types.hasIndexSignature (E : Types T) (t : T) : Bool := (E.unionParts t).any E.indexed

/-- Lines 252-272 `hasSameProperties`; in the map from names to properties the last one wins. -/
def Types.hasSameProperties (E : Types T) (uncast cast : T) : Bool :=
  if (E.properties uncast).length ≠ (E.properties cast).length then false
  else (E.properties uncast).all fun p => match (E.properties cast).reverse.find? (·.name == p.name) with
    | none => false
    | some q => p.readonly == q.readonly

variable [DecidableEq T]

/-- Lines 274-286 `haveSameTypeArguments` -/
def Types.haveSameTypeArguments (E : Types T) (uncast cast : T) : Bool :=
  if (E.typeArguments uncast).length ≠ (E.typeArguments cast).length then false
  else ((E.typeArguments uncast).zip (E.typeArguments cast)).all fun (a, b) => a = b

/-- Lines 296-306: every part of the asserted type is looked up; how many there are. -/
def Types.countParts (E : Types T) (parts : List T) : List T → Nat → Option Nat
  | [], n => some n
  | p :: rest, n =>
    if E.undefined p then countParts E parts rest n
    else if !parts.contains p then none
    else countParts E parts rest (n + 1)

/-- Lines 288-307 `areUnionPartsEquivalentIgnoringUndefined`; the set has every part once. -/
def Types.sameParts (E : Types T) (uncast cast : T) : Bool :=
  let parts := ((E.unionParts uncast).filter (!E.undefined ·)).eraseDups
  match E.countParts parts (E.unionParts cast) 0 with
  | none => false
  | some n => parts.length == n

omit [DecidableEq T] in
/-- Lines 309-315 `isEmptyObjectType` -/
def Types.emptyObject (E : Types T) (t : T) : Bool :=
  E.nonPrimitive t || ((E.properties t).isEmpty && (E.callSignatures t).isEmpty && !E.constructible t && !E.indexed t)

omit [DecidableEq T] in
/-- Lines 317-319 `hasPhantomTypeArguments` -/
def Types.phantom (E : Types T) (t : T) : Bool := E.emptyObject t && !(E.typeArguments t).isEmpty

omit [DecidableEq T] in
/-- Lines 721-748 `genericsMismatch` -/
def Types.genericsMismatch (E : Types T) (uncast contextual : T) : Bool :=
  (E.properties contextual).any fun p =>
    if !p.generic then false
    else match E.property uncast p.name with
      | none => true
      | some q => !q.generic

/-! ### Nodes -/

omit [DecidableEq T] in
/-- Lines 321-336 `isConceptuallyLiteral` -/
def Kind.conceptuallyLiteral : Kind N → Bool
  | .arrayLiteral _ | .objectLiteral _ | .functionExpression .. | .arrow .. | .null | .template | .literal => true
  | _ => false

def Kind.isParen : Kind N → Bool
  | .paren => true
  | _ => false

/-- `IsAccessExpression` -/
def Kind.isAccess : Kind N → Bool
  | .propertyAccess | .elementAccess _ => true
  | _ => false

/-- `IsAsExpression || IsTypeAssertion`: its operand -/
def Kind.assertion? : Kind N → Option N
  | .asExpression e | .angleBracket e => some e
  | _ => none

/-- The callee, the arguments and whether there are type arguments, of calls and `new` -/
def Kind.callOrNew? : Kind N → Option (N × List N × Bool)
  | .call c a t | .construct c a t => some (c, a, t)
  | _ => none

def Kind.isFunction : Kind N → Bool
  | .functionExpression .. | .arrow .. => true
  | _ => false

def Kind.isArray : Kind N → Bool
  | .arrayLiteral _ => true
  | _ => false

def World.parent (W : World N T) (n : N) : Option N := (W.ancestors n).head?

/-- Lines 342-357 `isReceiverOfWriteAccess`, from the parent up; the two loops over parentheses and the one over accesses are one recursion. -/
def World.receiver (W : World N T) : List N → Bool
  | [] => false
  | c :: up =>
    if (W.kind c).isParen then receiver W up
    else if (W.kind c).isAccess then (if W.writeAccess c then true else receiver W up)
    else false

/-- Lines 359-369 `isElementAccessArgument`, from the parent up -/
def World.elementArgument [DecidableEq N] (W : World N T) (current : N) : List N → Bool
  | [] => false
  | p :: up =>
    if (W.kind p).isParen then elementArgument W p up
    else match W.kind p with
      | .elementAccess a => a = current
      | _ => false

/-- Lines 512-518 `parentThroughParens`, with the ancestors above it -/
def World.outOfParens (W : World N T) (up : List N) : List N := up.dropWhile fun p => (W.kind p).isParen

/-- Lines 512-518 -/
def World.parentThroughParens (W : World N T) (n : N) : Option N := (W.outOfParens (W.ancestors n)).head?

variable [DecidableEq N]

/-- Lines 399-406: an expression whose type depends on what it is assigned to. -/
def World.freshLiteral (W : World N T) (expression : N) (cast : T) : Bool :=
  (W.kind expression).conceptuallyLiteral && match W.kind expression with
    | .objectLiteral n => n == 0 || (W.properties cast).any (·.literal)
    | _ => true

/-- Lines 408-430: the asserted type is an intersection, the other is not. -/
def World.addsNothing (W : World N T) (uncast cast : T) : Bool :=
  match (W.types cast).find? (· ≠ uncast) with
  | none => false
  | some other =>
    if W.typeParameter uncast && (W.types cast).length == 2 && (W.types cast).contains uncast && W.emptyObject other && !W.containsVariable other then
      match W.baseConstraint uncast with
      | none => false
      | some c => !W.nullable c
    else false

/-- Lines 371-439 `isTypeUnchanged`; `intersectionNode`: the asserted type is written as an intersection. -/
def World.unchanged (W : World N T) (node : N) (intersectionNode : Bool) (expression : N) (uncast cast : T) : Bool :=
  if uncast = cast then true
  else if W.typeParameter uncast && W.receiver (W.ancestors node) then false
  else if W.noUncheckedIndexedAccess && W.elementArgument node (W.ancestors node) then false
  else if intersectionNode && W.containsVariable cast then false
  else if W.exactOptionalPropertyTypes && W.undefined uncast && W.undefined cast then W.sameParts uncast cast
  else if (W.nonPrimitive uncast && !W.nonPrimitive cast) || (W.hasIndexSignature uncast != W.hasIndexSignature cast) || W.containsAny uncast ||
      W.containsAny cast || (W.containsVariable cast && !W.containsVariable uncast) then false
  else if W.freshLiteral expression cast then false
  else if W.intersection cast && !W.intersection uncast then W.addsNothing uncast cast
  else if !W.hasSameProperties uncast cast || !W.haveSameTypeArguments uncast cast then false
  else W.assignable uncast cast && W.assignable cast uncast

/-- Lines 461-469 `isIIFE`: the called function -/
def World.iife (W : World N T) (expression : N) : Option N :=
  match W.kind (W.skip expression) with
  | .call callee _ _ => if (W.kind (W.skip callee)).isFunction then some (W.skip callee) else none
  | _ => none

/-- Lines 472-482 `isContextSensitiveCallLikeExpression`; `none`: out of fuel -/
def World.contextSensitive (W : World N T) : Nat → N → Option Bool
  | 0, _ => none
  | n + 1, e => match W.kind e with
    | .call .. | .construct .. | .taggedTemplate => some true
    | .await x => contextSensitive W n (W.skip x)
    | _ => some false

/-- `Type() == nil` of the called function -/
def Kind.unannotated : Kind N → Bool
  | .functionExpression _ a => !a
  | .arrow _ _ a => !a
  | _ => true

/-- Lines 501-509: of expressions that are not called functions -/
def World.typeOf (W : World N T) (fuel : Nat) (expression : N) : Option T :=
  (W.contextSensitive fuel expression).map fun b =>
    if b then (W.contextFree expression).getD (W.typeAt expression) else W.typeAt expression

/-- Lines 484-510 `getUncastType` of the operand -/
def World.uncastType (W : World N T) (fuel : Nat) (operand : N) : Option T :=
  let expression := W.skip operand
  match W.iife expression with
  | none => W.typeOf fuel expression
  | some callee => match W.callSignatures (W.typeAt callee) with
    | [] => W.typeOf fuel expression
    | s :: _ => some (if (W.kind callee).unannotated && W.undefined s.result then W.voidType else s.result)

/-- Lines 641-647 `getOriginalExpression`, from the operand without parentheses on; `none`: out of fuel -/
def World.original (W : World N T) : Nat → N → Option N
  | 0, _ => none
  | n + 1, e => match (W.kind e).assertion? with
    | some x => original W n (W.skip x)
    | none => some e

/-- Lines 654-658 -/
def World.argumentIndex (W : World N T) (args : List N) (node : N) : Option Nat :=
  args.findIdx? fun a => a = node || W.skip a = node

/-- Lines 649-660 `isArgumentToParentCallOrNew`: the callee and the index -/
def World.argument (W : World N T) (node : N) : Option (N × Nat) :=
  match W.parentThroughParens node with
  | none => none
  | some p => match (W.kind p).callOrNew? with
    | none => none
    | some (callee, args, _) => (W.argumentIndex args node).map fun i => (callee, i)

/-- Lines 662-666 `hasGenericCallSignature` -/
def World.genericCallee (W : World N T) (t : T) : Bool := (W.callSignatures t).any (·.generic)

/-- Lines 697-714: into the elements of arrays and tuples -/
def World.elementAt (W : World N T) : T → List Nat → T
  | t, [] => t
  | t, i :: path =>
    if W.tuple t then
      match (W.tupleArguments t)[min i ((W.tupleArguments t).length - 1)]? with
      | none => t
      | some e => elementAt W e path
    else match W.numberIndex t with
      | none => t
      | some e => elementAt W e path

/-- Lines 683-696: the type of the parameter an argument belongs to. -/
def World.parameterType (W : World N T) (p : Param T) (beyond : Nat) : T :=
  if p.rest then
    match (W.typeArguments p.type)[if (W.typeArguments p.type).length > 1 then min beyond ((W.typeArguments p.type).length - 1) else 0]? with
    | none => p.type
    | some e => e
  else p.type

/-- Lines 668-719 `hasGenericInferenceParameterAtArgument` -/
def World.inferred (W : World N T) (callOrNew : N) (index : Nat) (path : List Nat) : Bool :=
  match W.resolved callOrNew with
  | none => false
  | some s =>
    if !s.generic then false
    else
      let i := if index ≥ s.params.length then s.params.length - 1 else index
      match s.params[i]? with
      | none => false
      | some p => W.containsVariable (W.elementAt (W.parameterType p (index - i)) path)

/-- Lines 763-781: the types of the parameters at the index; `none`: there is none in some signature. -/
def World.parametersAt (W : World N T) (i : Nat) : List (Signature T) → Option (List T)
  | [] => some []
  | s :: rest => match s.params[i]? with
    | none => none
    | some p => (parametersAt W i rest).map ((if p.rest then (W.typeArguments p.type).head?.getD p.type else p.type) :: ·)

/-- Lines 750-791 `isArgumentToOverloadedFunction`; `operand` is the operand of the assertion. -/
def World.overloaded (W : World N T) (node operand : N) : Bool :=
  match W.argument node with
  | none => false
  | some (callee, i) =>
    let signatures := W.callSignatures (W.typeAt callee)
    if signatures.length ≤ 1 then false
    else match W.parametersAt i signatures with
      | none => true
      | some ts =>
        if ts.any (fun t => some t ≠ ts.head?) then ts.any fun t => !W.assignable (W.typeAt operand) t
        else false

/-- Lines 793-798 `isInDestructuringDeclaration` -/
def World.destructuring (W : World N T) (node : N) : Bool :=
  match (W.parent node).map W.kind with
  | some (.variableDeclaration i pattern) => i = some node && pattern
  | _ => false

/-- Lines 801-808, 927-934: the object literal, and its ancestors, if the node is the value of a property of it -/
def World.propertyOf (W : World N T) (node : N) : Option (N × List N) :=
  match W.ancestors node with
  | p :: o :: up => match W.kind p with
    | .propertyAssignment i => if i = node then (match W.kind o with | .objectLiteral _ => some (o, up) | _ => none) else none
    | _ => none
  | _ => none

/-- Lines 820-826: the object literal is asserted or satisfies something, or is called and that does. -/
def World.asserted (W : World N T) : List N → Bool
  | [] => false
  | q :: up => match W.kind q with
    | .asExpression _ | .angleBracket _ | .satisfies => true
    | .call .. => match up.head?.map W.kind with
      | some .satisfies => true
      | _ => false
    | _ => false

/-- Lines 800-827 `isPropertyInProblematicContext` -/
def World.problematic (W : World N T) (node operand : N) : Bool :=
  match W.propertyOf node with
  | none => false
  | some (o, up) =>
    match W.contextual o with
    | none => W.asserted up
    | some c =>
      if W.union c then
        match W.contextual node with
        | none => true
        | some d => if W.union (W.nonNullable d) then true else !W.assignable (W.typeAt operand) (W.nonNullable d)
      else W.asserted up

/-- Lines 829-835 `isAssignmentInNonStatementContext` -/
def World.assignedInExpression (W : World N T) (node : N) : Bool :=
  match W.ancestors node with
  | [] => false
  | p :: up => match W.kind p with
    | .binary op _ right => op ≠ .other && right = node && (match up.head?.map W.kind with | some .expressionStatement => false | _ => true)
    | _ => false

/-- Lines 837-843 `isRightHandSideOfLogicalAssignment` -/
def World.logicallyAssigned (W : World N T) (node : N) : Bool :=
  match (W.parent node).map W.kind with
  | some (.binary op _ right) => right = node && op = .logicalAssign
  | _ => false

/-- Lines 860-868: the call argument an array literal is or is spread into, the ancestors above it, and how far it is moved. -/
def World.callArgument (W : World N T) (array : N) (up : List N) (i : Nat) : N × List N × Nat :=
  match W.outOfParens up with
  | p :: up' => (match W.kind p with
    | .spreadElement => (p, W.outOfParens up', i)
    | _ => (array, p :: up', 0))
  | [] => (array, [], 0)

/-- Lines 884-887: the position of a spread array literal itself does not count. -/
def World.elementPath (W : World N T) (arg : N) (path : List Nat) : List Nat :=
  match W.kind arg with
  | .spreadElement => path.tail
  | _ => path

/-- Lines 860-889: for an array literal; `none`: the search goes on. -/
def World.arrayArgument (W : World N T) (array : N) (up : List N) (i : Nat) (path : List Nat) : Option Bool :=
  match W.callArgument array up i with
  | (_, [], _) => none
  | (arg, p :: _, offset) => match (W.kind p).callOrNew? with
    | none => none
    | some (_, args, typeArguments) =>
      if typeArguments then some false
      else match W.argumentIndex args arg with
        | none => none
        | some j => some (W.inferred p (j + offset) (W.elementPath arg path))

/-- Lines 845-891 `isNestedInArrayLiteralArgumentToGenericCall`, from the parent up -/
def World.nestedInArray (W : World N T) : N → List N → List Nat → Bool
  | _, [], _ => false
  | child, c :: up, path =>
    match W.kind c with
    | .functionExpression .. | .arrow .. => false
    | .arrayLiteral elements => match elements.findIdx? (fun e => e = child || W.skip e = W.skip child) with
      | none => nestedInArray W c up path
      | some i => match W.arrayArgument c up i (i :: path) with
        | some b => b
        | none => nestedInArray W c up (i :: path)
    | _ => nestedInArray W c up path

/-- Lines 909-922: the call is of a generic function, and has to infer its type arguments. -/
def World.infers (W : World N T) (node : N) : Kind N → Bool
  | .call callee args typeArguments =>
    if typeArguments then false
    else if (W.kind callee).isAccess && args.contains node then false
    else W.genericCallee (W.typeAt callee)
  | .construct callee _ typeArguments => if typeArguments then false else W.genericCallee (W.typeAt callee)
  | _ => false

/-- Lines 893-924 `isInGenericContext`, from the parent up -/
def World.genericFrom (W : World N T) (node : N) : Bool → List N → Bool
  | _, [] => false
  | seenFunction, c :: up =>
    match W.kind c with
    | .functionDeclaration => false
    | .functionExpression block _ => if block then false else if seenFunction then false else genericFrom W node true up
    | .arrow _ block _ => if block then false else if seenFunction then false else genericFrom W node true up
    | k => if W.infers node k then true else genericFrom W node seenFunction up

/-- Lines 893-924 -/
def World.genericContext (W : World N T) (node : N) : Bool := W.genericFrom node false (W.ancestors node)

/-- Lines 926-941 `isPropertyInInferredCallbackReturn` -/
def World.callbackResult (W : World N T) (node : N) : Bool :=
  match W.propertyOf node with
  | none => false
  | some (o, up) => match (W.outOfParens up).head?.map W.kind with
    | some (.arrow body _ _) => W.skip body = o && W.genericContext node
    | _ => false

/-- Lines 943-951 `skipParentTypeForContextualAny` -/
def World.reasserted (W : World N T) (node : N) : Bool :=
  match (W.parentThroughParens node).map W.kind with
  | some (.asExpression _) | some (.angleBracket _) | some .spreadElement | some .spreadAssignment | some .satisfies => true
  | _ => false

/-- `IsPropertyAssignment` of the parent -/
def World.propertyValue (W : World N T) (node : N) : Bool :=
  match (W.parentThroughParens node).map W.kind with
  | some (.propertyAssignment _) => true
  | _ => false

/-- Lines 953-980 `shouldSkipContextualTypeFallback`; `original` is the innermost operand (line 974). -/
def World.skipContext (W : World N T) (node operand original : N) (castIsAny : Bool) : Bool :=
  if castIsAny then
    (match W.parentThroughParens node with | some p => W.logicalExpression p | none => false) || W.genericContext node || W.problematic node operand
  else if W.reasserted node || (W.kind operand).isArray || W.nestedInArray node (W.ancestors node) [] ||
      W.destructuring node || W.problematic node operand || W.callbackResult node || W.assignedInExpression node || W.logicallyAssigned node ||
      W.overloaded node operand then true
  else if W.genericContext node then !(W.kind original).conceptuallyLiteral && !W.propertyValue node
  else false

/-- Lines 982-987 `hasPhantomTypeArgumentMismatch` -/
def World.phantomMismatch (W : World N T) (node : N) (uncast contextual : T) : Bool :=
  W.genericContext node && (W.phantom uncast || W.phantom contextual) && !W.haveSameTypeArguments uncast contextual

/-- Lines 989-994 `isNullishLiteralToUnion` -/
def World.nullishToUnion (W : World N T) (operand : N) (cast : T) : Bool :=
  W.union cast && match W.kind (W.skip operand) with
    | .null => true
    | .identifier name => name == "undefined"
    | _ => false

/-! ### Constraints of type parameters -/

/-- Lines 1005-1029 `isConstrainedTo`: the answer and the types seen; `none`: out of fuel -/
def World.constrained (W : World N T) (target : T) : Nat → Option T → List T → Option (Bool × List T)
  | 0, _, _ => none
  | n + 1, source, seen =>
    if source = some target then some (true, seen)
    else match source with
      | none => some (false, seen)
      | some s =>
        if seen.contains s then some (false, seen)
        else if W.typeParameter s then constrained W target n (W.parameterConstraint s) (s :: seen)
        else if W.intersection s then some? (constrained W target n) (W.types s) (s :: seen)
        else some (false, s :: seen)
where
  /-- `slices.ContainsFunc` -/
  some? (f : Option T → List T → Option (Bool × List T)) : List T → List T → Option (Bool × List T)
    | [], seen => some (false, seen)
    | t :: ts, seen => (f (some t) seen).bind fun (b, seen) => if b then some (true, seen) else some? f ts seen

/-! ### The listener -/

/-- What an assertion consists of. -/
structure Assertion (N : Type) where
  node : N
  operand : N
  /-- the text of the type, without white space around it -/
  typeText : String
  /-- lines 147-153 `isConstAssertion` -/
  const : Bool
  /-- the type is written as an intersection -/
  intersectionNode : Bool

structure Options where
  checkLiteralConstAssertions : Bool
  typesToIgnore : List String

/-- What is reported. -/
inductive Outcome (N T : Type)
  | nothing
  /-- lines 1110-1113: the type stays the same -/
  | unnecessary (uncast cast : T)
  /-- lines 1135-1138: what receives the value accepts the type it has without the assertion -/
  | contextual
  /-- lines 996-1070: several assertions in a row; replaced by the innermost operand -/
  | double (unnecessary : Bool) (original : N)

def Kind.isTemplate : Kind N → Bool
  | .template => true
  | _ => false

/-- `IsVarConst` of the list of declarations -/
def Kind.isConst : Kind N → Bool
  | .variableDeclarationList const => const
  | _ => false

/-- Lines 165-166: the declaration is one of a constant; `const`: it is in a list of those. -/
def Kind.declaresConstant (const : Bool) : Kind N → Bool
  | .variableDeclaration _ _ => const
  | .propertyDeclaration readonly => readonly
  | _ => false

/-- Lines 155-168 `isImplicitlyNarrowedLiteralDeclaration` -/
def World.narrowed (W : World N T) (a : Assertion N) : Bool :=
  if (W.kind a.operand).isTemplate then false
  else match W.ancestors a.node with
    | p :: up => (W.kind p).declaresConstant (up.head?.any fun l => (W.kind l).isConst)
    | [] => false

/-- Lines 1102-1107 -/
def World.sameInferred (W : World N T) (a : Assertion N) : Bool := if W.literal (W.typeAt a.node) then W.narrowed a else !a.const

/-- Lines 1091-1098: the type of a variable declared with a conditional type -/
def World.declaredType (W : World N T) (a : Assertion N) (uncast cast : T) : T :=
  if uncast = cast then
    match W.kind (W.skip a.operand) with
    | .identifier _ => (match W.symbolType (W.skip a.operand) with
      | some s => if W.conditional s then s else uncast
      | none => uncast)
    | _ => uncast
  else uncast

/-- Lines 1121-1133: what receives the value accepts it without the assertion. -/
def World.accepts (W : World N T) (a : Assertion N) (uncast cast contextual : T) (castIsAny : Bool) : Bool :=
  !a.const && !W.containsAny uncast &&
  ((!W.any contextual && !W.containsAny contextual) || (W.any contextual && (W.argument a.node).isSome && !W.containsAny cast)) &&
  !W.phantomMismatch a.node uncast contextual && (castIsAny || !W.genericsMismatch uncast contextual) &&
  (W.any contextual || W.assignable uncast contextual) && !W.nullishToUnion a.operand cast

/-- Lines 996-1070 `reportDoubleAssertionIfUnnecessary` -/
def World.double (W : World N T) (fuel : Nat) (a : Assertion N) (original : N) (contextual : Option T) : Option (Outcome N T) :=
  let inner := W.skip a.operand
  match (W.kind inner).assertion? with
  | none => some .nothing
  | some _ =>
    let originalType := W.typeAt original
    let cast := W.typeAt a.node
    (W.constrained cast fuel (some originalType) []).map fun (related, _) =>
      let unrelated := originalType ≠ cast && W.typeParameter originalType && W.typeParameter cast && !related
      if W.unchanged a.node a.intersectionNode inner originalType cast && !W.any cast then .double true original
      else match contextual with
        | none => .nothing
        | some c =>
          if !unrelated && (W.any (W.typeAt inner) || W.unknown (W.typeAt inner)) && W.assignable originalType c then .double false original
          else .nothing

/-- Lines 1072-1142 `checkTypeAssertion`.  The innermost operand (line 1002) is computed first; it has no effects. -/
def World.check (W : World N T) (opts : Options) (fuel : Nat) (a : Assertion N) : Option (Outcome N T) :=
  if opts.typesToIgnore.contains a.typeText then some .nothing
  else
    let cast := W.typeAt a.node
    if !opts.checkLiteralConstAssertions && W.literal cast && a.const then some .nothing
    else (W.uncastType fuel a.operand).bind fun uncast0 => (W.original fuel (W.skip a.operand)).bind fun original =>
      let uncast := W.declaredType a uncast0 cast
      if W.unchanged a.node a.intersectionNode a.operand uncast cast && W.sameInferred a then some (.unnecessary uncast cast)
      else
        let castIsAny := W.any cast && !W.reasserted a.node
        let contextual := if !W.skipContext a.node a.operand original castIsAny then W.contextual a.node else none
        match contextual with
        | none => W.double fuel a original none
        | some c => if W.accepts a uncast cast c castIsAny then some .contextual else W.double fuel a original (some c)

end Tsgolint.UnnecessaryAssertion
