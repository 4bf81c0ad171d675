import Verif.Model.TypeGraph
/-! Model of internal/rules/no_misused_promises/no_misused_promises.go.

Expressions and statements are trees with node identities; the checker's answers are functions of types (`Env`).  Not modelled: the labelled
ranges of a diagnostic (135-224: `voidExpectation`, `promiseRange`, type names) and the parsing of `checksVoidReturn` (75-119, see C50). -/
namespace Tsgolint.MisusedPromises
open Tsgolint.TypeGraph
variable {T : Type}

/-! ## Types -/

structure Env (T : Type) where
  /-- `UnionTypeParts`, `getApparentType` and all that `utils.IsThenableType` asks for -/
  then_ : ThenEnv T
  /-- the return types of the call signatures of a type, in order -/
  returns : T → List T
  /-- the call signatures of a type: none if it has no parameters, else the apparent type of its first parameter (246-257: nil is possible) -/
  firstParams : T → List (Option (Option T))
  /-- `TypeFlagsVoid` is set -/
  isVoid : T → Bool

/-- no_misused_promises.go:121-128 `anySignatureIsThenableType`. -/
def anySignatureIsThenable (E : Env T) (t : T) : Bool := (E.returns t).any (isThenable E.then_)

/-- no_misused_promises.go:130-135 `returnsThenable`, given the type of the node. -/
def returnsThenable (E : Env T) (t : T) : Bool :=
  (unionParts E.then_.shape (E.then_.apparent t)).any (anySignatureIsThenable E)

/-- no_misused_promises.go:448-455 `isThenableReturningFunctionType`. -/
def isThenableReturning (E : Env T) (t : T) : Bool := (unionParts E.then_.shape t).any (anySignatureIsThenable E)

/-- no_misused_promises.go:369-378: the loop over the signatures of one part; `none` is the early `return false`. -/
def voidSignatures (E : Env T) : List T → Bool → Option Bool
  | [], had => some had
  | r :: rest, had => if isThenable E.then_ r then none else voidSignatures E rest (had || E.isVoid r)

/-- no_misused_promises.go:368-379: the loop over the parts. -/
def voidParts (E : Env T) : List T → Bool → Bool
  | [], had => had
  | p :: rest, had => match voidSignatures E (E.returns p) had with
    | none => false
    | some h => voidParts E rest h

/-- no_misused_promises.go:363-381 `isVoidReturningFunctionType`. -/
def isVoidReturning (E : Env T) (t : T) : Bool := voidParts E (unionParts E.then_.shape t) false

/-- no_misused_promises.go:246-257 `isFunctionParam`, given the apparent type of the parameter. -/
def isFunctionParam (E : Env T) : Option T → Bool
  | none => false
  | some t => (unionParts E.then_.shape t).any fun p => decide ((E.returns p).length ≠ 0)

/-- no_misused_promises.go:281-286: the signatures of one part of the type of "then". -/
def takesCallback (E : Env T) (t : T) : Bool :=
  (E.firstParams t).any fun s => match s with
    | none => false
    | some p => isFunctionParam E p

/-- no_misused_promises.go:280-293: the loop over the parts of the type of "then", with its `break`. -/
def hasThenableSignature (E : Env T) : List T → Bool
  | [] => false
  | p :: rest => if takesCallback E p then true else hasThenableSignature E rest

/-- no_misused_promises.go:266-300: the loop over the parts of the type of the node. -/
def alwaysThenableParts (E : Env T) : List T → Bool
  | [] => true
  | p :: rest => match E.then_.thenOf p with
    | none => false
    | some thenType =>
      if hasThenableSignature E (unionParts E.then_.shape thenType) then alwaysThenableParts E rest else false

/-- no_misused_promises.go:259-305 `isAlwaysThenable`, given the type of the node. -/
def isAlwaysThenable (E : Env T) (t : T) : Bool := alwaysThenableParts E (unionParts E.then_.shape (E.then_.apparent t))

/-! ## Conditions -/

inductive LogicalOp | and | or | coalesce
deriving DecidableEq, Repr

/-- The syntax tree.  `assign` is what `ast.IsAssignmentExpression(node, false)` accepts (`=` and all compound assignments), `logical` what
`ast.IsLogicalExpression` accepts of binary expressions (`&&`, `||`, `??`), `binary` every other binary expression (the comma operator
too), `test` a `?:`, `if`, `while`, `do` or `for` with a condition (and the children before and after it). -/
inductive Node
  | logical (id : Nat) (op : LogicalOp) (l r : Node)
  | assign (id : Nat) (l r : Node)
  | binary (id : Nat) (l r : Node)
  | paren (id : Nat) (e : Node)
  | bang (id : Nat) (e : Node)
  | test (id : Nat) (before : List Node) (c : Node) (after : List Node)
  | other (id : Nat) (kids : List Node)

def Node.id : Node → Nat
  | .logical i .. | .assign i .. | .binary i .. | .paren i .. | .bang i .. | .test i .. | .other i .. => i

/-- the state: `checkedNodes` (307), and the reported nodes in reverse order -/
structure State where
  checked : List Nat := []
  reports : List Nat := []

/-- no_misused_promises.go:341-343 -/
def leaf (always : Nat → Bool) (i : Nat) (s : State) : State :=
  if always i then { s with reports := i :: s.reports } else s

/-- no_misused_promises.go:309-344 `checkConditional`.  `inner` says that the node is what `ast.SkipParentheses` (326) strips to: it is neither
compared with the assignments nor looked up nor marked. -/
def checkConditional (always : Nat → Bool) : (inner : Bool) → Node → (isTest : Bool) → State → State
  | inner, .assign i _ _, _, s => if inner then leaf always i s else s
  | inner, .logical i op l r, b, s =>
    if !inner && s.checked.contains i then s
    else
      let s := if inner then s else { s with checked := i :: s.checked }
      let s := if op ≠ .coalesce || b then checkConditional always false l b s else s
      if b then checkConditional always false r b s else s
  | inner, .paren i e, b, s =>
    if !inner && s.checked.contains i then s
    else checkConditional always true e b (if inner then s else { s with checked := i :: s.checked })
  | inner, .binary i _ _, _, s =>
    if !inner && s.checked.contains i then s
    else leaf always i (if inner then s else { s with checked := i :: s.checked })
  | inner, .bang i _, _, s =>
    if !inner && s.checked.contains i then s
    else leaf always i (if inner then s else { s with checked := i :: s.checked })
  | inner, .test i _ _ _, _, s =>
    if !inner && s.checked.contains i then s
    else leaf always i (if inner then s else { s with checked := i :: s.checked })
  | inner, .other i _, _, s =>
    if !inner && s.checked.contains i then s
    else leaf always i (if inner then s else { s with checked := i :: s.checked })

mutual
/-- The visitor (C08) with the listeners no_misused_promises.go:896-899 (every binary expression) and 910-921. -/
def visit (always : Nat → Bool) : Node → State → State
  | .logical i op l r, s =>
    visit always r (visit always l (checkConditional always false (.logical i op l r) false s))
  | .assign i l r, s => visit always r (visit always l (checkConditional always false (.assign i l r) false s))
  | .binary i l r, s => visit always r (visit always l (checkConditional always false (.binary i l r) false s))
  | .paren _ e, s => visit always e s
  | .bang _ e, s => visit always e (checkConditional always false e true s)
  | .test _ before c after, s =>
    visits always after (visit always c (visits always before (checkConditional always false c true s)))
  | .other _ kids, s => visits always kids s
def visits (always : Nat → Bool) : List Node → State → State
  | [], s => s
  | n :: rest, s => visits always rest (visit always n s)
end

/-- The "conditional" reports of a file, in order. -/
def conditionals (always : Nat → Bool) (file : Node) : List Nat := (visit always file {}).reports.reverse

/-! ## Array predicates -/

/-- A call with, per child of the call: whether the child is a property or element access. -/
structure PredicateCall (T : Type) where
  calleeIsAccess : Bool
  /-- `utils.IsArrayMethodCallWithPredicate` (ts_eslint.go:227-244, see `PreferFind`/C79 for the shape of such calls) -/
  arrayPredicate : Bool
  /-- the arguments: their type, and whether they are accesses -/
  args : List (T × Bool)

/-- no_misused_promises.go:226-244 `checkArrayPredicates`, for an access whose parent is the call. -/
def checkArrayPredicates (E : Env T) (c : PredicateCall T) : List T :=
  match c.args with
  | [] => []
  | callback :: _ => if c.arrayPredicate && returnsThenable E callback.1 then [callback.1] else []

/-- no_misused_promises.go:907-908: the listener runs for every access whose parent is the call, callee or argument. -/
def predicateReports (E : Env T) (c : PredicateCall T) : List T :=
  (if c.calleeIsAccess then checkArrayPredicates E c else []) ++
    c.args.flatMap fun a => if a.2 then checkArrayPredicates E c else []

/-! ## Arguments -/

/-- A parameter of a signature: 544-591 -/
inductive Param (T : Type)
  /-- not a rest parameter -/
  | plain (t : T)
  /-- `...args: elem[]` -/
  | restArray (elem : T)
  /-- `...args: [a, b]` -/
  | restTuple (elems : List T)
  /-- a rest parameter of another type -/
  | restOther

/-- the two lists of 521-522 -/
structure Indices where
  thenable : List Nat := []
  voids : List Nat := []

variable [DecidableEq T]

/-- no_misused_promises.go:477-490: one type. -/
def classify (E : Env T) (t : T) (i : Nat) (s : Indices) : Indices :=
  if isThenableReturning E t then { s with thenable := s.thenable ++ [i] }
  else if isVoidReturning E t && !s.thenable.contains i then { s with voids := s.voids ++ [i] }
  else s

/-- no_misused_promises.go:457-505 `checkThenableOrVoidArgument`: the type, then the contextual type of the argument if it is another. -/
def checkArgument (E : Env T) (contextual : Nat → T) (t : T) (i : Nat) (s : Indices) : Indices :=
  let s := classify E t i s
  if contextual i ≠ t then classify E (contextual i) i s else s

/-- no_misused_promises.go:551-565: the loop over the arguments `i`, `i + 1`, …, `n - 1` (fuel: `n - i`). -/
def checkAll (E : Env T) (contextual : Nat → T) (elem : T) : (fuel i : Nat) → Indices → Indices
  | 0, _, s => s
  | fuel + 1, i, s => checkAll E contextual elem fuel (i + 1) (checkArgument E contextual elem i s)

/-- no_misused_promises.go:566-580: the loop over the elements of a tuple. -/
def checkTuple (E : Env T) (contextual : Nat → T) (n : Nat) : List T → Nat → Indices → Indices
  | [], _, s => s
  | t :: ts, i, s => if i < n then checkTuple E contextual n ts (i + 1) (checkArgument E contextual t i s) else s

/-- no_misused_promises.go:541-592: the parameters of one signature, of a call with `n` arguments. -/
def checkParams (E : Env T) (contextual : Nat → T) (n : Nat) : List (Param T) → Nat → Indices → Indices
  | [], _, s => s
  | p :: ps, i, s => checkParams E contextual n ps (i + 1) (match p with
    | .plain t => checkArgument E contextual t i s
    | .restArray elem => checkAll E contextual elem (n - i) i s
    | .restTuple elems => checkTuple E contextual n elems i s
    | .restOther => s)

/-- no_misused_promises.go:529-594: the signatures of all parts of the callee's type, in order. -/
def checkSignatures (E : Env T) (contextual : Nat → T) (n : Nat) : List (List (Param T)) → Indices → Indices
  | [], s => s
  | sig :: rest, s => checkSignatures E contextual n rest (checkParams E contextual n sig 0 s)

/-- no_misused_promises.go:594-600: per thenable index, the first occurrence among the void ones is deleted. -/
def deleteThenable : List Nat → List Nat → List Nat
  | [], voids => voids
  | i :: rest, voids => deleteThenable rest (if voids.contains i then voids.erase i else voids)

/-- A call or `new` expression: the types of the arguments (`none`: `new X` without a list), the parameters of each signature of each part of
the callee's type, and the contextual types of the arguments. -/
structure Call (T : Type) where
  args : Option (List T)
  signatures : List (List (Param T))
  contextual : Nat → T

/-- no_misused_promises.go:507-603 `voidFunctionArguments`. -/
def voidFunctionArguments (E : Env T) (c : Call T) : List Nat :=
  match c.args with
  | none => []
  | some args =>
    let s := checkSignatures E c.contextual args.length c.signatures {}
    deleteThenable s.thenable s.voids

/-- no_misused_promises.go:614-621: the loop over the arguments. -/
def reportArguments (E : Env T) (voidArgs : List Nat) : List T → Nat → List Nat
  | [], _ => []
  | a :: rest, i =>
    (if voidArgs.contains i && returnsThenable E a then [i] else []) ++ reportArguments E voidArgs rest (i + 1)

/-- no_misused_promises.go:606-622 `checkArguments`: the reported argument positions. -/
def checkArguments (E : Env T) (c : Call T) : List Nat :=
  let voidArgs := voidFunctionArguments E c
  if voidArgs.isEmpty then [] else reportArguments E voidArgs (c.args.getD []) 0

/-! ## Inherited methods -/
omit [DecidableEq T]

/-- no_misused_promises.go:647: the kinds of names -/
inductive NameKind | identifier | privateIdentifier | string | number | bigint | computed | otherName
deriving DecidableEq, Repr

structure Member (T : Type) where
  name : Option (NameKind × String)
  isStatic : Bool
  type : T

/-- A heritage type: the type of the member of that name, by 346-361 `getMemberIfExists` and 399-402. -/
abbrev Heritage (T : Type) := String → Option T

/-- no_misused_promises.go:383-411 `checkHeritageTypeForMemberReturningVoid`. -/
def checkHeritage (E : Env T) (h : Heritage T) (name : String) : Bool :=
  match h name with
  | none => false
  | some t => isVoidReturning E t

/-- no_misused_promises.go:638-663: one member; a report is the index of the heritage type. -/
def checkMember (E : Env T) (heritage : List (Heritage T)) (m : Member T) : List Nat :=
  match m.name with
  | none => []
  | some (k, name) =>
    if !(k = .identifier || k = .privateIdentifier || k = .string || k = .number || k = .bigint) then []
    else if m.isStatic then []
    else if !returnsThenable E m.type then []
    else (heritage.zipIdx.filter fun h => checkHeritage E h.1 name).map (·.2)

/-- no_misused_promises.go:624-664 `checkClassLikeOrInterfaceNode`: the reported members (by index) with the heritage types. -/
def checkClassLike (E : Env T) (clauses : Option (List (List (Heritage T)))) (members : List (Member T)) : List (Nat × Nat) :=
  match clauses with
  | none => []
  | some [] => []
  | some cs => members.zipIdx.flatMap fun m => (checkMember E cs.flatten m.1).map fun h => (m.2, h)

/-! ## Properties, attributes, returns, variables, spreads -/

/-- 678-743: the value's type with its contextual type (if any) -/
inductive Property (T : Type)
  | assignment (contextual : Option T) (value : T)
  | shorthand (contextual : Option T) (value : T)
  /-- `computed`: 707; `inLiteral`: 718; `expected`: the type of the property of that name of the object's contextual type (725-737) -/
  | method (computed inLiteral : Bool) (expected : Option T) (value : T)

/-- no_misused_promises.go:678-745 `checkProperty`. -/
def checkProperty (E : Env T) : Property T → Bool
  | .assignment c v => match c with
    | none => false
    | some c => isVoidReturning E c && returnsThenable E v
  | .shorthand c v => match c with
    | none => false
    | some c => isVoidReturning E c && returnsThenable E v
  | .method computed inLiteral expected v =>
    if computed then false
    else if !inLiteral then false
    else if !returnsThenable E v then false
    else match expected with
      | none => false
      | some c => isVoidReturning E c

/-- no_misused_promises.go:413-436 `checkJSXAttribute`: the expression of the attribute (none: no initializer, a string, or `{}`), with the
contextual type of the initializer. -/
def checkAttribute (E : Env T) (expression : Option T) (contextual : Option T) : Bool :=
  match expression, contextual with
  | some v, some c => isVoidReturning E c && returnsThenable E v
  | _, _ => false

/-- no_misused_promises.go:438-446 `checkSpread`. -/
def checkSpread (E : Env T) (value : T) : Bool := isThenable E.then_ value

/-- The syntax of a type annotation, as far as 751-807 looks at it. -/
inductive Annotation
  | conditional | constructorType | functionType | importType | indexedAccess | infer | intersection | qualifiedName | thisType
  | typeOperator | typeQuery | reference | union
  /-- `{ … }`: per member, whether it is a call or construct signature -/
  | literal (members : List Bool)
  /-- the keyword, array, literal, mapped, tuple, … types of 773-804 -/
  | listed
  | parenthesized (t : Annotation)
  /-- any other kind -/
  | unlisted

/-- no_misused_promises.go:747-807 `isPossiblyFunctionType`. -/
def isPossiblyFunctionType : Annotation → Bool
  | .conditional | .constructorType | .functionType | .importType | .indexedAccess | .infer | .intersection | .qualifiedName
  | .thisType | .typeOperator | .typeQuery | .reference | .union => true
  | .literal members => members.any id
  | .listed => false
  | .parenthesized _ => false
  | .unlisted => false

/-- no_misused_promises.go:809-849 `checkReturnStatement`: the value (if any), the declared return type of the enclosing function (if there is a
function and it has one), the contextual type. -/
def checkReturn (E : Env T) (value : Option T) (declared : Option Annotation) (contextual : Option T) : Bool :=
  match value with
  | none => false
  | some v =>
    if (match declared with | some a => !isPossiblyFunctionType a | none => false) then false
    else match contextual with
      | none => false
      | some c => isVoidReturning E c && returnsThenable E v

/-- no_misused_promises.go:851-868 `checkAssignment`. -/
def checkAssignment (E : Env T) (target value : T) : Bool :=
  if !isVoidReturning E target then false else returnsThenable E value

/-- no_misused_promises.go:870-893 `checkVariableDeclaration`. -/
def checkVariable (E : Env T) (annotation : Option Annotation) (value : Option T) (varType : T) : Bool :=
  match value, annotation with
  | some v, some a =>
    if !isPossiblyFunctionType a then false
    else if !isVoidReturning E varType then false
    else returnsThenable E v
  | _, _ => false

/-! ## Listeners -/

structure VoidReturn where
  arguments : Bool
  attributes : Bool
  inheritedMethods : Bool
  properties : Bool
  returns : Bool
  variables : Bool

/-- `voidReturn = none`: `checksVoidReturn` is false or has no options (901, 924) -/
structure Options where
  conditionals : Bool
  voidReturn : Option VoidReturn
  spreads : Bool

inductive Kind
  | binaryExpression | propertyAccess | elementAccess | prefixUnary | conditional | forStatement | doStatement | whileStatement | ifStatement
  | call | new | jsxAttribute | classDeclaration | classExpression | interfaceDeclaration | propertyAssignment | methodDeclaration
  | shorthandPropertyAssignment | returnStatement | variableDeclaration | spreadElement | spreadAssignment | anyOther
deriving DecidableEq, Repr

inductive Check
  | condition | predicate | argument | attribute | inherited | property | returnValue | assignment | declaration | spread
deriving DecidableEq, Repr

/-- no_misused_promises.go:896-904: the listener of binary expressions. -/
def binaryChecks (o : Options) : List Check :=
  (if o.conditionals then [.condition] else []) ++
    (match o.voidReturn with | some v => if v.variables then [.assignment] else [] | none => [])

/-- no_misused_promises.go:895-955: what runs at a node of a kind. -/
def listeners (o : Options) : Kind → List Check
  | .binaryExpression => binaryChecks o
  | .propertyAccess | .elementAccess => if o.conditionals then [.predicate] else []
  | .prefixUnary | .conditional | .forStatement | .doStatement | .whileStatement | .ifStatement =>
    if o.conditionals then [.condition] else []
  | .call | .new => match o.voidReturn with | some v => if v.arguments then [.argument] else [] | none => []
  | .jsxAttribute => match o.voidReturn with | some v => if v.attributes then [.attribute] else [] | none => []
  | .classDeclaration | .classExpression | .interfaceDeclaration =>
    match o.voidReturn with | some v => if v.inheritedMethods then [.inherited] else [] | none => []
  | .propertyAssignment | .methodDeclaration | .shorthandPropertyAssignment =>
    match o.voidReturn with | some v => if v.properties then [.property] else [] | none => []
  | .returnStatement => match o.voidReturn with | some v => if v.returns then [.returnValue] else [] | none => []
  | .variableDeclaration => match o.voidReturn with | some v => if v.variables then [.declaration] else [] | none => []
  | .spreadElement | .spreadAssignment => if o.spreads then [.spread] else []
  | .anyOther => []

end Tsgolint.MisusedPromises
