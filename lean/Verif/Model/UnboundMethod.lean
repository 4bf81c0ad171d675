import Verif.Model.TypeGraph
/-!
# Model of unbound-method (/repo/internal/rules/unbound_method/unbound_method.go)
-/
namespace Tsgolint.UnboundMethod
open Tsgolint.TypeGraph
variable {T : Type} [DecidableEq T]

/-! ## Safe uses -/

/-- The operators lines 103-126 tell apart (`ast.IsLogicalBinaryOperator` is `&&` and `||`). -/
inductive Op | and | or | equality | instanceOf | assign | other
deriving DecidableEq, Repr

/-- The kinds of parents lines 82-131 tell apart, with the part of it the node is. -/
inductive Frame
  | parens
  | nonNull
  /-- `as` and angle bracket assertions -/
  | assertion
  /-- if, for, switch and while statements -/
  | statement
  /-- property and element accesses -/
  | access
  | postfix_ (increment : Bool)
  /-- `++`, `--` and `!`, or another prefix operator -/
  | prefix_ (changeOrNot : Bool)
  | call (isCallee : Bool)
  | conditional (isCondition : Bool)
  | tagged (isTag : Bool)
  /-- `delete`, `typeof` and `void` -/
  | unary
  /-- `thisAccess`: the left operand is an access on `this` -/
  | binary (op : Op) (isLeft : Bool) (thisAccess : Bool)
  | other
deriving DecidableEq, Repr

/-- What a step of the loop decides: go on with the parent, or an answer. -/
def step (superAccess : Bool) : Frame → Option Bool
  | .parens => none
  | .statement => some true
  | .access => some true
  | .postfix_ i => some i
  | .prefix_ i => some i
  | .call c => some c
  | .conditional c => some c
  | .tagged t => some t
  | .unary => some true
  | .binary .and true _ => some true
  | .binary .and false _ => none
  | .binary .equality _ _ => some true
  | .binary .instanceOf _ _ => some true
  | .binary .or _ _ => none
  | .binary .assign l t => some (l || (superAccess && t))
  | .binary .other _ _ => some false
  | .nonNull => none
  | .assertion => none
  | .other => some false

/-- `isSafeUse`, lines 73-135: the frames from the reference outwards; `superAccess`: the node climbed from is an access on `super`, which only the reference itself
can be. -/
def isSafeUse (superAccess : Bool) : List Frame → Bool
  | [] => false
  | f :: fs => match step superAccess f with
    | some b => b
    | none => isSafeUse false fs

/-! ## Type declarations -/

/-- The ancestors lines 50-68 tell apart. -/
inductive Ancestor
  | class_ (declare : Bool)
  | method (abstract_ : Bool)
  | function (hasBody : Bool)
  /-- function types, interfaces and type aliases -/
  | typeOnly
  | variableStatement (declare : Bool)
  | other
deriving DecidableEq

/-- `isNodeInsideTypeDeclaration`, lines 47-71: the ancestors from the inside. -/
def insideTypeDeclaration : List Ancestor → Bool
  | [] => false
  | .class_ d :: as => if d then true else insideTypeDeclaration as
  | .method a :: as => if a then true else insideTypeDeclaration as
  | .function b :: as => if !b then true else insideTypeDeclaration as
  | .typeOnly :: _ => true
  | .variableStatement d :: as => if d then true else insideTypeDeclaration as
  | .other :: as => insideTypeDeclaration as

/-! ## Methods -/

/-- The type annotation of a parameter. -/
inductive Annotation | void | typed | missing
deriving DecidableEq

/-- A function: its first parameter (its name if that is an identifier, its annotation) and whether it is static. -/
structure Function where
  first : Option (Option String × Annotation)
  isStatic : Bool

/-- Value declarations, lines 181-194. -/
inductive Decl
  /-- a property declaration, whether it is initialised by a function expression -/
  | property (function : Bool)
  /-- a property assignment; with the function expression, if the value is one -/
  | assignment (function : Option Function)
  /-- methods and method signatures -/
  | method (function : Function)
  | other

/-- The result of a check; `panics`: the runtime panics. -/
inductive Check
  | panics
  | result (dangerous firstIsThis : Bool)
deriving DecidableEq, Repr

/-- `checkMethod`, lines 162-172: the kind of the annotation of `this` is read even if there is none. -/
def checkMethod (ignoreStatic : Bool) (f : Function) : Check :=
  match f.first with
  | some (some "this", .missing) => .panics
  | some (some "this", a) => .result (!(a == .void) && (!ignoreStatic || !f.isStatic)) true
  | _ => .result (!ignoreStatic || !f.isStatic) false

/-- `checkIfMethod`, lines 174-197; `none`: no value declaration. -/
def checkIfMethod (ignoreStatic : Bool) : Option Decl → Check
  | none => .result false false
  | some (.property f) => .result f true
  | some (.assignment none) => .result false false
  | some (.assignment (some f)) => checkMethod ignoreStatic f
  | some (.method f) => checkMethod ignoreStatic f
  | some .other => .result false false

/-- What is reported. -/
inductive Outcome
  | nothing
  /-- `unbound` -/
  | unbound
  /-- `unboundWithoutThisAnnotation` -/
  | withoutThis
  | panics
deriving DecidableEq, Repr

/-- `checkIfMethodAndReport`, lines 230-247; a symbol is given by its value declaration. -/
def judge (ignoreStatic : Bool) : Option (Option Decl) → Outcome
  | none => .nothing
  | some d => match checkIfMethod ignoreStatic d with
    | .panics => .panics
    | .result false _ => .nothing
    | .result true true => .unbound
    | .result true false => .withoutThis

/-- What lines 204-228 ask about an object and a property name. -/
structure Native where
  /-- the names, if both are identifiers -/
  identifiers : Option (String × String)
  /-- the object's symbol has a value declaration in another file -/
  elsewhere : Bool
  /-- the type of the object is one of `supportedGlobalTypes` (C51) -/
  globalType : Bool
  /-- the type of the property comes from the default library (C51) -/
  builtinProperty : Bool

/-- `isNativelyBound`, lines 204-228; `table` is `nativelyBoundMembers`. -/
def isNativelyBound (table : List (String × List String)) (n : Native) : Bool :=
  let listed := match n.identifiers with
    | none => false
    | some (o, p) => n.elsewhere && match table.lookup o with
      | none => false
      | some ms => ms.contains p
  listed || (n.globalType && n.builtinProperty)

/-- The listener for property accesses, lines 276-282. -/
def access (table : List (String × List String)) (ignoreStatic : Bool) (superAccess : Bool) (frames : List Frame) (n : Native) (symbol : Option (Option Decl)) : Outcome :=
  if isSafeUse superAccess frames || isNativelyBound table n then .nothing else judge ignoreStatic symbol

/-- The predicate of lines 270-271; a report stops the search (and so does a panic). -/
def visit (ignoreStatic : Bool) (propertyOf : T → Option (Option Decl)) (t : T) (_ : Outcome) : Option (Bool × Outcome) :=
  let o := judge ignoreStatic (propertyOf t)
  some (o != .nothing, o)

/-- A property of a pattern: whether its name is computed; the initialiser, if there is one: what `isNativelyBound` asks, and the property of its type. -/
structure Binding where
  isComputed : Bool
  init : Option (Native × Option (Option Decl))

/-- The type of the pattern, lines 270-272. -/
def fromPattern (shape : T → Shape T) (ignoreStatic : Bool) (propertyOf : T → Option (Option Decl)) (fuel : Nat) (pattern : T) : Option Outcome :=
  (typeRecurser shape (visit ignoreStatic propertyOf) fuel pattern .nothing).map (·.2)

/-- `checkBindingProperty`, lines 249-273. -/
def binding (table : List (String × List String)) (shape : T → Shape T) (ignoreStatic : Bool) (propertyOf : T → Option (Option Decl)) (fuel : Nat)
    (pattern : T) (b : Binding) (assignmentLike : Bool) : Option Outcome :=
  if b.isComputed then some .nothing
  else match b.init with
    | none => fromPattern shape ignoreStatic propertyOf fuel pattern
    | some (n, p) =>
      if !isNativelyBound table n then
        match judge ignoreStatic p with
        | .nothing => fromPattern shape ignoreStatic propertyOf fuel pattern
        | o => some o
      else if !assignmentLike then some .nothing
      else fromPattern shape ignoreStatic propertyOf fuel pattern

end Tsgolint.UnboundMethod
