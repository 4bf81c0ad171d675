import Verif.Model.Fixer
/-!
# Model of strict-void-return (/repo/internal/rules/strict_void_return/strict_void_return.go)

Types (`T`) are the compiler's; `N` are the nodes reports point at.
-/
namespace Tsgolint.VoidReturn
variable {T N : Type}

/-- What the rule asks about types. -/
structure Env (T : Type) where
  /-- `UnionTypeParts` -/
  parts : T → List T
  /-- the return types of the call signatures of a type -/
  callReturns : T → List T
  isVoid : T → Bool
  /-- flags void, never, undefined (line 38) -/
  nothing : T → Bool
  isAny : T → Bool
  /-- flags of lines 66-70 -/
  nullishOrAny : T → Bool
  isTypeParameter : T → Bool
  /-- option `allowReturnAny` -/
  allowReturnAny : Bool

/-- Lines 43-47 `isAllowedType` -/
def isAllowed (E : Env T) (t : T) : Bool := (E.parts t).all fun p => E.nothing p || (E.allowReturnAny && E.isAny p)

/-- Lines 49-61 `isVoidReturningFunctionType` -/
def isVoidFunction (E : Env T) (t : T) : Bool :=
  let returns := (E.parts t).flatMap E.callReturns
  !returns.isEmpty && returns.all fun r => (E.parts r).all E.isVoid

/-- The syntax below a function. -/
inductive Tree (T N : Type)
  /-- a return statement, with the type of its expression -/
  | ret (node : N) (value : Option T) (children : List (Tree T N))
  /-- a function-like node -/
  | function (children : List (Tree T N))
  | other (children : List (Tree T N))

/-- Lines 126-134: a return statement. -/
def judge (E : Env T) (node : N) (value : Option T) : List N :=
  match value with
  | some t => if isAllowed E t then [] else [node]
  | none => []

mutual
/-- Lines 118-138 `visit`, below the function itself: the return statements reported. -/
def visit (E : Env T) : Tree T N → List N
  | .ret node value cs =>
    judge E node value ++ visitAll E cs
  | .function _ => []
  | .other cs => visitAll E cs
def visitAll (E : Env T) : List (Tree T N) → List N
  | [] => []
  | c :: cs => visit E c ++ visitAll E cs
end

inductive Body (T N : Type)
  | absent
  /-- an arrow function with this expression -/
  | expression (node : N)
  | block

/-- An expression (or method) used as a function. -/
structure Func (T N : Type) where
  node : N
  /-- the return types of the call signatures of its apparent type -/
  returns : List T
  /-- an arrow function, function expression or method -/
  literal : Bool
  generator : Bool
  async : Bool
  body : Body T N
  /-- the return type annotation, and whether it is `void` -/
  annotation : Option (N × Bool)
  children : List (Tree T N)

inductive Message
  | asyncFunc
  | nonVoidFunc
  | nonVoidReturn
deriving DecidableEq, Repr

/-- Lines 102-106: the body is there and is no block. -/
def Body.expr : Body T N → Option N
  | .expression n => some n
  | _ => none

/-- Lines 108-111: an annotation that is not `void`. -/
def Func.nonVoidAnnotation (f : Func T N) : Option N :=
  match f.annotation with
  | some (n, false) => some n
  | _ => none

/-- Lines 79-139 `reportIfNonVoidFunction` -/
def reportIfNonVoid (E : Env T) (f : Func T N) : List (N × Message) :=
  if f.returns.all (isAllowed E) then []
  else if !f.literal then [(f.node, .nonVoidFunc)]
  else if f.generator then [(f.node, .nonVoidFunc)]
  else if f.async then [(f.node, .asyncFunc)]
  else match f.body.expr with
    | some b => [(b, .nonVoidReturn)]
    | none => match f.nonVoidAnnotation with
      | some a => [(a, .nonVoidFunc)]
      | none => (visitAll E f.children).map (·, .nonVoidReturn)

/-- An expression with its contextual type. -/
structure Site (T N : Type) where
  func : Func T N
  contextual : Option T

/-- The condition of line 143. -/
def voidContext (E : Env T) (contextual : Option T) : Bool :=
  match contextual with
  | some t => isVoidFunction E t
  | none => false

/-- Lines 141-148 `checkExpressionNode`; the reports (it returns whether the context is void). -/
def checkExpression (E : Env T) (s : Site T N) : List (N × Message) := if voidContext E s.contextual then reportIfNonVoid E s.func else []

/-- Lines 164-176: the return types expected of the argument at this position; a signature is the list of types of its parameters. -/
def expected (E : Env T) (signatures : List (List T)) (i : Nat) : List T :=
  signatures.flatMap fun ps => match ps[i]? with
    | none => []
    | some p => (E.parts p).flatMap E.callReturns

/-- Lines 159-190: one argument. -/
def checkArgument (E : Env T) (signatures : List (List T)) (i : Nat) (s : Site T N) : List (N × Message) :=
  let exp := expected E signatures i
  if (decide (signatures.length = 1) || exp.all fun t => E.isVoid t || E.nullishOrAny t || E.isTypeParameter t) && voidContext E s.contextual then reportIfNonVoid E s.func
  else if exp.any E.isVoid && exp.all E.nullishOrAny then reportIfNonVoid E s.func else []

/-- Lines 150-191 `checkFunctionCallNode`; `none`: a spread argument. -/
def checkArguments (E : Env T) (signatures : List (List T)) : Nat → List (Option (Site T N)) → List (N × Message)
  | _, [] => []
  | i, none :: rest => checkArguments E signatures (i + 1) rest
  | i, some s :: rest => checkArgument E signatures i s ++ checkArguments E signatures (i + 1) rest

/-- Lines 276-284 `checkClassMethodNode`: `base` are the types of the members it overrides or implements. -/
def checkMethod (E : Env T) (hasBody : Bool) (base : List T) (f : Func T N) : List (N × Message) :=
  if !hasBody then [] else if base.any (isVoidFunction E) then reportIfNonVoid E f else []

/-- Lines 286-296 `checkClassPropertyNode` -/
def checkProperty (E : Env T) (base : List T) (init : Option (Site T N)) : List (N × Message) :=
  match init with
  | none => []
  | some s => if base.any (isVoidFunction E) then reportIfNonVoid E s.func else checkExpression E s

end Tsgolint.VoidReturn
