/-!
# Model of only-throw-error and prefer-promise-reject-errors
(/repo/internal/rules/only_throw_error/only_throw_error.go, /repo/internal/rules/prefer_promise_reject_errors/prefer_promise_reject_errors.go)

Types are elements of an arbitrary type `T`; what the compiler says of them (with C26, C27, C51, C52) is a parameter.
-/
namespace Tsgolint.Errors
variable {T : Type}

/-- What the rules ask about a type. -/
structure Env (T : Type) where
  /-- `TypeMatchesSomeSpecifier(t, opts.Allow)` -/
  listed : T → Bool
  /-- `TypeFlagsUndefined` -/
  isUndefined : T → Bool
  isAny : T → Bool
  isUnknown : T → Bool
  /-- `IsErrorLike` (builtin_symbol_likes.go:110-115) -/
  errorLike : T → Bool
  /-- `IsReadonlyErrorLike` (builtin_symbol_likes.go:124-137) -/
  readonlyErrorLike : T → Bool

/-! ## only-throw-error -/

/-- An argument of a call: a spread or not. -/
inductive Arg | spread | plain
deriving DecidableEq, Repr

/-- Where a function is. -/
inductive Place
  /-- it is the argument number `index` of a call; the callee is a property access with that name on an object that is thenable or not, or
  something else (`none`) -/
  | argument (callee : Option (String × Bool)) (index : Nat) (args : List Arg)
  | elsewhere
deriving DecidableEq, Repr

/-- The first declaration of the symbol of an identifier. -/
inductive Decl
  | missing
  /-- its parent is a catch clause -/
  | caught
  /-- parameter number `index` of a function -/
  | param (rest : Bool) (index : Nat) (arrow : Bool) (place : Place)
  | other
deriving DecidableEq, Repr

/-- An expression: an identifier with its declaration, or something else. -/
inductive Thrown
  | identifier (d : Decl)
  | other
deriving DecidableEq, Repr

/-- Lines 88-104. -/
def isRejectionHandler (method : String) (index : Nat) (args : List Arg) : Bool :=
  if method = "catch" then decide (args.length ≥ 1) && decide (index = 0)
  else if method = "then" then decide (args.length ≥ 2) && decide (index = 1) && !decide (args[0]? = some .spread)
  else false

/-- `isRethrownError`, lines 28-117. -/
def isRethrown : Thrown → Bool
  | .other => false
  | .identifier .missing => false
  | .identifier .caught => true
  | .identifier .other => false
  | .identifier (.param rest index arrow place) =>
    if rest then false
    else if !arrow then false
    else if index ≠ 0 then false
    else match place with
      | .elsewhere => false
      | .argument none _ _ => false
      | .argument (some (method, thenable)) i args =>
        if !isRejectionHandler method i args then false
        else thenable

structure ThrowOpts where
  allowRethrowing : Bool := true
  allowThrowingAny : Bool := true
  allowThrowingUnknown : Bool := true
deriving Repr

inductive ThrowMessage | undef | object
deriving DecidableEq, Repr

/-- The listener, lines 125-156: the message; `undef` is reported on the statement, `object` on the expression. -/
def reportThrow (E : Env T) (o : ThrowOpts) (e : Thrown) (t : T) : Option ThrowMessage :=
  if E.listed t then none
  else if E.isUndefined t then some .undef
  else if o.allowThrowingAny && E.isAny t then none
  else if o.allowThrowingUnknown && E.isUnknown t then none
  else if o.allowRethrowing && isRethrown e then none
  else if E.errorLike t then none
  else some .object

/-! ## prefer-promise-reject-errors -/

structure RejectOpts where
  allowEmptyReject : Bool := false
  allowThrowingAny : Bool := false
  allowThrowingUnknown : Bool := false
deriving Repr

/-- `checkRejectCall`, lines 22-44: whether the call is reported; `args`: the types of the arguments. -/
def checkReject (E : Env T) (o : RejectOpts) (args : List T) : Bool :=
  match args with
  | t :: _ =>
    if E.listed t then false
    else if o.allowThrowingAny && E.isAny t then false
    else if o.allowThrowingUnknown && E.isUnknown t then false
    else if E.errorLike t || E.readonlyErrorLike t then false
    else true
  | [] => !o.allowEmptyReject

/-- What is above a function expression: parentheses, a `new` of something that is like the promise constructor or not, or anything else. -/
inductive Above
  | paren (up : Above)
  | new_ (promiseConstructor : Bool)
  | other
deriving DecidableEq, Repr

/-- The loop of lines 82-90 and the test of 98-100. -/
def insideNewPromise : Above → Bool
  | .paren up => insideNewPromise up
  | .new_ p => p
  | .other => false

/-- A callee without parentheses. -/
inductive Callee
  /-- an access with its name, if that is known, on something like a promise or the promise constructor, or not -/
  | access (name : Option String) (onPromise : Bool)
  /-- an identifier whose value declaration is parameter number `index` of a function expression or arrow function with `params` parameters -/
  | param (index params : Nat) (above : Above)
  /-- any other identifier -/
  | identifier
  | other
deriving DecidableEq, Repr

/-- The listener, lines 50-97; a name that is not known is "". -/
def reportReject (E : Env T) (o : RejectOpts) (c : Callee) (args : List T) : Bool :=
  match c with
  | .access name onPromise => if decide (name.getD "" = "reject") && onPromise then checkReject E o args else false
  | .param index params above =>
    if decide (params < 2) || decide (index ≠ 1) then false
    else if !insideNewPromise above then false
    else checkReject E o args
  | .identifier => false
  | .other => false

end Tsgolint.Errors
