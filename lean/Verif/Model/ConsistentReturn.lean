import Verif.Model.RuleTree
import Verif.Model.TypeGraph
/-!
# Model of the rule consistent-return (/repo/internal/rules/consistent_return/consistent_return.go)
-/
namespace Tsgolint.ConsistentReturn
open Tsgolint.RuleTree Tsgolint.TypeGraph

/-- What the rule reads from a function node.  `allowsVoid` is `isReturnVoidOrThenableVoid` (95-113, modelled below), which the rule
computes at most once per function, when needed (152-158). -/
structure Func where
  id : Nat
  isAsync : Bool
  /-- the text of the name, "" if there is none (44-57) -/
  name : String
  /-- `NodeFlagsHasImplicitReturn` -/
  implicitReturn : Bool
  allowsVoid : Bool
deriving DecidableEq

/-- What the rule reads from a return statement. -/
structure Ret where
  id : Nat
  hasExpression : Bool
  /-- the flags of the type of the expression are exactly `TypeFlagsUndefined` -/
  typeIsUndefined : Bool
  /-- `IsUndefinedLiteral` of the expression -/
  isUndefinedLiteral : Bool
deriving DecidableEq

/-- Nodes: the kinds of 207-221 that have `enterFunction`, return statements, all others. -/
inductive Label
  | func (f : Func)
  | ret (r : Ret)
  | other
deriving DecidableEq

/-- consistent_return.go:13-25; the node reported (by id) and the function's description. -/
inductive Report
  | missing (node : Nat) (function : String)
  | unexpected (node : Nat) (function : String)
deriving DecidableEq, Repr

/-- 28-36: `upper` is the rest of the stack, `messageId` is read off `hasReturnValue` when `hasReturn` is set. -/
structure State where
  node : Func
  hasReturn : Bool
  hasReturnValue : Bool
  hasMismatch : Bool
  messageId : String

/-- 38-62 `getFunctionNameWithKind`. -/
def nameWithKind (f : Func) : String :=
  let kindPrefix := if f.isAsync then "Async function" else "Function"
  if f.name = "" then kindPrefix else kindPrefix ++ " '" ++ f.name ++ "'"

/-- 115-130 `getHasReturnValue`. -/
def getHasReturnValue (treatUndefined : Bool) (r : Ret) : Bool :=
  if !r.hasExpression then false
  else if !treatUndefined then true
  else if r.typeIsUndefined then false
  else !r.isUndefinedLiteral

/-- 132-139 `reportMismatchedReturnStatement`. -/
def reportMismatched (r : Ret) (s : State) : List Report :=
  if s.messageId = "missingReturnValue" then [.missing r.id (nameWithKind s.node)]
  else if s.messageId = "unexpectedReturnValue" then [.unexpected r.id (nameWithKind s.node)]
  else []

/-- 160-165 `enterFunction`: the new scope. -/
def enterFunction (f : Func) : State := ⟨f, false, false, false, ""⟩

/-- 167-178 `exitFunction`: the report. -/
def exitFunction (s : State) : List Report :=
  if !s.hasMismatch && s.hasReturn && s.hasReturnValue && s.node.implicitReturn && !s.node.allowsVoid
  then [.missing s.node.id (nameWithKind s.node)] else []

/-- 180-206 `onReturnStatement`. -/
def onReturn (treatUndefined : Bool) (s : State) (r : Ret) : State × List Report :=
  if !r.hasExpression && s.node.allowsVoid then (s, [])
  else
    let hasReturnValue := getHasReturnValue treatUndefined r
    if !s.hasReturn then
      ({ s with hasReturn := true, hasReturnValue := hasReturnValue,
                messageId := if hasReturnValue then "missingReturnValue" else "unexpectedReturnValue" }, [])
    else if s.hasReturnValue ≠ hasReturnValue then ({ s with hasMismatch := true }, reportMismatched r { s with hasMismatch := true })
    else (s, [])

/-- 208-224: the listeners; the state is the chain of `upper` pointers from `currentFunction`. -/
def step (treatUndefined : Bool) : List State → Event Label → List State × List Report
  | st, .enter (.func f) => (enterFunction f :: st, [])
  | [], .exit (.func _) => ([], [])
  | s :: st, .exit (.func _) => (st, exitFunction s)
  | [], .enter (.ret _) => ([], [])
  | s :: st, .enter (.ret r) => ((onReturn treatUndefined s r).1 :: st, (onReturn treatUndefined s r).2)
  | st, _ => (st, [])

/-- The reports for a file. -/
def check (treatUndefined : Bool) (file : List (Tree Label)) : List Report := (run (step treatUndefined) [] (eventss file)).2

/-! ## `isReturnVoidOrThenableVoid` (95-113) -/

/-- What it asks the checker. -/
structure VoidEnv (T : Type) where
  shape : T → Shape T
  /-- `IsIntrinsicVoidType` -/
  isVoid : T → Bool
  isThenable : T → Bool
  awaited : T → Option T

variable {T : Type} [DecidableEq T]

/-- 64-93 `isThenableTypeWithVoidValue`; the visited set is the state, the fuel bounds the recursion. -/
def voidWorker (E : VoidEnv T) : Nat → T → List T → Option (Bool × List T)
  | 0, _, _ => none
  | n + 1, t, visited =>
    if visited.contains t then some (false, visited)
    else
      let visited := visited ++ [t]
      if E.isVoid t then some (true, visited)
      else match E.shape t with
        | .union ps => someLoop (voidWorker E n) ps visited
        | .intersection ps => someLoop (voidWorker E n) ps visited
        | _ =>
          if !E.isThenable t then some (false, visited)
          else match E.awaited t with
            | none => some (false, visited)
            | some a => if a = t then some (false, visited) else voidWorker E n a visited

/-- 105-112: for one signature with the given return type. -/
def signatureAllowsVoid (E : VoidEnv T) (isAsync : Bool) (fuel : Nat) (returnType : T) : Option Bool :=
  if isAsync then (voidWorker E fuel returnType []).map (·.1)
  else some ((unionParts E.shape returnType).any E.isVoid)

/-- 95-113 `isReturnVoidOrThenableVoid`, given the return types of the call signatures (`utils.Some` stops at the first that does). -/
def returnsVoid (E : VoidEnv T) (isAsync : Bool) (fuel : Nat) : List T → Option Bool
  | [] => some false
  | t :: ts => match signatureAllowsVoid E isAsync fuel t with
    | none => none
    | some true => some true
    | some false => returnsVoid E isAsync fuel ts

end Tsgolint.ConsistentReturn
