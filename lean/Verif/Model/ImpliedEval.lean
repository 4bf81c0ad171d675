import Verif.Model.TypeGraph
/-!
# Model of no-implied-eval (/repo/internal/rules/no_implied_eval/no_implied_eval.go)
-/
namespace Tsgolint.ImpliedEval

/-- What comes after the object of an access. -/
inductive Member
  /-- `.name`; `none` for a private name -/
  | property (name : Option String)
  /-- `['text']`; `none` for another index -/
  | element (text : Option String)
deriving DecidableEq, Repr

/-- Callees. -/
inductive Callee
  | identifier (name : String)
  /-- the object's name if it is an identifier -/
  | access (object : Option String) (m : Member)
  | other
deriving DecidableEq, Repr

/-- Line 26. -/
def globalCandidates : List String := ["global", "globalThis", "window"]
/-- Line 27. -/
def evalLikeFunctions : List String := ["execScript", "setImmediate", "setInterval", "setTimeout"]

/-- `getCalleeName`, lines 32-51. -/
def calleeName : Callee → String
  | .identifier n => n
  | .access (some o) m =>
    if globalCandidates.contains o then
      match m with
      | .property (some n) => n
      | .element (some t) => t
      | _ => ""
    else ""
  | _ => ""

/-- What `isFunctionType` (lines 53-66) finds out about the type of an expression. -/
structure TypeInfo where
  /-- its symbol has `SymbolFlagsFunction` or `SymbolFlagsMethod` -/
  functionSymbol : Bool
  /-- `IsBuiltinSymbolLike(…, "Function")` (C51) -/
  likeFunction : Bool
  /-- number of call signatures (C52) -/
  callSignatures : Nat
deriving DecidableEq, Repr

/-- The first argument. -/
inductive Handler
  | functionLike
  | literal
  /-- a call, with the name of its callee or of the property called, if that is an identifier -/
  | call (name : Option String) (t : TypeInfo)
  | other (t : TypeInfo)
deriving DecidableEq, Repr

/-- `isFunctionType`, lines 53-66. -/
def isFunctionType (t : TypeInfo) : Bool :=
  if t.functionSymbol then true else if t.likeFunction then true else decide (t.callSignatures > 0)

/-- `isFunction`, lines 75-86, with `isBind`, lines 68-73. -/
def isFunction : Handler → Bool
  | .functionLike => true
  | .literal => false
  | .call name t => decide (name = some "bind") || isFunctionType t
  | .other t => isFunctionType t

/-- A call or `new`. -/
structure Call where
  callee : Callee
  /-- the type of the callee: `none` without a symbol, otherwise `IsBuiltinSymbolLike(…, "FunctionConstructor")` -/
  constructorLike : Option Bool
  /-- the first argument, if any -/
  handler : Option Handler
  /-- for each declaration of the callee's symbol, whether it is in this file; `none` without a symbol -/
  declarationsHere : Option (List Bool)

/-- The reports: on the call, on the first argument. -/
inductive Report | functionConstructor | impliedEval
deriving DecidableEq, Repr

/-- `checkImpliedEval` after the part about `Function`, lines 109-123. -/
def checkHandler (name : String) (c : Call) : List Report :=
  match c.handler with
  | none => []
  | some h =>
    if evalLikeFunctions.contains name && !isFunction h then
      match c.declarationsHere with
      | none => [.impliedEval]
      | some ds => if !ds.any id then [.impliedEval] else []
    else []

/-- `checkImpliedEval`, lines 88-124. -/
def check (c : Call) : List Report :=
  let name := calleeName c.callee
  if name = "" then []
  else if name = "Function" then
    match c.constructorLike with
    | some true => [.functionConstructor]
    | some false => checkHandler name c
    | none => .functionConstructor :: checkHandler name c
  else checkHandler name c

end Tsgolint.ImpliedEval
