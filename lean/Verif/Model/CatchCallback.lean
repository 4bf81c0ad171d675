import Verif.Model.Fixer
import Verif.Model.TypeGraph
/-!
# Model of use-unknown-in-catch-callback-variable
(/repo/internal/rules/use_unknown_in_catch_callback_variable/use_unknown_in_catch_callback_variable.go)

Types (`T`) are the compiler's; `IsThenableType` is modelled in `TypeGraph`.
-/
namespace Tsgolint.CatchCallback
open Tsgolint.Fixer (Fix Bytes ascii)
variable {T : Type}

/-- The first parameter of a call signature: its type, and whether its declaration is a rest parameter. -/
structure FirstParam (T : Type) where
  type : T
  rest : Bool

/-- What the rule asks about types. -/
structure Env (T : Type) where
  /-- `UnionTypeParts` (ts_api_utils.go:9-14) -/
  parts : T → List T
  /-- the call signatures, by their first parameter (`none`: no parameters) -/
  signatures : T → List (Option (FirstParam T))
  /-- `isArrayOrTupleType`, and then `getTypeArguments` -/
  arrayOrTuple : T → Option (List T)
  /-- flag `Unknown` -/
  isUnknown : T → Bool

/-- Lines 73-86: one signature's first parameter is not `unknown`; `none` is a panic (index out of range). -/
def flagsParam (E : Env T) (p : FirstParam T) : Option Bool :=
  if p.rest then match E.arrayOrTuple p.type with
    | none => some true
    | some [] => none
    | some (t :: _) => some (!E.isUnknown t)
  else some (!E.isUnknown p.type)

/-- Lines 66-88: the loop over the signatures. -/
def flagsSignatures (E : Env T) : List (Option (FirstParam T)) → Option Bool
  | [] => some false
  | none :: ss => flagsSignatures E ss
  | some p :: ss => match flagsParam E p with
    | none => none
    | some true => some true
    | some false => flagsSignatures E ss

/-- Lines 64-91 `isFlaggableHandlerType` -/
def flagsType (E : Env T) : List T → Option Bool
  | [] => some false
  | t :: ts => match flagsSignatures E (E.signatures t) with
    | none => none
    | some true => some true
    | some false => flagsType E ts

/-- The callback expression. -/
inductive Expr (T : Type)
  /-- a function or arrow function -/
  | function (id : Nat) (type : T)
  | paren (inner : Expr T)
  /-- `&&`, `||`, `??` -/
  | logical (left right : Expr T)
  | comma (left right : Expr T)
  | conditional (whenTrue whenFalse : Expr T)
  | other

/-- Lines 93-114 `collectFlaggedNodes`: the ids of the functions; `none` is a panic. -/
def collect (E : Env T) : Expr T → Option (List Nat)
  | .function id t => match flagsType E (E.parts t) with
    | none => none
    | some true => some [id]
    | some false => some []
  | .paren e => collect E e
  | .logical l r => match collect E l with
    | none => none
    | some a => match collect E r with
      | none => none
      | some b => some (a ++ b)
  | .comma _ r => collect E r
  | .conditional l r => match collect E l with
    | none => none
    | some a => match collect E r with
      | none => none
      | some b => some (a ++ b)
  | .other => some []

/-- Lines 129-140: the argument checked. -/
def argIndex (method : String) : Option Nat :=
  if method = "catch" then some 0 else if method = "then" then some 1 else none

/-- Lines 142-155: enough arguments, and no spread up to the one checked (`true`: a spread). -/
def spreadBefore : List Bool → Nat → Bool
  | [], _ => false
  | true :: _, _ => true
  | false :: _, 0 => false
  | false :: as, i + 1 => spreadBefore as i

/-- Lines 116-159: the index of the argument that is looked at.  `method` is the accessed property name, if the callee is an access with a known name. -/
def checkedArg (method : Option String) (thenable : Bool) (spreads : List Bool) : Option Nat := match method with
  | none => none
  | some m => match argIndex m with
    | none => none
    | some i =>
      if spreads.length < i + 1 then none
      else if spreadBefore spreads i then none
      else if !thenable then none
      else some i

/-! ## Reports -/

inductive Binding
  | identifier
  | array
  | object
deriving DecidableEq, Repr

/-- The first parameter as written: ranges in the source. -/
structure Param where
  rest : Bool
  binding : Binding
  /-- the trimmed range of the name -/
  name : Nat × Nat
  /-- the end of the `?`, if there is one -/
  question : Option Nat
  /-- the trimmed range of the type annotation -/
  annotation : Option (Nat × Nat)
  /-- it is the parameter of an arrow function without parentheses -/
  parenless : Bool

inductive Msg
  | useUnknown
  | arrayPattern
  | objectPattern
deriving DecidableEq, Repr

inductive Suggestion
  | addRest
  | wrongRest
  | add
  | wrong
deriving DecidableEq, Repr

/-- Lines 162-226: the message and the suggestion with its fixes. -/
def report (p : Param) : Msg × Option (Suggestion × List Fix) :=
  if p.rest then match p.annotation with
    | none => (.useUnknown, some (.addRest, [⟨ascii ": [unknown]", p.name.2, p.name.2⟩]))
    | some a => (.useUnknown, some (.wrongRest, [⟨ascii "[unknown]", a.1, a.2⟩]))
  else match p.binding with
    | .identifier => match p.annotation with
      | none =>
        if p.parenless then (.useUnknown, some (.add, [⟨ascii "(", p.name.1, p.name.1⟩, ⟨ascii ": unknown)", p.name.2, p.name.2⟩]))
        else
          let stop := match p.question with
            | some q => q
            | none => p.name.2
          (.useUnknown, some (.add, [⟨ascii ": unknown", stop, stop⟩]))
      | some a => (.useUnknown, some (.wrong, [⟨ascii "unknown", a.1, a.2⟩]))
    | .array => (.arrayPattern, none)
    | .object => (.objectPattern, none)

/-- The parameters of a flagged function as written: a `this` parameter comes first in the source, but is no parameter of the signature. -/
structure Written where
  this : Option Param
  params : List Param

/-- Line 162: the parameter that is reported. -/
def reported (w : Written) : Option Param := (w.this.toList ++ w.params).head?

end Tsgolint.CatchCallback
