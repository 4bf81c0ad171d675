import Verif.Model.Loops
import Verif.Model.Fixer
/-!
# Model of promise-function-async
(/repo/internal/rules/promise_function_async/promise_function_async.go)
-/
namespace Tsgolint.PromiseAsync
open Tsgolint.TypeGraph Tsgolint.Fixer
variable {T : Type}

/-- How a type (after `Target()` of a reference) looks to lines 63-76. -/
inductive View (T : Type)
  | union (parts : List T)
  | intersection (parts : List T)
  /-- `ObjectFlagsClassOrInterface`, with `Checker_getBaseTypes` -/
  | classOrInterface (bases : List T)
  | other

/-- What the rule asks the compiler. -/
structure Env (T : Type) where
  /-- `TypeFlagsAnyOrUnknown` -/
  loose : T → Bool
  /-- `Target()` for type references, the type itself for others (lines 49-51) -/
  target : T → T
  /-- the name of `Type_symbol` -/
  symbol : T → Option String
  view : T → View T
  /-- `utils.IsUnionType` with `Types()`, of a return type -/
  unionTypes : T → Option (List T)

/-- options.go -/
structure Opts where
  allowAny : Bool := true
  allowedPromiseNames : List String := []
  checkArrowFunctions : Bool := true
  checkFunctionDeclarations : Bool := true
  checkFunctionExpressions : Bool := true
  checkMethodDeclarations : Bool := true
deriving Repr

/-- Lines 37-41: a set is the list of its members. -/
def allowedNames (o : Opts) : List String := "Promise" :: o.allowedPromiseNames

/-- Line 54. -/
def isNamed (E : Env T) (o : Opts) (t : T) : Bool :=
  match E.symbol t with
  | some s => (allowedNames o).contains s
  | none => false

/-- Lines 58-77, the type being no reference any more and not named; `predicate` is line 58. -/
def viewMatches (E : Env T) (matchAny : Bool) (predicate : T → Option Bool) (t : T) : Option Bool :=
  match E.view t with
  | .union ps => if matchAny then every? predicate ps else some? predicate ps
  | .intersection ps => if matchAny then every? predicate ps else some? predicate ps
  | .other => some false
  | .classOrInterface bases =>
    if matchAny then some? predicate bases
    else if bases.isEmpty then some false
    else every? predicate bases

/-- `containsAllTypesByName`, lines 44-78; the recursion takes fuel. -/
def containsAll (E : Env T) (o : Opts) (matchAny : Bool) : Nat → T → Option Bool
  | 0, _ => none
  | n + 1, t =>
    if E.loose t then some false
    else if isNamed E o (E.target t) then some true
    else viewMatches E matchAny (containsAll E o matchAny n) (E.target t)

/-- What is reported: nothing, without a fix, with a fix, with a suggestion. -/
inductive Outcome | nothing | plain | fix | suggestion
deriving DecidableEq, Repr

/-- The kinds of functions. -/
inductive Kind | arrow | functionDeclaration | functionExpression | method
deriving DecidableEq, Repr

/-- A function. -/
structure Fn (T : Type) where
  kind : Kind
  isAsync : Bool
  isAbstract : Bool
  hasBody : Bool
  hasReturnType : Bool
  /-- the return types of the call signatures of its type -/
  returns : List T

/-- The loop over the signatures, lines 95-110: `some none` for the early return with a report. -/
def signatureLoop (E : Env T) (o : Opts) (explicit : Bool) (fuel : Nat) : List T → Bool → Option (Option Bool)
  | [], every => some (some every)
  | r :: rs, every =>
    if !o.allowAny && E.loose r then some none
    else if every then
      match containsAll E o explicit fuel r with
      | none => none
      | some b => signatureLoop E o explicit fuel rs b
    else signatureLoop E o explicit fuel rs false

/-- Lines 119-132. -/
def hybridLoop (E : Env T) (o : Opts) (fuel : Nat) : List T → Option Bool
  | [] => some false
  | r :: rs =>
    match E.unionTypes r with
    | none => hybridLoop E o fuel rs
    | some ps =>
      match every? (containsAll E o true fuel) ps with
      | none => none
      | some false => some true
      | some true => hybridLoop E o fuel rs

/-- `validateNode`, lines 82-168. -/
def validateNode (E : Env T) (o : Opts) (fuel : Nat) (f : Fn T) : Option Outcome :=
  if f.isAsync || !f.hasBody then some .nothing
  else if f.returns.isEmpty then some .nothing
  else
    match signatureLoop E o f.hasReturnType fuel f.returns true with
    | none => none
    | some none => some .plain
    | some (some false) => some .nothing
    | some (some true) =>
      if f.hasReturnType then some .fix
      else
        match hybridLoop E o fuel f.returns with
        | none => none
        | some true => some .suggestion
        | some false => some .fix

/-- The listeners, lines 170-191. -/
def check (E : Env T) (o : Opts) (fuel : Nat) (f : Fn T) : Option Outcome :=
  match f.kind with
  | .arrow => if o.checkArrowFunctions then validateNode E o fuel f else some .nothing
  | .functionDeclaration => if o.checkFunctionDeclarations then validateNode E o fuel f else some .nothing
  | .functionExpression => if o.checkFunctionExpressions then validateNode E o fuel f else some .nothing
  | .method =>
    if o.checkMethodDeclarations then
      if f.isAbstract then some .nothing else validateNode E o fuel f
    else some .nothing

/-- `insertAsyncFix`, lines 134-151: `nameStart` of a method, `lastModifierEnd` of a function declaration that has modifiers. -/
def insertAsync (k : Kind) (nodeStart nameStart : Nat) (lastModifierEnd : Option Nat) : Fix :=
  match k with
  | .method => ⟨ascii " async ", nameStart, nameStart⟩
  | .functionDeclaration =>
    match lastModifierEnd with
    | some e => ⟨ascii " async", e, e⟩
    | none => ⟨ascii " async ", nodeStart, nodeStart⟩
  | _ => ⟨ascii " async ", nodeStart, nodeStart⟩

end Tsgolint.PromiseAsync
