import Verif.Model.TypeGraph
import Verif.Model.Fixer
/-!
# Model of await-thenable
(/repo/internal/rules/await_thenable/await_thenable.go)

Types are elements of an arbitrary type `T`, as in `TypeGraph`; what the compiler says of them is a parameter.
-/
namespace Tsgolint.AwaitThenable
open Tsgolint.TypeGraph Tsgolint.Fixer
variable {T : Type} [DecidableEq T]

/-- What the rule asks the compiler. -/
structure Env (T : Type) where
  then_ : ThenEnv T
  /-- `checker.IsTupleType` -/
  isTuple : T → Bool
  /-- `Checker_getTypeArguments` -/
  typeArgs : T → List T
  /-- `GetNumberIndexType` -/
  numberIndex : T → Option T
  /-- `GetWellKnownSymbolPropertyOfType(t, name)` is not nil -/
  hasSymbol : String → T → Bool

/-- A node: its text range (without leading trivia) and its type; `constrained` is `GetConstrainedTypeAtLocation`. -/
structure Node (T : Type) where
  pos : Nat
  stop : Nat
  type : T
  constrained : T

/-- `utils.NeedsToBeAwaited(…) == utils.TypeAwaitableNever` -/
def never (E : Env T) (t : T) : Bool := decide (needsToBeAwaited E.then_.shape (isThenable E.then_) t = .never)

/-- `isAlwaysNonAwaitableType`, lines 317-325. -/
def isAlwaysNonAwaitable (E : Env T) (t : T) : Bool := (unionParts E.then_.shape t).all (never E)

/-- `containsNonAwaitableType`, lines 327-335. -/
def containsNonAwaitable (E : Env T) (t : T) : Bool := (unionParts E.then_.shape t).any (never E)

/-- `isIterable`, lines 337-344. -/
def isIterable (E : Env T) (t : T) : Bool := (unionParts E.then_.shape t).all (E.hasSymbol "iterator")

/-- `getValueTypesOfArrayLike`, lines 297-315. -/
def valueTypes (E : Env T) (t : T) : List T :=
  if E.isTuple t then E.typeArgs t
  else match E.numberIndex t with
    | some v => [v]
    | none => (E.typeArgs t).take 1

/-- `isInvalidPromiseAggregatorInput`, lines 276-295. -/
def isInvalidInput (E : Env T) (t : T) : Bool :=
  if !isIterable E t then false
  else (unionParts E.then_.shape t).any fun part => (valueTypes E part).any (containsNonAwaitable E)

/-- The ids of the messages, lines 16-62. -/
inductive Message | await_ | forAwaitOf | awaitUsing | aggregator
deriving DecidableEq, Repr

/-- A report: message, range, the range labelled first, further labels, the suggestions. -/
structure Diag where
  message : Message
  range : Nat × Nat
  label : Nat × Nat
  extra : List (Nat × Nat) := []
  suggestions : List (List Fix) := []

/-- The listener of await expressions, lines 102-124; `token`: the range of the `await` token. -/
def onAwait (E : Env T) (token : Nat × Nat) (argument : Node T) : List Diag :=
  if never E argument.type then
    [{ message := .await_, range := token, label := (argument.pos, argument.stop), suggestions := [[⟨[], token.1, token.2⟩]] }]
  else []

/-- `promiseAggregatorMethods`, lines 92-97. -/
def aggregatorMethods : List String := ["all", "allSettled", "any", "race"]

/-- A callee without parentheses: the name accessed (if it is an access with a known name), and whether its object is like the
promise constructor (`IsPromiseConstructorLike`, C51). -/
structure Callee where
  name : Option String
  onPromise : Bool

/-- `isPromiseAggregatorMethod`, lines 255-274. -/
def isAggregator (c : Callee) : Bool :=
  match c.name with
  | none => false
  | some n => if !aggregatorMethods.contains n then false else c.onPromise

/-- An argument: an array literal with its elements (`none`: omitted), or anything else. -/
inductive Argument (T : Type)
  | literal (node : Node T) (elements : List (Option (Node T)))
  | other (node : Node T)

/-- The loop over the elements, lines 143-163. -/
def elementDiags (E : Env T) (array : Node T) : List (Option (Node T)) → List Diag
  | [] => []
  | none :: es => elementDiags E array es
  | some e :: es =>
    if isAlwaysNonAwaitable E e.constrained then
      { message := .aggregator, range := (e.pos, e.stop), label := (e.pos, e.stop), extra := [(array.pos, array.stop)] } :: elementDiags E array es
    else elementDiags E array es

/-- The listener of calls, lines 125-176. -/
def onCall (E : Env T) (callee : Callee) (args : List (Argument T)) : List Diag :=
  if !isAggregator callee then []
  else match args with
    | [] => []
    | .literal node elements :: _ => elementDiags E node elements
    | .other node :: _ =>
      if isInvalidInput E node.constrained then
        [{ message := .aggregator, range := (node.pos, node.stop), label := (node.pos, node.stop) }]
      else []

/-- Lines 184-193 and 224-233: not `any`, and no part has the symbol. -/
def lacksSymbol (E : Env T) (name : String) (t : T) : Bool :=
  match E.then_.shape t with
  | .any => false
  | _ => !(unionParts E.then_.shape t).any (E.hasSymbol name)

/-- The listener of `for … of`, lines 177-214; `await?`: the range of the modifier; `head`: `GetForStatementHeadLoc`. -/
def onForOf (E : Env T) (await? : Option (Nat × Nat)) (head : Nat × Nat) (expression : Node T) : List Diag :=
  match await? with
  | none => []
  | some m =>
    if lacksSymbol E "asyncIterator" expression.type then
      [{ message := .forAwaitOf, range := head, label := (expression.pos, expression.stop), suggestions := [[⟨[], m.1, m.2⟩]] }]
    else []

/-- Lines 221-251, for one declaration of `count`. -/
def declarationDiags (E : Env T) (token : Nat × Nat) (count : Nat) (init : Option (Node T)) : List Diag :=
  match init with
  | none => []
  | some i =>
    if lacksSymbol E "asyncDispose" i.type then
      [{ message := .awaitUsing, range := (i.pos, i.stop), label := (i.pos, i.stop),
         suggestions := if count = 1 then [[⟨[], token.1, token.2⟩]] else [] }]
    else []

/-- The listener of declaration lists, lines 215-252; `token`: the range of the list's first token. -/
def onDeclarations (E : Env T) (isAwaitUsing : Bool) (token : Nat × Nat) (inits : List (Option (Node T))) : List Diag :=
  if !isAwaitUsing then [] else inits.flatMap (declarationDiags E token inits.length)

end Tsgolint.AwaitThenable
