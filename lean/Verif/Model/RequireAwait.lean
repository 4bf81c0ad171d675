import Verif.Model.RuleTree
import Verif.Model.Fixer
/-!
# Model of the rule require-await (/repo/internal/rules/require_await/require_await.go)
-/
namespace Tsgolint.RequireAwait
open Tsgolint.RuleTree
open Tsgolint.Fixer (Fix Bytes)

/-- The body of an arrow function without its parentheses (require_await.go:272), and what the checker says of it (277). -/
structure Arrow where
  bodyIsBlock : Bool
  bodyIsAwait : Bool
  bodyIsThenable : Bool
deriving DecidableEq

/-- What the rule reads from a function node. -/
structure Func where
  id : Nat
  isAsync : Bool
  isGenerator : Bool
  /-- 217-218: there is a body, and it is not an empty block -/
  hasStatements : Bool
  /-- for arrow functions -/
  arrow : Option Arrow
deriving DecidableEq

/-- A `yield` (300-329). -/
structure Yield where
  hasArgument : Bool
  argumentIsLiteral : Bool
  /-- `yield*` -/
  delegates : Bool
  argumentIsThenable : Bool
  /-- 323-325: the argument's type has the property `[Symbol.asyncIterator]` -/
  argumentIsAsyncIterable : Bool
deriving DecidableEq

/-- Nodes: the function kinds of 252-281, the kinds with a listener in 283-341, all others. -/
inductive Label
  | func (f : Func)
  | await
  | forOf (hasAwaitModifier : Bool)
  | varList (isAwaitUsing : Bool)
  | yield (y : Yield)
  | ret (hasExpression : Bool) (isThenable : Bool)
  | other
deriving DecidableEq

/-- 26-31 `scopeInfo`; the flags are split into two booleans. -/
structure Scope where
  hasAwait : Bool
  isAsyncYield : Bool
  isAsync : Bool
  isGenerator : Bool

/-- The report of 229-239: on which function, and whether the fixes are built for a generator. -/
structure Report where
  func : Nat
  generator : Bool
deriving DecidableEq, Repr

/-- 209-221 `enterFunction`, the new scope. -/
def enterFunction (f : Func) : Scope :=
  if f.hasStatements then ⟨false, false, f.isAsync, f.isGenerator⟩ else ⟨false, false, false, false⟩

/-- 264-280: the listener for arrow functions, after `enterFunction`. -/
def enterArrow (s : Scope) (a : Arrow) : Scope :=
  if !s.isAsync then s
  else if a.bodyIsBlock || a.bodyIsAwait then s
  else if a.bodyIsThenable then { s with hasAwait := true }
  else s

/-- 252-280: the listeners for entering functions. -/
def enter (f : Func) : Scope :=
  match f.arrow with
  | none => enterFunction f
  | some a => enterArrow (enterFunction f) a

/-- 223-242 `exitFunction`, the report. -/
def exitFunction (s : Scope) (f : Func) : List Report :=
  if s.isAsync && !s.hasAwait && !(s.isGenerator && s.isAsyncYield) then [⟨f.id, s.isGenerator⟩] else []

/-- 300-329: the listener for `yield`. -/
def onYield (s : Scope) (y : Yield) : Scope :=
  if s.isAsyncYield then s
  else if !s.isGenerator || !y.hasArgument then s
  else if y.argumentIsLiteral then s
  else if !y.delegates then (if y.argumentIsThenable then { s with isAsyncYield := true } else s)
  else if y.argumentIsAsyncIterable then { s with isAsyncYield := true } else s

/-- 283-341: the other listeners, for the innermost scope (`currentScope != nil`). -/
def within (s : Scope) : Label → Scope
  | .await => { s with hasAwait := true }
  | .forOf aw => if aw then { s with hasAwait := true } else s
  | .varList aw => if aw then { s with hasAwait := true } else s
  | .yield y => onYield s y
  | .ret hasExpression isThenable =>
    if s.hasAwait || !s.isAsync then s
    else if hasExpression && isThenable then { s with hasAwait := true } else s
  | _ => s

/-- 250-343: the listeners; the state is the chain of `upper` pointers from `currentScope`.  Leaving a function without a scope would be a
nil dereference; it does not happen, as every function is entered before it is left. -/
def step : List Scope → Event Label → List Scope × List Report
  | st, .enter (.func f) => (enter f :: st, [])
  | [], .exit (.func _) => ([], [])
  | s :: st, .exit (.func f) => (st, exitFunction s f)
  | [], .enter _ => ([], [])
  | s :: st, .enter l => (within s l :: st, [])
  | st, _ => (st, [])

/-- The reports for a file. -/
def check (file : List (Tree Label)) : List Report := (run step [] (eventss file)).2

/-! ## The suggestion to remove `async` (131-190) -/

/-- 66: white space, as far as it is skipped. -/
def isSpace (c : UInt8) : Bool := c == 32 || c == 9 || c == 10 || c == 13

/-- 64-72: the last character before the node that is not white space, and the one before it; the text before the node is given in
reverse. -/
def lastTwo : List UInt8 → Option (UInt8 × Option UInt8)
  | [] => none
  | c :: cs => if isSpace c then lastTwo cs else some (c, cs.head?)

/-- 60-105 `needsPrecedingSemicolon`.  `before` is the text before the node; `afterMember` is 90-101: the node is a member of a class,
interface or object literal and the member before it is a method, constructor or accessor. -/
def needsPrecedingSemicolon (before : Bytes) (afterMember : Bool) : Bool :=
  match lastTwo before.reverse with
  | none => false
  | some (ch, prev) =>
    -- 76-79: ; : { , ( [
    if ch == 59 || ch == 58 || ch == 123 || ch == 44 || ch == 40 || ch == 91 then false
    -- 80-85: => ++ --
    else if (prev == some 61 && ch == 62) || (prev == some 43 && ch == 43) || (prev == some 45 && ch == 45) then false
    -- 88-103: }
    else if ch == 125 && afterMember then false
    else true

/-- The return type annotation (163-190). -/
inductive ReturnType
  /-- `AsyncGenerator…`: range of the name -/
  | asyncGenerator (nameStart nameEnd : Int)
  /-- `Promise<…>`: start of the name, range between the angle brackets -/
  | promise (nameStart argsPos argsEnd : Int)
  | other
deriving DecidableEq

/-- What the fix reads. -/
structure AsyncSite where
  /-- start of `async` and the end of the white space after it (136-139) -/
  asyncStart : Int
  removeEnd : Int
  /-- 147-151: the next token is `(`, `[` or a template -/
  hazard : Bool
  /-- 152: `isAtStartOfExpressionStatement(node) || isMethodLike(node)` -/
  startsStatementOrMember : Bool
  before : Bytes
  afterMember : Bool
  returnType : ReturnType

/-- 131-190 `buildRemoveAsyncFixes`. -/
def removeAsyncFixes (a : AsyncSite) (isGenerator : Bool) : List Fix :=
  let addSemicolon := a.hazard && (a.startsStatementOrMember && needsPrecedingSemicolon a.before a.afterMember)
  let first : Fix := ⟨if addSemicolon then [59] else [], a.asyncStart, a.removeEnd⟩
  match a.returnType with
  | .asyncGenerator nameStart nameEnd =>
    if isGenerator then [first, ⟨[71, 101, 110, 101, 114, 97, 116, 111, 114], nameStart, nameEnd⟩] else [first]
  | .promise nameStart argsPos argsEnd =>
    if !isGenerator then [first, ⟨[], argsEnd, argsEnd + 1⟩, ⟨[], nameStart, argsPos - 1 + 1⟩] else [first]
  | .other => [first]

end Tsgolint.RequireAwait
