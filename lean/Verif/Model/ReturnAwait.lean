import Verif.Model.RuleTree
import Verif.Model.TypeGraph
import Verif.Model.Fixer
/-!
# Model of the rule return-await (/repo/internal/rules/return_await/return_await.go)
-/
namespace Tsgolint.ReturnAwait
open Tsgolint.RuleTree
open Tsgolint.TypeGraph (Awaitable)
open Tsgolint.Fixer (Fix Bytes)

/-- return_await/options.go:10-13 -/
inductive Mode | always | errorHandlingCorrectnessOnly | inTryCatch | never
deriving DecidableEq, Repr

/-- return_await.go:55-61 -/
inductive Whether | dontCare | await | noAwait
deriving DecidableEq, Repr

/-- 63-82 `getWhetherToAwait`; the options are read from an enumeration, so the default case (a panic) does not occur. -/
def getWhetherToAwait (affectsErrorHandling : Bool) : Mode → Whether
  | .always => .await
  | .errorHandlingCorrectnessOnly => if affectsErrorHandling then .await else .dontCare
  | .inTryCatch => if affectsErrorHandling then .await else .noAwait
  | .never => .noAwait

/-- Which part of a try statement a child is (46-52). -/
inductive Part | catch_ | finally_ | try_
deriving DecidableEq, Repr

/-- A node on the way from an expression to the root, as `findContainingTryStatement` distinguishes them; for a try statement, the part
one comes from and whether it has a `finally`. -/
inductive Ancestor
  | functionLike
  | tryStatement (part : Part) (hasFinally : Bool)
  | other
deriving DecidableEq, Repr

/-- 134-161 `findContainingTryStatement`: walks up; the rest of the way is returned as well. -/
def findContainingTry : List Ancestor → Option (Part × Bool × List Ancestor)
  | [] => none
  | .functionLike :: _ => none
  | .tryStatement part hasFinally :: rest => some (part, hasFinally, rest)
  | .other :: rest => findContainingTry rest

theorem findContainingTry_lt {l : List Ancestor} {p : Part} {f : Bool} {r : List Ancestor} (h : findContainingTry l = some (p, f, r)) :
    r.length < l.length := by
  induction l with
  | nil => simp [findContainingTry] at h
  | cons a l ih =>
    cases a with
    | functionLike => simp [findContainingTry] at h
    | tryStatement p' f' => simp [findContainingTry] at h; obtain ⟨_, _, rfl⟩ := h; simp
    | other => have := ih h; simp; omega

/-- 168-198 `affectsExplicitErrorHandling`. -/
def affectsErrorHandling (ancestors : List Ancestor) : Bool :=
  match h : findContainingTry ancestors with
  | none => false
  | some (.catch_, hasFinally, rest) => if hasFinally then true else affectsErrorHandling rest
  | some (.finally_, _, rest) => affectsErrorHandling rest
  | some (.try_, _, _) => true
termination_by ancestors.length
decreasing_by all_goals exact findContainingTry_lt h

/-- A block scope container around an expression (`GetEnclosingBlockScopeContainer`): whether it is the function the rule is in, and its
local variables (116: declared with `using` or `await using`; position of the declaration). -/
structure Container where
  isOwningFunc : Bool
  locals : List (Bool × Int)
deriving DecidableEq

/-- 107-124: the loop over the containers; the map of locals is searched for one that matters. -/
def usingBefore (pos : Int) : List Container → Bool
  | [] => false
  | c :: cs =>
    if c.locals.any (fun l => l.1 && decide (l.2 < pos)) then true
    else if c.isOwningFunc then false
    else usingBefore pos cs

/-- An expression that may be returned, as the rule reads it (215-258). -/
structure Leaf where
  id : Nat
  isAwait : Bool
  /-- `NeedsToBeAwaited` of the type of the expression, or of what is awaited -/
  certainty : Awaitable
  ancestors : List Ancestor
  pos : Int
  containers : List Container
  /-- `IsHigherPrecedenceThanAwait` -/
  highPrecedence : Bool

/-- 102-126 `affectsExplicitResourceManagement`. -/
def affectsResources (bodyIsBlock : Bool) (l : Leaf) : Bool :=
  if !bodyIsBlock then false else usingBefore l.pos l.containers

/-- Returned expressions (261-271). -/
inductive Expr
  | paren (e : Expr)
  | conditional (whenTrue whenFalse : Expr)
  | leaf (l : Leaf)

/-- The messages (10-39), with what is offered. -/
inductive Kind
  | nonPromiseAwait
  | requiredPromiseAwait (parenthesised : Bool)
  | disallowedPromiseAwait
deriving DecidableEq, Repr

/-- A report: on which expression, what, and whether the change is offered as a fix (else as a suggestion). -/
structure Report where
  id : Nat
  kind : Kind
  asFix : Bool
deriving DecidableEq, Repr

/-- 215-258 `test`. -/
def test (mode : Mode) (bodyIsBlock : Bool) (l : Leaf) : List Report :=
  if l.certainty ≠ .always then
    if l.isAwait then
      if l.certainty = .may then [] else [⟨l.id, .nonPromiseAwait, true⟩]
    else []
  else
    let affects := affectsErrorHandling l.ancestors || affectsResources bodyIsBlock l
    let useAutoFix := !affects
    match getWhetherToAwait affects mode with
    | .await => if l.isAwait then [] else [⟨l.id, .requiredPromiseAwait (!l.highPrecedence), useAutoFix⟩]
    | .dontCare => []
    | .noAwait => if !l.isAwait then [] else [⟨l.id, .disallowedPromiseAwait, useAutoFix⟩]

/-- 261-271 `testEachPossiblyReturnedNode`. -/
def testEach (mode : Mode) (bodyIsBlock : Bool) : Expr → List Report
  | .paren e => testEach mode bodyIsBlock e
  | .conditional t f => testEach mode bodyIsBlock f ++ testEach mode bodyIsBlock t
  | .leaf l => test mode bodyIsBlock l

/-- What the rule reads from a function; `arrowBody` is the body of an arrow function if it is an expression. -/
structure Func where
  hasAsync : Bool
  bodyIsBlock : Bool
  arrowBody : Option Expr

/-- Nodes: functions (274-280), return statements (297-304), others. -/
inductive Label
  | func (f : Func)
  | ret (e : Option Expr)
  | other

/-- 41-45 `scopeInfo`. -/
structure Scope where
  hasAsync : Bool
  bodyIsBlock : Bool

/-- 91-97 `enterFunction`. -/
def enterFunction (f : Func) : Scope := ⟨f.hasAsync, f.bodyIsBlock⟩

/-- 282-289: leaving an arrow function; the other functions report nothing (290-295). -/
def exitFunction (mode : Mode) (s : Scope) (f : Func) : List Report :=
  match f.arrowBody with
  | some e => if s.hasAsync then testEach mode s.bodyIsBlock e else []
  | none => []

/-- 297-304: return statements. -/
def onReturn (mode : Mode) (s : Scope) (e : Option Expr) : List Report :=
  match e with
  | some e => if s.hasAsync then testEach mode s.bodyIsBlock e else []
  | none => []

/-- 273-305: the listeners; the state is the chain of `parent` pointers from `scope`.  Leaving a function without a scope would be a nil
dereference; it does not happen. -/
def step (mode : Mode) : List Scope → Event Label → List Scope × List Report
  | st, .enter (.func f) => (enterFunction f :: st, [])
  | [], .exit (.func _) => ([], [])
  | s :: st, .exit (.func f) => (st, exitFunction mode s f)
  | [], .enter (.ret _) => ([], [])
  | s :: st, .enter (.ret e) => (s :: st, onReturn mode s e)
  | st, _ => (st, [])

/-- The reports for a file. -/
def check (mode : Mode) (file : List (Tree Label)) : List Report := (run (step mode) [] (eventss file)).2

/-- 203-213 `insertAwaitFix`, for an expression in `[start, stop)`; "await " and "await (", ")". -/
def insertAwaitFix (start stop : Int) (highPrecedence : Bool) : List Fix :=
  if highPrecedence then [⟨[97, 119, 97, 105, 116, 32], start, start⟩]
  else [⟨[97, 119, 97, 105, 116, 32, 40], start, start⟩, ⟨[41], stop, stop⟩]

/-- 200-202 `removeAwaitFix`, for an `await` token in `[start, stop)`. -/
def removeAwaitFix (start stop : Int) : Fix := ⟨[], start, stop⟩

end Tsgolint.ReturnAwait
