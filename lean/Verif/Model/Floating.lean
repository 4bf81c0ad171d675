import Verif.Model.Fixer
/-!
# Model of no-floating-promises
(/repo/internal/rules/no_floating_promises/no_floating_promises.go)

What the compiler says of types, and whether the allow lists match (C26, C27), are parameters.
-/
namespace Tsgolint.Floating

structure Opts where
  checkThenables : Bool := false
  ignoreIIFE : Bool := false
  ignoreVoid : Bool := true
deriving Repr

/-- A part of a type: the built-in promise, or with a `then` (whose type has union parts, with signatures, with parameters: whether each is a function). -/
structure Part where
  isPromise : Bool := false
  thenSignatures : Option (List (List (List Bool))) := none
deriving DecidableEq, Repr

/-- A type: whether allowForKnownSafePromises has it, and the parts of its apparent type. -/
structure PType where
  allowed : Bool := false
  parts : List Part := []
deriving DecidableEq, Repr

/-- The type of a node; for each of its union parts: the type argument if it is an array, the type arguments if it is a tuple. -/
structure NodeType where
  self : PType := {}
  arrays : List (Option PType × Option (List PType)) := []
deriving DecidableEq, Repr

/-- The matcher of lines 173-176. -/
def rejectable (params : List Bool) : Bool := params.length ≥ 2 && params[0]?.getD false && params[1]?.getD false

/-- Lines 166-179, for one part. -/
def hasRejectableThen (p : Part) : Bool :=
  match p.thenSignatures with
  | none => false
  | some parts => parts.any fun sigs => sigs.any rejectable

/-- `isPromiseLike`, lines 134-182, with `hasMatchingSignature`, 119-130. -/
def isPromiseLike (o : Opts) (t : PType) : Bool :=
  if t.allowed then false
  else if t.parts.any (·.isPromise) then true
  else if !o.checkThenables then false
  else t.parts.any hasRejectableThen

/-- Lines 187-192. -/
def arrayOfPromises (o : Opts) : Option PType → Bool
  | some e => isPromiseLike o e
  | none => false

/-- Lines 193-199. -/
def tupleOfPromises (o : Opts) : Option (List PType) → Bool
  | some es => es.any (isPromiseLike o)
  | none => false

/-- `isPromiseArray`, lines 183-203. -/
def isPromiseArray (o : Opts) (t : NodeType) : Bool := t.arrays.any fun a => arrayOfPromises o a.1 || tupleOfPromises o a.2

structure Arg where
  isSpread : Bool := false
  /-- its type has call signatures -/
  callable : Bool := false
deriving DecidableEq, Repr

/-- Expressions, as far as the rule looks into them; `call`: with the method name and the object if the callee is a member access. -/
inductive Expr
  | assignment (t : NodeType)
  | comma (t : NodeType) (left right : Expr)
  | voidOf (t : NodeType) (x : Expr)
  | await (t : NodeType)
  | call (t : NodeType) (args : List Arg)
  | method (t : NodeType) (name : String) (object : Expr) (args : List Arg)
  | conditional (t : NodeType) (whenTrue whenFalse : Expr)
  | logical (t : NodeType) (left right : Expr)
  | paren (t : NodeType) (x : Expr)
  | other (t : NodeType)

/-- `unhandledPromise`, lines 255-260; `handler`: the index of the argument that is no function. -/
structure Unhandled where
  promiseArray : Bool := false
  handler : Option Nat := none
deriving DecidableEq, Repr

/-- `isKnownArgumentAt`, lines 248-253. -/
def isKnownArgumentAt (args : List Arg) (index : Nat) : Bool :=
  if args.length ≤ index then false else !(args.take (index + 1)).any (·.isSpread)

/-- Lines 316-342 and 355-356: a call with a handler at `index`. -/
def handlerAt (args : List Arg) (index : Nat) : Option Unhandled :=
  if !isKnownArgumentAt args index then some {}
  else if (args[index]?.map (·.callable)).getD false then none
  else some { handler := some index }

/-- `isUnhandledPromise`, lines 263-382. -/
def isUnhandledPromise (o : Opts) : Expr → Option Unhandled
  | .assignment _ => none
  | .comma _ l r =>
    match isUnhandledPromise o l with
    | some u => some u
    | none => isUnhandledPromise o r
  | .voidOf t x =>
    if !o.ignoreVoid then isUnhandledPromise o x
    else if isPromiseArray o t then some { promiseArray := true }
    else if !isPromiseLike o t.self then none
    else some {}
  | .await t => if isPromiseArray o t then some { promiseArray := true } else none
  | .call t _ =>
    if isPromiseArray o t then some { promiseArray := true }
    else if !isPromiseLike o t.self then none
    else some {}
  | .method t name object args =>
    if isPromiseArray o t then some { promiseArray := true }
    else if !isPromiseLike o t.self then none
    else if name = "catch" ∧ args.length ≥ 1 then handlerAt args 0
    else if name = "then" ∧ args.length ≥ 2 then handlerAt args 1
    else if name = "finally" then isUnhandledPromise o object
    else some {}
  | .conditional t a b =>
    if isPromiseArray o t then some { promiseArray := true }
    else if !isPromiseLike o t.self then none
    else match isUnhandledPromise o b with
      | some u => some u
      | none => isUnhandledPromise o a
  | .logical t l r =>
    if isPromiseArray o t then some { promiseArray := true }
    else if !isPromiseLike o t.self then none
    else match isUnhandledPromise o l with
      | some u => some u
      | none => isUnhandledPromise o r
  | .paren t _ =>
    if isPromiseArray o t then some { promiseArray := true }
    else if !isPromiseLike o t.self then none
    else some {}
  | .other t =>
    if isPromiseArray o t then some { promiseArray := true }
    else if !isPromiseLike o t.self then none
    else some {}

/-- `ast.SkipParentheses` -/
def skipParens : Expr → Expr
  | .paren _ x => skipParens x
  | x => x

/-- Lines 12-66. -/
inductive Message
  | floating | floatingVoid | floatingPromiseArray | floatingPromiseArrayVoid | floatingUselessRejectionHandler | floatingUselessRejectionHandlerVoid
deriving DecidableEq, Repr

structure Statement where
  expression : Expr
  /-- `isAsyncIife`, lines 234-242 -/
  isIife : Bool := false
  /-- `isKnownSafePromiseReturn`, lines 205-232 -/
  isKnownSafe : Bool := false

/-- The listener, lines 410-476: the message. -/
def report (o : Opts) (s : Statement) : Option Message :=
  if o.ignoreIIFE && s.isIife then none
  else if s.isKnownSafe then none
  else match isUnhandledPromise o (skipParens s.expression) with
  | none => none
  | some u => some (
    if u.promiseArray then (if o.ignoreVoid then .floatingPromiseArrayVoid else .floatingPromiseArray)
    else if o.ignoreVoid then (if u.handler.isSome then .floatingUselessRejectionHandlerVoid else .floatingVoid)
    else if u.handler.isSome then .floatingUselessRejectionHandler else .floating)

open Tsgolint.Fixer in
/-- The suggestions: `keyword` (`void` or `await`) put before the statement, lines 88-106 and 446-461. `isVoid`: the expression, without
parentheses, is a `void` expression, with that token (only for `await`); `higher`: isHigherPrecedenceThanUnary (lines 75-82); `stmt`: where the
statement's first token begins; `exprEnd`: where the expression without parentheses ends. -/
def keywordFix (keyword : String) (isVoid : Option (Nat × Nat)) (higher : Bool) (stmt exprEnd : Nat) : List Fix :=
  match isVoid with
  | some (p, e) => [⟨ascii keyword, p, e⟩]
  | none =>
    if higher then [⟨ascii keyword ++ ascii " ", stmt, stmt⟩]
    else [⟨ascii keyword ++ ascii " (", stmt, stmt⟩, ⟨ascii ")", exprEnd, exprEnd⟩]

end Tsgolint.Floating
