import Verif.Model.Floating
/-! # Dropped promises: a semantics of expression statements -/
namespace Tsgolint.Floating

/-- A type that counts as a promise: not allowed by the user, and with a part that is a promise or, if asked for, has a `then` with a
signature that takes a second function. -/
def PromiseLike (o : Opts) (t : PType) : Prop :=
  t.allowed = false ∧ ∃ p ∈ t.parts, p.isPromise = true ∨
    (o.checkThenables = true ∧ ∃ parts, p.thenSignatures = some parts ∧ ∃ sigs ∈ parts, ∃ rest, (true :: true :: rest) ∈ sigs)

/-- An array or tuple of promises. -/
def PromiseArray (o : Opts) (t : NodeType) : Prop :=
  ∃ a ∈ t.arrays, (∃ e, a.1 = some e ∧ PromiseLike o e) ∨ (∃ es, a.2 = some es ∧ ∃ e ∈ es, PromiseLike o e)

def Expr.type : Expr → NodeType
  | .assignment t => t
  | .comma t .. => t
  | .voidOf t _ => t
  | .await t => t
  | .call t _ => t
  | .method t .. => t
  | .conditional t .. => t
  | .logical t .. => t
  | .paren t _ => t
  | .other t => t

/-- A value: not a promise; a promise someone takes care of; a promise (or an array of them) nobody does. -/
inductive Val
  | plain | handled | floating (array : Bool)
deriving DecidableEq

/-- The argument is a function, and surely is the one at that position. -/
def FunctionAt (args : List Arg) (index : Nat) : Prop :=
  ∃ before a after, args = before ++ a :: after ∧ before.length = index ∧ a.callable = true ∧ a.isSpread = false ∧ ∀ b ∈ before, b.isSpread = false

/-- The argument surely is the one at that position, and is no function. -/
def NonFunctionAt (args : List Arg) (index : Nat) : Prop :=
  ∃ before a after, args = before ++ a :: after ∧ before.length = index ∧ a.callable = false ∧ a.isSpread = false ∧ ∀ b ∈ before, b.isSpread = false

/-- `.catch(f)` and `.then(_, f)`. -/
def Handles (name : String) (args : List Arg) : Prop :=
  (name = "catch" ∧ FunctionAt args 0) ∨ (name = "then" ∧ FunctionAt args 1)

/-- `Ev o e v d`: the expression may have the value `v`, and drop the values `d` on the way (values used as a condition are not dropped; with
ignoreVoid what `void` drops does not count; arguments and callees are not looked into). -/
inductive Ev (o : Opts) : Expr → Val → List Val → Prop
  | assignment (t) : Ev o (.assignment t) .handled []
  | comma (t) {l r v d w d'} : Ev o l v d → Ev o r w d' → Ev o (.comma t l r) w (d ++ v :: d')
  | voidOf (t) {x v d} : Ev o x v d → Ev o (.voidOf t x) .plain (if o.ignoreVoid then [] else d ++ [v])
  | await (t) : Ev o (.await t) .plain []
  | awaitArray {t} : PromiseArray o t → Ev o (.await t) (.floating true) []
  | call (t args) : Ev o (.call t args) .plain []
  | callArray {t} (args) : PromiseArray o t → Ev o (.call t args) (.floating true) []
  | callPromise {t} (args) : PromiseLike o t.self → Ev o (.call t args) (.floating false) []
  | method (t name x args) : Ev o (.method t name x args) .plain []
  | methodArray {t} (name x args) : PromiseArray o t → Ev o (.method t name x args) (.floating true) []
  /-- a handler given to a promise -/
  | methodHandled {t name} {x : Expr} {args} : PromiseLike o t.self → Handles name args → PromiseLike o x.type.self → Ev o (.method t name x args) .handled []
  /-- `.finally`, which passes on what the promise it is called on is -/
  | passedOn {t} {x : Expr} {args v d} : PromiseLike o t.self → PromiseLike o x.type.self → Ev o x v d → Ev o (.method t "finally" x args) v d
  /-- methods of promises that neither handle nor pass on -/
  | methodPromise {t name} (x : Expr) {args} : PromiseLike o t.self → ¬ Handles name args → name ≠ "finally" → Ev o (.method t name x args) (.floating false) []
  /-- methods of things that are no promises, whatever their names -/
  | methodForeign {t name} {x : Expr} {args} : PromiseLike o t.self → ¬ PromiseLike o x.type.self → Ev o (.method t name x args) (.floating false) []
  | whenTrue (t) {a b v d} : Ev o a v d → Ev o (.conditional t a b) v d
  | whenFalse (t) {a b v d} : Ev o b v d → Ev o (.conditional t a b) v d
  | left (t) {l r v d} : Ev o l v d → Ev o (.logical t l r) v d
  | right (t) {l r v d w d'} : Ev o l v d → Ev o r w d' → Ev o (.logical t l r) w (d ++ d')
  | paren (t) {x v d} : Ev o x v d → Ev o (.paren t x) v d
  | other (t) : Ev o (.other t) .plain []
  | otherArray {t} : PromiseArray o t → Ev o (.other t) (.floating true) []
  | otherPromise {t} : PromiseLike o t.self → Ev o (.other t) (.floating false) []

/-- The statement may drop a promise, or an array of promises, nobody takes care of. -/
def Drops (o : Opts) (e : Expr) (array : Bool) : Prop := ∃ v d, Ev o e v d ∧ .floating array ∈ v :: d

/-- The type of a choice is that of its alternatives. -/
def Agrees (o : Opts) (t a b : NodeType) : Prop :=
  (PromiseLike o t.self ↔ PromiseLike o a.self ∨ PromiseLike o b.self) ∧ (PromiseArray o t ↔ PromiseArray o a ∨ PromiseArray o b)

/-- Below a choice or `.finally`: no comma, no parentheses, no stored array, `void` only if it is ignored; the types of choices are those of the
alternatives; `catch`, `then` and `finally` that return promises are methods of promises. -/
def Flat (o : Opts) : Expr → Prop
  | .assignment t => ¬ PromiseArray o t
  | .comma .. => False
  | .voidOf t _ => o.ignoreVoid = true ∧ ¬ PromiseLike o t.self ∧ ¬ PromiseArray o t
  | .await _ => True
  | .call .. => True
  | .method t name x _ => (PromiseLike o t.self → (name = "catch" ∨ name = "then" ∨ name = "finally") → PromiseLike o x.type.self) ∧ (name = "finally" → Flat o x)
  | .conditional t a b => Agrees o t a.type b.type ∧ Flat o a ∧ Flat o b
  | .logical t l r => Agrees o t l.type r.type ∧ Flat o l ∧ Flat o r
  | .paren .. => False
  | .other _ => True

/-- Commas and `void` at the top of the statement, and below them expressions as above. -/
def Spine (o : Opts) : Expr → Prop
  | .assignment _ => True
  | .comma _ l r => Spine o l ∧ Spine o r
  | .voidOf t x => if o.ignoreVoid then ¬ PromiseLike o t.self ∧ ¬ PromiseArray o t else Spine o x
  | x => Flat o x

end Tsgolint.Floating
