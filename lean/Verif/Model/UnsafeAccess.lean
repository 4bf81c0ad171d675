/-!
# Model of no-unsafe-member-access and no-unsafe-call
(/repo/internal/rules/no_unsafe_member_access/no_unsafe_member_access.go, /repo/internal/rules/no_unsafe_call/no_unsafe_call.go,
`GetThisExpression` in /repo/internal/utils/ts_eslint.go)

Nodes carry an identity (the pointer), by which the compiler is asked about their types.
-/
namespace Tsgolint.UnsafeAccess

/-- What the rule tells apart among other nodes: literals, `++`/`--` expressions. -/
inductive Kind
  | literal
  | update
  | plain
deriving DecidableEq, Repr

/-- Syntax trees. -/
inductive Node
  /-- `obj.name`, `obj?.name` -/
  | prop (id : Nat) (questionDot : Bool) (obj : Node)
  /-- `obj[arg]`, `obj?.[arg]` -/
  | elem (id : Nat) (questionDot : Bool) (obj arg : Node)
  | paren (id : Nat) (e : Node)
  | call (id : Nat) (callee : Node) (args : List Node)
  | this (id : Nat)
  /-- `extends …`, `implements …` of a class or interface -/
  | heritage (id : Nat) (kids : List Node)
  | other (id : Nat) (kind : Kind) (kids : List Node)

def Node.id : Node → Nat
  | .prop i _ _ => i
  | .elem i _ _ _ => i
  | .paren i _ => i
  | .call i _ _ => i
  | .this i => i
  | .heritage i _ => i
  | .other i _ _ => i

/-- `ast.IsAccessExpression` -/
def Node.isAccess : Node → Bool
  | .prop .. => true
  | .elem .. => true
  | _ => false

/-- What the rules ask of the options and of the compiler. -/
structure Env where
  allowOptionalChaining : Bool
  noImplicitThis : Bool
  /-- `GetTypeAtLocation` is `any` (this includes the error type) -/
  isAny : Nat → Bool
  /-- it is the error type -/
  isError : Nat → Bool
  /-- `GetConstrainedTypeAtLocation` is `any` -/
  isAnyConstrained : Nat → Bool

/-- ts_eslint.go:431-449 `GetThisExpression` -/
def thisExpression : Node → Option Nat
  | .paren _ e => thisExpression e
  | .call _ callee _ => thisExpression callee
  | .this id => some id
  | .prop _ _ obj => thisExpression obj
  | .elem _ _ obj _ => thisExpression obj
  | .heritage .. => none
  | .other .. => none

/-- Messages: `this` is `any`; a member of an `any` or error value; a computed name that is `any` or an error. -/
inductive Msg
  | this
  | member (error : Bool)
  | computed (error : Bool)
deriving DecidableEq, Repr

/-- A report, by the identity of the access (it is made at the member name). -/
structure Report where
  id : Nat
  msg : Msg
deriving DecidableEq, Repr

/-- Lines 42-48. -/
inductive State
  | unsafe_
  | safe
  | chained
deriving DecidableEq, Repr

/-- The state cache (newest entry first) and the reports of member accesses and of computed names, newest first.  Simplification: the
two kinds of reports are kept apart. -/
structure St where
  cache : List (Nat × State) := []
  members : List Report := []
  computed : List Report := []

/-- Lines 135-145. -/
def memberMsg (E : Env) (node obj : Node) : Msg :=
  if !E.noImplicitThis && ((thisExpression node).map E.isAnyConstrained).getD false then .this else .member (E.isError obj.id)

/-- Lines 80-150 `checkMemberExpression`, for an access with object `obj`; `inner` is the recursive call for `obj`.  `inHeritage`: a parent is
a heritage clause (lines 91-99 walk up the parents). -/
def checkWith (E : Env) (inHeritage : Bool) (node : Node) (questionDot : Bool) (obj : Node) (inner : St → State × St) (s : St) : State × St :=
  if E.allowOptionalChaining && questionDot then (.chained, { s with cache := (node.id, .chained) :: s.cache })
  else match s.cache.lookup node.id with
    | some c => (c, s)
    | none =>
      if inHeritage then (.safe, s)
      else
        let (o, s) := if obj.isAccess then inner s else (.safe, s)
        if o = .unsafe_ then (.unsafe_, { s with cache := (node.id, .unsafe_) :: s.cache })
        else if E.isAny obj.id then
          (.unsafe_, { s with cache := (node.id, .unsafe_) :: s.cache, members := ⟨node.id, memberMsg E node obj⟩ :: s.members })
        else (.safe, { s with cache := (node.id, .safe) :: s.cache })

/-- Lines 80-150 `checkMemberExpression` -/
def check (E : Env) (h : Bool) : Node → St → State × St
  | .prop i q obj => checkWith E h (.prop i q obj) q obj (check E h obj)
  | .elem i q obj arg => checkWith E h (.elem i q obj arg) q obj (check E h obj)
  | _ => fun s => (.safe, s)

/-- Lines 167-184: neither a literal nor `++`/`--`. -/
def checkedArgument : Node → Bool
  | .other _ .literal _ => false
  | .other _ .update _ => false
  | _ => true

/-- Lines 156-192: the listeners. -/
def listen (E : Env) (h : Bool) (n : Node) (s : St) : St :=
  match n with
  | .prop .. => (check E h n s).2
  | .elem i q _ arg =>
    let s := (check E h n s).2
    if E.allowOptionalChaining && q then s
    else if !checkedArgument arg then s
    else if E.isAny arg.id then { s with computed := ⟨i, .computed (E.isError arg.id)⟩ :: s.computed }
    else s
  | _ => s

mutual
/-- The visit of a file: each node before its children (see `Model/Visit`). -/
def visit (E : Env) : Bool → Node → St → St
  | h, .prop i q obj, s => visit E h obj (listen E h (.prop i q obj) s)
  | h, .elem i q obj arg, s => visit E h arg (visit E h obj (listen E h (.elem i q obj arg) s))
  | h, .paren _ e, s => visit E h e s
  | h, .call _ callee args, s => visits E h args (visit E h callee s)
  | _, .this _, s => s
  | _, .heritage _ kids, s => visits E true kids s
  | h, .other _ _ kids, s => visits E h kids s

def visits (E : Env) : Bool → List Node → St → St
  | _, [], s => s
  | h, n :: ns, s => visits E h ns (visit E h n s)
end

/-! ## no-unsafe-call -/

/-- What the compiler says about the (constrained) type of a callee. -/
structure Callee where
  isAny : Bool
  isError : Bool
  /-- `IsBuiltinSymbolLike(…, "Function")` (see `TypeGraph`) -/
  functionLike : Bool
  constructSignatures : Nat
  /-- for each call signature, whether it returns `void` -/
  callSignatures : List Bool

/-- The messages for calls, `new` and template tags; the kind of value. -/
inductive What
  | any
  | error
  | function
deriving DecidableEq, Repr

inductive Form
  | call
  | new
  | tag
deriving DecidableEq, Repr

structure CallReport where
  /-- the message about `this` -/
  this : Bool
  what : What
deriving DecidableEq, Repr

/-- no_unsafe_call.go:48-104 `checkCall` -/
def checkCall (noImplicitThis : Bool) (thisIsAny : Option Bool) (form : Form) (c : Callee) : Option CallReport :=
  if c.isAny then some ⟨!noImplicitThis && thisIsAny.getD false, if c.isError then .error else .any⟩
  else if c.functionLike then
    if c.constructSignatures > 0 then none
    else if form = .new then (if c.callSignatures.any (fun v => !v) then none else some ⟨false, .function⟩)
    else if c.callSignatures.length > 0 then none
    else some ⟨false, .function⟩
  else none

/-- no_unsafe_call.go:106-123: the listeners; dynamic imports are skipped. -/
def callListener (noImplicitThis : Bool) (thisIsAny : Option Bool) (isImport : Bool) (form : Form) (c : Callee) : Option CallReport :=
  if form = .call && isImport then none else checkCall noImplicitThis thisIsAny form c

end Tsgolint.UnsafeAccess
