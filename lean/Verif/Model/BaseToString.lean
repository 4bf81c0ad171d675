/-!
# Model of no-base-to-string
(/repo/internal/rules/no_base_to_string/no_base_to_string.go)

Types are numbers; what the compiler says of a type is given by `Info`. Recursion is bounded by fuel; C62 shows how much is enough.
-/
namespace Tsgolint.BaseToString

/-- Lines 44-48. -/
inductive Usefulness
  | always | never | sometimes
deriving DecidableEq, Repr

/-- What the rule asks about a type. The declarations of a property: whether each is a member of the interface `Object`. -/
structure Info where
  isTypeParameter : Bool := false
  baseConstraint : Option Nat := none
  booleanLike : Bool := false
  /-- lines 245-249: the type or a base type has a name in ignoredTypeNames -/
  ignored : Bool := false
  intersection : Option (List Nat) := none
  union : Option (List Nat) := none
  tuple : Option (List Nat) := none
  /-- an array, with its number index type (lines 180-183 panic if there were none) -/
  array : Option Nat := none
  toString : Option (List Bool) := none
  toLocaleString : Option (List Bool) := none
  valueOf : Option (List Bool) := none
  isUnknown : Bool := false
deriving Repr

/-- The two memos, lines 76-77. -/
inductive Mode
  | toString | join
deriving DecidableEq, Repr

structure Query where
  mode : Mode
  type : Nat
deriving DecidableEq, Repr

/-- What a computation does: a fixed answer, the answer of another question (`visit`: with the type added to `visited`), or one of the
combinations of lines 129-175. -/
inductive Shape
  | const (u : Usefulness)
  | ask (visit : Bool) (q : Query)
  | union (qs : List Query)
  | intersection (qs : List Query)
  | tuple (visit : Bool) (qs : List Query)

/-- Lines 269-295: the loop over the three properties. -/
def propertyLoop : Bool → List (Option (List Bool)) → Option Usefulness
  | found, [] => if found then some .never else none
  | found, none :: rest => propertyLoop found rest
  | found, some ds :: rest =>
    if ds.length = 0 then propertyLoop found rest
    else if ds.any (fun onObject => !onObject) then some .always
    else propertyLoop true rest

/-- The function of lines 232-305. -/
def toStringShape (checkUnknown : Bool) (i : Info) : Shape :=
  if i.isTypeParameter then
    match i.baseConstraint with
    | some t => .ask false ⟨.toString, t⟩
    | none => .const (if checkUnknown then .sometimes else .always)
  else if i.booleanLike then .const .always
  else if i.ignored then .const .always
  else match i.intersection with
  | some ts => .intersection (ts.map (⟨.toString, ·⟩))
  | none => match i.union with
  | some ts => .union (ts.map (⟨.toString, ·⟩))
  | none => match i.tuple with
  | some ts => .tuple true (ts.map (⟨.toString, ·⟩))
  | none => match i.array with
  | some t => .ask true ⟨.toString, t⟩
  | none => match propertyLoop false [i.toString, i.toLocaleString, i.valueOf] with
  | some u => .const u
  | none => if checkUnknown && i.isUnknown then .const .sometimes else .const .always

/-- The function of lines 194-217. -/
def joinShape (i : Info) : Shape :=
  match i.union with
  | some ts => .union (ts.map (⟨.join, ·⟩))
  | none => match i.intersection with
  | some ts => .intersection (ts.map (⟨.join, ·⟩))
  | none => match i.tuple with
  | some ts => .tuple false (ts.map (⟨.toString, ·⟩))
  | none => match i.array with
  | some t => .ask false ⟨.toString, t⟩
  | none => .const .always

structure Env where
  checkUnknown : Bool
  info : Nat → Info

def Env.shape (e : Env) (q : Query) : Shape :=
  match q.mode with
  | .toString => toStringShape e.checkUnknown (e.info q.type)
  | .join => joinShape (e.info q.type)

/-- `certaintyMemo`, lines 50-53, for both modes. -/
structure Memo where
  values : Query → Option Usefulness := fun _ => none
  resolving : Query → Bool := fun _ => false

abbrev Eval := Memo → List Nat → Query → Option (Usefulness × Memo)

/-- `utils.Map` with the recursive call. -/
def evalAll (ev : Eval) (visited : List Nat) : Memo → List Query → Option (List Usefulness × Memo)
  | m, [] => some ([], m)
  | m, q :: qs => do
    let (u, m) ← ev m visited q
    let (us, m) ← evalAll ev visited m qs
    some (u :: us, m)

/-- `utils.Some`, which stops at the first `always`. -/
def evalSome (ev : Eval) (visited : List Nat) : Memo → List Query → Option (Bool × Memo)
  | m, [] => some (false, m)
  | m, q :: qs => do
    let (u, m) ← ev m visited q
    if u = .always then some (true, m) else evalSome ev visited m qs

/-- `collectUnionTypeCertainty`, lines 129-144. -/
def ofUnion (us : List Usefulness) : Usefulness :=
  if us.all (fun c => c == .never) then .never else if us.all (fun c => c == .always) then .always else .sometimes

/-- `collectTupleCertainty`, lines 157-175. -/
def ofTuple (us : List Usefulness) : Usefulness :=
  if us.any (fun c => c == .never) then .never else if us.any (fun c => c == .sometimes) then .sometimes else .always

/-- The call of `compute`. -/
def compute (ev : Eval) (visited : List Nat) (t : Nat) (m : Memo) : Shape → Option (Usefulness × Memo)
  | .const u => some (u, m)
  | .ask v q => ev m (if v then visited ++ [t] else visited) q
  | .union qs => do
    let (us, m) ← evalAll ev visited m qs
    some (ofUnion us, m)
  | .intersection qs => do
    let (b, m) ← evalSome ev visited m qs
    some (if b then .always else .never, m)
  | .tuple v qs => do
    let (us, m) ← evalAll ev (if v then visited ++ [t] else visited) m qs
    some (ofTuple us, m)

/-- `collectToStringCertainty` and `collectJoinCertainty`, with `certaintyMemo.get`, lines 62-77. -/
def eval (e : Env) : Nat → Eval
  | 0, _, _, _ => none
  | n + 1, m, visited, q =>
    if q.mode = .toString ∧ visited.contains q.type then some (.always, m)
    else match m.values q with
    | some u => some (u, m)
    | none =>
      if m.resolving q then some (.always, m)
      else do
        let (u, m) ← compute (eval e n) visited q.type { m with resolving := fun r => if r = q then true else m.resolving r } (e.shape q)
        some (u, { values := fun r => if r = q then some u else m.values r, resolving := fun r => if r = q then false else m.resolving r })

/-- An expression: whether it is a literal, its type (for `join`: the constrained type), the name of its type. -/
structure Expr where
  node : Nat
  isLiteral : Bool := false
  isPrivateName : Bool := false
  type : Nat
  typeName : String := ""

/-- What the listeners see. -/
inductive Event
  | binary (plus : Bool) (left right : Expr)
  | call (builtinString : Bool) (firstSpread : Bool) (first : Option Expr) (member : Option (String × Expr))
  | template (tagged : Bool) (spans : List Expr)

/-- `checkExpression` (95-113) skips literals; `checkExpressionForArrayJoin` (115-126) does not. -/
def checkExpression (x : Expr) : List (Query × Nat) := if x.isLiteral then [] else [(⟨.toString, x.type⟩, x.node)]

/-- The listeners, lines 325-375: the questions they ask. `builtinString` holds only with an argument (line 308). -/
def checks : Event → List (Query × Nat)
  | .binary plus l r =>
    if !plus then []
    else if l.typeName = "string" then checkExpression r
    else if r.typeName = "string" && !l.isPrivateName then checkExpression l
    else []
  | .call builtin spread first member =>
    match builtin && !spread, first with
    | true, some x => checkExpression x
    | _, _ =>
      match member with
      | none => []
      | some (name, x) =>
        if name = "join" then [(⟨.join, x.type⟩, x.node)]
        else if name = "toLocaleString" ∨ name = "toString" then checkExpression x else []
  | .template tagged spans => if tagged then [] else spans.flatMap checkExpression

/-- A report: the message (that of `join` or the other), the node, the certainty. -/
abbrev Report := Mode × Nat × Usefulness

def runChecks (e : Env) (fuel : Nat) : Memo → List (Query × Nat) → Option (List Report × Memo)
  | m, [] => some ([], m)
  | m, (q, node) :: rest => do
    let (u, m) ← eval e fuel m [] q
    let (rs, m) ← runChecks e fuel m rest
    some (if u = .always then (rs, m) else ((q.mode, node, u) :: rs, m))

/-- A file: its events in order, with one memo. -/
def run (e : Env) (fuel : Nat) (evs : List Event) : Option (List Report × Memo) := runChecks e fuel {} (evs.flatMap checks)

end Tsgolint.BaseToString
