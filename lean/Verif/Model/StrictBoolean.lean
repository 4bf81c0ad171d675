/-!
# Model of strict-boolean-expressions
(/repo/internal/rules/strict_boolean_expressions/strict_boolean_expressions.go)

Types, signatures and predicates are the compiler's.  Nodes carry an identity (the pointer).
-/
namespace Tsgolint.StrictBoolean

/-! ## Which nodes are checked -/

/-- Nodes as the rule tells them apart.  `cond before test after`: an `if`, `while`, `do`, `for` with a condition, `?:`, `!`, or a call with an
asserted argument, with its children in visiting order; `logic`: `&&` or `||`; `other`: everything else. -/
inductive Node
  | paren (id : Nat) (e : Node)
  | logic (id : Nat) (l r : Node)
  | cond (id : Nat) (before : List Node) (test : Node) (after : List Node)
  | other (id : Nat) (kids : List Node)

def Node.id : Node → Nat
  | .paren i _ => i
  | .logic i _ _ => i
  | .cond i _ _ _ => i
  | .other i _ => i

/-- The rule's state: `traversedNodes` (line 119), and the nodes given to `checkNode`, newest first. -/
structure St where
  traversed : List Nat := []
  checked : List Nat := []

/-- `traverseNode` with `traverseLogicalExpression`, lines 275-304. -/
def traverse (isCondition : Bool) : Node → St → St
  | n, s =>
    if s.traversed.contains n.id then s
    else
      let s := { s with traversed := n.id :: s.traversed }
      match n with
      | .paren _ e => traverse isCondition e s
      | .logic _ l r => traverse isCondition r (traverse true l s)
      | .cond i _ _ _ => if isCondition then { s with checked := i :: s.checked } else s
      | .other i _ => if isCondition then { s with checked := i :: s.checked } else s

/-- What the listeners do at a node, lines 122-192. -/
def listen (n : Node) (s : St) : St :=
  match n with
  | .cond _ _ test _ => traverse true test s
  | .logic _ l r => traverse false r (traverse true l s)
  | .paren .. => s
  | .other .. => s

mutual
/-- The visit of a file: each node before its children (see `Model/Visit`). -/
def visit : Node → St → St
  | .paren i e, s => visit e (listen (.paren i e) s)
  | .logic i l r, s => visit r (visit l (listen (.logic i l r) s))
  | .cond i before test after, s => visits after (visit test (visits before (listen (.cond i before test after) s)))
  | .other i kids, s => visits kids (listen (.other i kids) s)

def visits : List Node → St → St
  | [], s => s
  | n :: ns, s => visits ns (visit n s)
end

/-! ## The verdict about a type -/

/-- `typeVariant`, lines 308-322. -/
inductive Variant
  | nullish | boolean | string | number | bigint | object | any | unknown | never | mixed | generic
deriving DecidableEq, Repr

/-- The flags of a type that is no intersection, and what its literal says. -/
structure Flags where
  typeParameter : Bool := false
  any : Bool := false
  unknown : Bool := false
  never : Bool := false
  nullish : Bool := false
  boolean : Bool := false
  enum : Bool := false
  stringLiteral : Bool := false
  string : Bool := false
  number : Bool := false
  bigint : Bool := false
  symbol : Bool := false
  object : Bool := false
  /-- `literal.String() == "true"` -/
  isTrue : Bool := false
  /-- It is a literal type whose value is not `""`, `0` or `0n`. -/
  truthyLiteral : Bool := false
deriving DecidableEq, Repr

inductive Ty
  | inter (parts : List Ty)
  | leaf (f : Flags)

/-- The fields of `typeInfo` that are used of a part, lines 323-331. -/
structure PartInfo where
  variant : Variant
  isTruthy : Bool := false
  isEnum : Bool := false
deriving DecidableEq, Repr

/-- `analyzeTypePart` for a type that is no intersection, lines 403-488. -/
def analyzeLeaf (f : Flags) : PartInfo :=
  if f.typeParameter then ⟨.generic, false, false⟩
  else if f.any then ⟨.any, false, false⟩
  else if f.unknown then ⟨.unknown, false, false⟩
  else if f.never then ⟨.never, false, false⟩
  else if f.nullish then ⟨.nullish, false, false⟩
  else if f.boolean then ⟨.boolean, f.isTrue, false⟩
  else if f.enum then ⟨if f.stringLiteral then .string else .number, false, true⟩
  else if f.string then ⟨.string, f.truthyLiteral, false⟩
  else if f.number then ⟨.number, f.truthyLiteral, false⟩
  else if f.bigint then ⟨.bigint, f.truthyLiteral, false⟩
  else if f.symbol then ⟨.object, false, false⟩
  else if f.object then ⟨.object, false, false⟩
  else ⟨.mixed, false, false⟩

mutual
/-- `analyzeTypePart`, lines 378-488. -/
def analyzePart : Ty → PartInfo
  | .leaf f => analyzeLeaf f
  | .inter parts => ⟨if anyBoolean parts then .boolean else .object, false, false⟩

/-- The loop of lines 385-391. -/
def anyBoolean : List Ty → Bool
  | [] => false
  | t :: ts => if (analyzePart t).variant = .boolean then true else anyBoolean ts
end

/-- The loop variables of `analyzeTypeParts`, lines 333-358; the map `variants` as a list of distinct entries. -/
structure Acc where
  variants : List Variant := []
  isNullable : Bool := false
  isEnum : Bool := false
  isTruthy : Bool := false
  metNotTruthy : Bool := false

def Acc.step (a : Acc) (p : PartInfo) : Acc :=
  let a := { a with variants := if a.variants.contains p.variant then a.variants else p.variant :: a.variants }
  let a := if p.variant = .nullish then { a with isNullable := true } else a
  let a := if p.isEnum then { a with isEnum := true } else a
  if p.variant = .boolean ∨ p.variant = .number ∨ p.variant = .string ∨ p.variant = .bigint then
    if a.metNotTruthy then a else { a with isTruthy := p.isTruthy, metNotTruthy := !p.isTruthy }
  else a

/-- `typeInfo` of a whole type. -/
structure Info where
  variant : Variant
  isNullable : Bool
  isTruthy : Bool
  isEnum : Bool
deriving DecidableEq, Repr

/-- Lines 360-373: with one or two entries, iteration order does not matter. -/
def pick (variants : List Variant) (isNullable : Bool) : Variant :=
  match variants with
  | [v] => v
  | [v, w] => if isNullable then (if v ≠ .nullish then v else w) else .mixed
  | _ => .mixed

/-- `analyzeTypeParts`, lines 333-376. -/
def analyze (parts : List Ty) : Info :=
  let a := (parts.map analyzePart).foldl Acc.step {}
  ⟨pick a.variants a.isNullable, a.isNullable, a.isTruthy, a.isEnum⟩

structure Options where
  allowAny : Bool
  allowNullableBoolean : Bool
  allowNullableEnum : Bool
  allowNullableNumber : Bool
  allowNullableObject : Bool
  allowNullableString : Bool
  allowNumber : Bool
  allowString : Bool
deriving DecidableEq, Repr

inductive Message
  | any | nullish | nullableEnum | nullableString | string | nullableNumber | number | nullableBoolean | nullableObject | object | other
deriving DecidableEq, Repr

/-- `checkCondition`, lines 490-571. -/
def checkInfo (o : Options) (i : Info) : Option Message :=
  match i.variant with
  | .any | .unknown | .generic => if !o.allowAny then some .any else none
  | .never => none
  | .nullish => some .nullish
  | .string =>
    if o.allowString && i.isTruthy then none
    else if i.isNullable then
      if i.isEnum then (if !o.allowNullableEnum then some .nullableEnum else none)
      else (if !o.allowNullableString then some .nullableString else none)
    else if !o.allowString then some .string else none
  | .number =>
    if o.allowNumber && i.isTruthy then none
    else if i.isNullable then
      if i.isEnum then (if !o.allowNullableEnum then some .nullableEnum else none)
      else (if !o.allowNullableNumber then some .nullableNumber else none)
    else if !o.allowNumber then some .number else none
  | .boolean =>
    if i.isTruthy then none
    else if i.isNullable && !o.allowNullableBoolean then some .nullableBoolean else none
  | .object =>
    if i.isNullable && !o.allowNullableObject then some .nullableObject
    else if !i.isNullable then some .object else none
  | .mixed =>
    if i.isEnum then (if i.isNullable && !o.allowNullableEnum then some .nullableEnum else none)
    else some .other
  | .bigint =>
    if i.isNullable && !o.allowNullableNumber then some .nullableNumber
    else if !i.isNullable && !o.allowNumber then some .number else none

def checkCondition (o : Options) (parts : List Ty) : Option Message := checkInfo o (analyze parts)

/-! ## Arguments asserted to be truthy -/

/-- A type predicate: `TypePredicateKindAssertsIdentifier`, whether it names a type, and the parameter's index. -/
structure Predicate where
  assertsIdentifier : Bool
  hasType : Bool
  index : Int

/-- An argument: its node, and whether it is a spread. -/
structure Arg where
  id : Nat
  spread : Bool

/-- Lines 200-207. -/
def checkable : List Arg → List Nat
  | [] => []
  | a :: as => if a.spread then [] else a.id :: checkable as

/-- `findTruthinessAssertedArgumentInPredicate`, lines 256-268. -/
def inPredicate (p : Option Predicate) (args : List Nat) : Option Nat :=
  match p with
  | none => none
  | some p =>
    if !p.assertsIdentifier || p.hasType then none
    else if p.index < 0 ∨ p.index ≥ args.length then none
    else args[p.index.toNat]?

/-- The inner loop of lines 245-251. -/
def inSignatures : List (Option Predicate) → List Nat → Option Nat
  | [], _ => none
  | p :: ps, args => match inPredicate p args with
    | some a => some a
    | none => inSignatures ps args

/-- `findTruthinessAssertedArgumentInUnionSignatures`, lines 242-254. -/
def inUnion : List (List (Option Predicate)) → List Nat → Option Nat
  | [], _ => none
  | sigs :: ts, args => match inSignatures sigs args with
    | some a => some a
    | none => inUnion ts args

/-- A call: its arguments, the predicate of the resolved signature (`none`: no signature or no predicate), and, for each part of the callee's
type, the predicates of its signatures. -/
structure Call where
  args : List Arg
  resolved : Option Predicate
  parts : List (List (Option Predicate))

/-- `findTruthinessAssertedArgument`, lines 199-240 (a callee without a type has no parts). -/
def assertedArgument (c : Call) : Option Nat :=
  let args := checkable c.args
  if args.isEmpty then none
  else match c.resolved with
    | none => if c.parts.length > 1 then inUnion c.parts args else none
    | some p => inPredicate (some p) args

end Tsgolint.StrictBoolean
