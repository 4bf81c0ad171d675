import Verif.Model.TypeGraph
/-!
# Model of no-unsafe-assignment (/repo/internal/rules/no_unsafe_assignment/no_unsafe_assignment.go)

Types (`T`) are the compiler's; `IsUnsafeAssignment` is modelled in `TypeGraph`, `GetThisExpression` in `UnsafeAccess`.
-/
namespace Tsgolint.UnsafeAssignment
open Tsgolint.TypeGraph (Shape)

variable {T : Type} [DecidableEq T]

/-- What the rule asks about types. -/
structure Env (T : Type) where
  shape : T → Shape T
  /-- `IsTypeAnyArrayType` -/
  isAnyArray : T → Bool
  /-- `checker.IsTupleType` and `getTypeArguments` -/
  tuple : T → Option (List T)
  /-- `getPropertiesOfType` with the types at the sender (`none` is `nil`) -/
  props : T → Option (List (String × T))
  /-- `IsUnsafeAssignment` of the sender at hand: receiver and sender if it is unsafe -/
  unsafe_ : T → T → Option (T × T)

/-- `IsTypeAnyType` -/
def Env.isAny (E : Env T) (t : T) : Bool := match E.shape t with
  | .any => true
  | _ => false

/-- `IsTypeUnknownType` -/
def Env.isUnknown (E : Env T) (t : T) : Bool := match E.shape t with
  | .unknown => true
  | _ => false

/-- `checker.IsNonDeferredTypeReference` -/
def Env.isRef (E : Env T) (t : T) : Bool := match E.shape t with
  | .ref .. => true
  | _ => false

/-! ## Destructuring -/

/- The targets of an assignment: binding patterns, or array and object literals used as patterns; `id` stands for the node. -/
mutual
/-- A target. -/
inductive Pat
  /-- neither an array nor an object pattern -/
  | leaf (id : Nat)
  | array (id : Nat) (elements : List Elem)
  | object (id : Nat) (members : List Member)
/-- An element of an array pattern; a hole of a binding pattern has no name, a rest is skipped.  In an array literal used as pattern a hole is a node (a `leaf`), and so is a target
with a default value. -/
inductive Elem
  | hole
  | rest
  | elem (target : Pat)
/-- A member of an object pattern; `key` is `none` for a computed name that is no literal; `rest` also stands for methods. -/
inductive Member
  | rest
  | member (key : Option String) (target : Pat)
end

/-- The node of a target. -/
def Pat.id : Pat → Nat
  | .leaf id => id
  | .array id _ => id
  | .object id _ => id

inductive Kind
  /-- unsafeArrayPattern -/
  | array
  /-- unsafeArrayPatternFromTuple -/
  | element
deriving DecidableEq, Repr

/-- A report about the target `id`, which receives a part of type `type`. -/
structure Report (T : Type) where
  id : Nat
  type : T
  kind : Kind
deriving DecidableEq, Repr

/-- Lines 254-261: a Go map filled in order: the last entry of a name wins. -/
def lookup (key : String) : List (String × T) → Option T
  | [] => none
  | (k, t) :: ps => match lookup key ps with
    | some t' => some t'
    | none => if k = key then some t else none

mutual
/-- Lines 249-332 and 349-427 `checkObjectDestructure` and `checkArrayDestructure` (whichever the target is for): the result and the reports. -/
def destructure (E : Env T) (t : T) : Pat → Bool × List (Report T)
  | .leaf _ => (false, [])
  | .array id es =>
    if E.isAnyArray t then (false, [⟨id, t, .array⟩])
    else match E.tuple t with
      | none => (true, [])
      | some ts => destructureElems E ts es
  | .object _ ms => match E.props t with
    | none => (false, [])
    | some ps => destructureMembers E ps ms
/-- Lines 367-426: the loop over the elements; `ts` are the tuple's elements from the current index on. -/
def destructureElems (E : Env T) (ts : List T) : List Elem → Bool × List (Report T)
  | [] => (false, [])
  | .hole :: es => destructureElems E ts.tail es
  | .rest :: es => destructureElems E ts.tail es
  | .elem p :: es =>
    let r := match ts with
      | [] => (false, [])
      | t :: _ => if E.isAny t then (true, [Report.mk p.id t .element]) else destructure E t p
    let rs := destructureElems E ts.tail es
    (r.1 || rs.1, r.2 ++ rs.2)
/-- Lines 263-331: the loop over the members. -/
def destructureMembers (E : Env T) (ps : List (String × T)) : List Member → Bool × List (Report T)
  | [] => (false, [])
  | .rest :: ms => destructureMembers E ps ms
  | .member none _ :: ms => destructureMembers E ps ms
  | .member (some key) p :: ms =>
    let r := match lookup key ps with
      | none => (false, [])
      | some t => if E.isAny t then (true, [Report.mk p.id t .element]) else destructure E t p
    let rs := destructureMembers E ps ms
    (r.1 || rs.1, r.2 ++ rs.2)
end

/-- Lines 430-441 `checkArrayDestructureHelper` -/
def arrayHelper (E : Env T) (t : T) : Pat → Bool × List (Report T)
  | .array id es => destructure E t (.array id es)
  | _ => (false, [])

/-- Lines 335-346 `checkObjectDestructureHelper` -/
def objectHelper (E : Env T) (t : T) : Pat → Bool × List (Report T)
  | .object id ms => destructure E t (.object id ms)
  | _ => (false, [])

/-! ## One assignment -/

/-- Lines 179-188 -/
inductive Comparison
  | none
  | basic
  | contextual
deriving DecidableEq, Repr

/-- The assigned expression, as far as its syntax matters. -/
inductive Sender
  /-- string, number, bigint, regular expression, plain template, `true`, `false`, `null` -/
  | literal (numeric : Bool)
  | unary (plusMinus : Bool) (operand : Sender)
  /-- function, arrow function or class expression -/
  | function
  /-- `true` for each spread -/
  | object (members : List Bool)
  | array (elements : List Bool)
  | paren (inner : Sender)
  | other
deriving Repr

/-- `ast.SkipParentheses` -/
def Sender.skipParens : Sender → Sender
  | .paren e => e.skipParens
  | e => e

/-- A numeric literal. -/
def Sender.isNumeric : Sender → Bool
  | .literal n => n
  | _ => false

/-- Lines 190-217 `canSkipSenderTypeCheck` -/
def canSkip (e : Sender) (c : Comparison) : Bool := match e.skipParens with
  | .literal _ => true
  | .unary plusMinus operand => plusMinus && operand.skipParens.isNumeric
  | .function => true
  | .object ms => !ms.any id
  | .array es => decide (c = .none) && !es.any id
  | _ => false

/-- The assigned value: its syntax, its type, the constrained type of the `this` it starts with, its contextual type. -/
structure Value (T : Type) where
  syntax_ : Sender
  type : T
  this : Option T
  contextual : Option T

/-- The receiver: its type and its contextual type. -/
structure Receiver (T : Type) where
  type : T
  contextual : Option T

inductive Msg
  | anyAssignment
  | anyAssignmentThis
  | unsafeAssignment
deriving DecidableEq, Repr

/-- A report: its message, the types of its two labels and whether the second says "inferred". -/
structure Diag (T : Type) where
  msg : Msg
  valueType : T
  targetType : T
  inferred : Bool
deriving DecidableEq, Repr

/-- Lines 459-469 `getReceiverType` -/
def receiverType (v : Value T) (r : Receiver T) (c : Comparison) : T :=
  if c = .contextual then match v.contextual with
    | some t => t
    | none => match r.contextual with
      | some t => t
      | none => r.type
  else r.type

/-- Lines 488-493: `this` is to blame. -/
def blamedThis (E : Env T) (noImplicitThis : Bool) (v : Value T) : Option T :=
  if noImplicitThis then none else match v.this with
    | some t => if E.isAny t then some t else none
    | none => none

/-- Lines 444-550 `checkAssignment` -/
def checkAssignment (E : Env T) (noImplicitThis : Bool) (v : Value T) (r : Receiver T) (c : Comparison) : Option (Diag T) :=
  if canSkip v.syntax_ c then none
  else if E.isAny v.type then
    let target := receiverType v r c
    if E.isUnknown target then none
    else match blamedThis E noImplicitThis v with
      | some this => some ⟨.anyAssignmentThis, this, target, decide (c = .none)⟩
      | none => some ⟨.anyAssignment, v.type, target, decide (c = .none)⟩
  else if c = .none then none
  else if !E.isRef v.type then none
  else match E.unsafe_ v.type (receiverType v r c) with
    | none => none
    | some (receiver, sender) => some ⟨.unsafeAssignment, sender, receiver, false⟩

/-- Lines 552-561 `getComparisonType` -/
def comparisonOf (annotated : Bool) : Comparison := if annotated then .basic else .none

/-- Lines 563-583 and 635-656: the assignment, then the array pattern, then the object pattern. -/
def checkFull (E : Env T) (noImplicitThis : Bool) (v : Value T) (r : Receiver T) (target : Pat) (c : Comparison) : Option (Diag T) × List (Report T) :=
  match checkAssignment E noImplicitThis v r c with
  | some d => (some d, [])
  | none =>
    let a := arrayHelper E v.type target
    if a.1 then (none, a.2) else (none, a.2 ++ (objectHelper E v.type target).2)

/-! ## Object and array literals -/

/-- A member of an object literal. -/
inductive LitMember (T : Type)
  /-- `k: init` or `k`; `assigns`: without its parentheses the initialiser is an assignment with `=` or another assignment operator -/
  | init (id : Nat) (assigns : Bool) (v : Value T) (r : Receiver T)
  | other

/-- Lines 659-689 -/
def objectLiteral (E : Env T) (noImplicitThis : Bool) : List (LitMember T) → List (Nat × Diag T)
  | [] => []
  | .other :: ms => objectLiteral E noImplicitThis ms
  | .init id assigns v r :: ms =>
    if assigns then []
    else match checkAssignment E noImplicitThis v r .contextual with
      | some d => (id, d) :: objectLiteral E noImplicitThis ms
      | none => objectLiteral E noImplicitThis ms

/-- An element of an array literal: the type of what is spread, if it is a spread. -/
structure LitElem (T : Type) where
  id : Nat
  spread : Option T

/-- Lines 691-708 -/
def arrayLiteral (E : Env T) : List (LitElem T) → List Nat
  | [] => []
  | e :: es => match e.spread with
    | none => arrayLiteral E es
    | some t => if E.isAny t || E.isAnyArray t then e.id :: arrayLiteral E es else arrayLiteral E es

/-! ## Where it is reported -/

inductive TokKind
  | equals
  | colon
  | other
  | eof
deriving DecidableEq, Repr

/-- A token with its range. -/
structure Tok where
  kind : TokKind
  pos : Nat
  stop : Nat
deriving DecidableEq, Repr

/-- Lines 151-170 `assignmentRelationRange`, for the tokens after the receiver; the result is the token, or `none` for the receiver itself.  The colon range is absent rather than
zero at first: no colon ends at 0. -/
def relation (senderPos senderEnd : Nat) : List Tok → Option Tok → Option Tok
  | [], colon => colon
  | t :: ts, colon =>
    if t.kind ≠ .eof ∧ t.pos < senderEnd then
      if t.kind = .equals then some t
      else
        let colon := if t.kind = .colon then some t else colon
        if t.pos ≥ senderPos then colon else relation senderPos senderEnd ts colon
    else colon

end Tsgolint.UnsafeAssignment
