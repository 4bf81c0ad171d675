import Verif.Model.Fixer
/-!
# Model of prefer-readonly (/repo/internal/rules/prefer_readonly/prefer_readonly.go)

Types (`T`) are the compiler's; symbols are numbers.
-/
namespace Tsgolint.PreferReadonly
open Tsgolint.Fixer (Fix Bytes ascii)
variable {T : Type}

/-! ## Types -/

/-- Lines 28-35 -/
inductive Relation
  | both
  | cls
  | inst
  | unrelated
deriving DecidableEq, Repr

inductive Shape (T : Type)
  | union (parts : List T)
  | intersection (parts : List T)
  | other

/-- What is asked about types. -/
structure Types (T : Type) where
  shape : T → Shape T
  symbol : T → Option Nat
  /-- an object type that is a class or an interface -/
  classOrInterface : T → Bool
  bases : T → List T
  /-- an anonymous object type -/
  anonymous : T → Bool

section
variable [DecidableEq T]

/-- Lines 286-310: the loop of `typeIsOrHasBaseType`; the last of the queue is first here.  `none`: out of fuel. -/
def baseLoop (E : Types T) (sym : Nat) : Nat → List T → List T → Option Bool
  | 0, _, _ => none
  | _ + 1, [], _ => some false
  | n + 1, t :: queue, seen =>
    if seen.contains t then baseLoop E sym n queue seen
    else if E.symbol t = some sym then some true
    else if !E.classOrInterface t then baseLoop E sym n queue (t :: seen)
    else baseLoop E sym n ((E.bases t).reverse ++ queue) (t :: seen)

/-- Lines 274-313 `typeIsOrHasBaseType` -/
def hasBase (E : Types T) (fuel : Nat) (t base : T) : Option Bool :=
  match E.symbol base with
  | none => some false
  | some s => baseLoop E s fuel [t] []

/-- Lines 232-247: the loop over the parts of an intersection, given their relations. -/
def combine : List Relation → Relation → Relation
  | [], r => r
  | .cls :: rs, r => if r = .inst then .both else combine rs .cls
  | .inst :: rs, r => if r = .cls then .both else combine rs .inst
  | _ :: rs, r => combine rs r

/-- The relations of the parts. -/
def partsRelation (f : T → Option Relation) : List T → Option (List Relation)
  | [] => some []
  | t :: ts => (f t).bind fun r => (partsRelation f ts).map (r :: ·)

/-- Lines 226-272 `getTypeToClassRelation`.  Simplification: all parts of an intersection are looked at (the code may stop earlier). -/
def relationTo (E : Types T) (cls : T) : Nat → T → Option Relation
  | 0, _ => none
  | n + 1, t =>
    match E.shape t with
    | .intersection ts => (partsRelation (relationTo E cls n) ts).map (combine · .unrelated)
    | .union [] => some .unrelated
    | .union (t' :: _) => relationTo E cls n t'
    | .other =>
      if (E.symbol t).isNone then some .unrelated
      else (hasBase E (n + 1) t cls).map fun b => if !b then .unrelated else if E.anonymous t then .cls else .inst
end

/-! ## Classes -/

inductive Init
  | absent
  | arrow
  | other
deriving DecidableEq, Repr

/-- A property declaration, or a parameter of a constructor. -/
structure Decl where
  id : Nat
  name : String
  /-- modifiers -/
  isPrivate : Bool
  isStatic : Bool
  readonlyOrAccessor : Bool
  /-- its name is `#name` -/
  hash : Bool
  /-- its name is computed -/
  computed : Bool
  init : Init
deriving DecidableEq, Repr

/-- Operators: `=`, the other assignments, others. -/
inductive Op
  | eq
  | assign
  | other
deriving DecidableEq, Repr

/-- Syntax that is told apart. -/
inductive Syn
  | binary (op : Op)
  | delete
  /-- prefix and postfix operators; `++` or `--` -/
  | unary (incDec : Bool)
  | object
  | array
  | spreadAssignment
  | spreadElement
  | propertyAssignment
  | paren
  /-- `for … in`, `for … of` -/
  | forInOf
  /-- a property access -/
  | access
  /-- arrow function, function, method, accessor -/
  | function
  | other
deriving DecidableEq, Repr

/-- An ancestor, and the index of the child the path goes through (0 is the left operand). -/
structure Anc where
  kind : Syn
  index : Nat
deriving DecidableEq, Repr

mutual
/-- Syntax trees; `C` identifies classes. -/
inductive Node (C T : Type)
  /-- `object.name`, with the type of the object -/
  | access (name : String) (type : T) (object : Node C T)
  | cls (c : C) (members : List (Member C T))
  | syn (kind : Syn) (children : List (Node C T))
/-- What lies directly in a class: a property (with its children), a constructor (with its parameters), anything else. -/
inductive Member (C T : Type)
  | property (d : Decl) (children : List (Node C T))
  | ctor (params : List Decl) (children : List (Node C T))
  | part (n : Node C T)
end

/-- Lines 42-73: names with their declarations, in the order of first insertion. -/
abbrev DeclMap := List (String × Decl)

def DeclMap.set (name : String) (d : Decl) : DeclMap → DeclMap
  | [] => [(name, d)]
  | (n, e) :: m => if n = name then (n, d) :: m else (n, e) :: DeclMap.set name d m

/-- Lines 60-73 `valuesWithout` -/
def DeclMap.valuesWithout (m : DeclMap) (skipped : List String) : List Decl := (m.filter fun p => !skipped.contains p.1).map (·.2)

/-- A report: the declaration; whether it is modified in the constructor. -/
structure Report where
  decl : Decl
  inConstructor : Bool
deriving DecidableEq, Repr

/-- Lines 75-89 `classScope` -/
structure Scope (C : Type) where
  cls : C
  depth : Int
  mods : List String
  ctorMods : List String
  staticMods : List String
  members : DeclMap
  statics : DeclMap
  deferred : List Report

variable {C : Type}

/-- What the rule needs. -/
structure Env (C T : Type) where
  onlyInlineLambdas : Bool
  /-- `getTypeToClassRelation` -/
  relation : C → T → Relation

/-- Lines 133-158: the declaration may be reported. -/
def candidate (inlineOnly : Bool) (d : Decl) : Bool :=
  if !(d.isPrivate || d.hash) then false
  else if d.readonlyOrAccessor then false
  else if d.computed then false
  else if inlineOnly && decide (d.init ≠ .arrow) then false
  else if d.name = "" then false
  else true

/-- Lines 127-166 `addDeclaredVariable` -/
def Scope.declare (E : Env C T) (s : Scope C) (d : Decl) : Scope C :=
  if !candidate E.onlyInlineLambdas d then s
  else if d.isStatic then { s with statics := s.statics.set d.name d }
  else { s with members := s.members.set d.name d }

/-- Lines 116-123: the properties of a class. -/
def properties : List (Member C T) → List Decl
  | [] => []
  | .property d _ :: ms => d :: properties ms
  | _ :: ms => properties ms

/-- Lines 91-125 `newClassScope` -/
def newScope (E : Env C T) (c : C) (ms : List (Member C T)) : Scope C :=
  (properties ms).foldl (Scope.declare E) ⟨c, -1, [], [], [], [], [], []⟩

/-- Lines 168-187 `addVariableModification` -/
def Scope.modify (E : Env C T) (s : Scope C) (name : String) (t : T) : Scope C :=
  let r := E.relation s.cls t
  if r = .inst ∧ s.depth = 0 then { s with ctorMods := name :: s.ctorMods }
  else
    let s := if r = .inst ∨ r = .both then { s with mods := name :: s.mods } else s
    if r = .cls ∨ r = .both then { s with staticMods := name :: s.staticMods } else s

/-- Lines 189-197 `enterConstructor` -/
def Scope.enterCtor (E : Env C T) (s : Scope C) (params : List Decl) : Scope C :=
  (params.filter (·.isPrivate)).foldl (Scope.declare E) { s with depth := 0 }

/-- Lines 199-203 `enterNonConstructor` -/
def Scope.enterFn (s : Scope C) : Scope C := if s.depth ≠ -1 then { s with depth := s.depth + 1 } else s

/-- Lines 205-207 -/
def Scope.exitCtor (s : Scope C) : Scope C := { s with depth := -1 }

/-- Lines 209-213 -/
def Scope.exitFn (s : Scope C) : Scope C := if s.depth ≠ -1 then { s with depth := s.depth - 1 } else s

/-- Lines 215-219 `finalizeUnmodifiedPrivateNonReadonlys` with lines 406-439 -/
def Scope.finish (s : Scope C) : List Report :=
  (s.members.valuesWithout s.mods ++ s.statics.valuesWithout s.staticMods).map fun d => ⟨d, s.ctorMods.contains d.name⟩

/-- Lines 323-327: literals and spreads between the access and the assignment. -/
def isPattern (p : Anc) (rest : List Anc) : Bool :=
  match p.kind with
  | .object => true
  | .array => true
  | .spreadAssignment => true
  | .spreadElement => match rest with
    | a :: _ => decide (a.kind = .array)
    | [] => false
  | _ => false

/-- Lines 329-331 -/
def endsLoop (cur p : Anc) : Bool :=
  match p.kind with
  | .binary op => decide (cur.kind ≠ .access) && decide (p.index = 0) && decide (op = .eq)
  | _ => false

/-- Lines 317-338: the loop of `isDestructuringAssignment`. -/
def destructuring : Anc → List Anc → Bool
  | _, [] => false
  | cur, p :: rest => if isPattern p rest then destructuring p rest else endsLoop cur p

/-- Lines 315-339 `isDestructuringAssignment`, for the ancestors of the access -/
def isDestructuring : List Anc → Bool
  | [] => false
  | a :: rest => destructuring a rest

/-- Lines 465-515 `handlePropertyAccessExpression`: the access is a modification. -/
def modifies (anc : List Anc) : Bool :=
  match anc with
  | [] => false
  | a :: rest => match a.kind with
    | .binary op => decide (a.index = 0) && decide (op ≠ .other)
    | .delete => true
    | .unary incDec => isDestructuring (a :: rest) || incDec
    | _ => isDestructuring (a :: rest)

/-- The rule's state: the stack of classes (innermost first), the reports made. -/
structure St (C : Type) where
  stack : List (Scope C)
  out : List Report

/-- The innermost class is changed. -/
def St.top (s : St C) (f : Scope C → Scope C) : St C :=
  match s.stack with
  | [] => s
  | sc :: rest => { s with stack := f sc :: rest }

/-- Lines 444-463 `flushFinalizedScope(popClassScope())` -/
def St.pop (s : St C) : St C :=
  match s.stack with
  | [] => s
  | sc :: rest =>
    let reports := sc.finish ++ sc.deferred
    match rest with
    | [] => { s with stack := [], out := s.out ++ reports }
    | parent :: rest => { s with stack := { parent with deferred := parent.deferred ++ reports } :: rest }

/-- Lines 546-600: entering and leaving functions. -/
def enterSyn (k : Syn) (s : St C) : St C := if k = .function then s.top Scope.enterFn else s

def exitSyn (k : Syn) (s : St C) : St C := if k = .function then s.top Scope.exitFn else s

mutual
/-- The visit of a node below these ancestors: the listeners of lines 532-608. -/
def visit (E : Env C T) (anc : List Anc) : Node C T → St C → St C
  | .access name t o, s => visit E (⟨.access, 0⟩ :: anc) o (if modifies anc then s.top (·.modify E name t) else s)
  | .cls c ms, s => (visitMembers E ms { s with stack := newScope E c ms :: s.stack }).pop
  | .syn k cs, s => exitSyn k (visitAll E anc k 0 cs (enterSyn k s))
def visitAll (E : Env C T) (anc : List Anc) (k : Syn) : Nat → List (Node C T) → St C → St C
  | _, [], s => s
  | i, n :: ns, s => visitAll E anc k (i + 1) ns (visit E (⟨k, i⟩ :: anc) n s)
/-- Members of a class: what lies above a class does not matter for what lies in it (the loops over the ancestors stop at such nodes). -/
def visitMembers (E : Env C T) : List (Member C T) → St C → St C
  | [], s => s
  | .property _ cs :: ms, s => visitMembers E ms (visitAll E [] .other 0 cs s)
  | .ctor params cs :: ms, s => visitMembers E ms ((visitAll E [] .other 0 cs (s.top (·.enterCtor E params))).top Scope.exitCtor)
  | .part n :: ms, s => visitMembers E ms (visit E [⟨.other, 0⟩] n s)
end

/-- A file. -/
def run (E : Env C T) (n : Node C T) : List Report := (visit E [] n ⟨[], []⟩).out

/-! ## The fix -/

/-- What the fix needs to know: the declaration is a property without type annotation but with initialiser; its name is an identifier; the two types differ and the
initialiser's is a literal (lines 422-428); the text of the annotation (lines 341-378; empty: none). -/
structure FixInfo where
  nameStart : Nat
  nameEnd : Nat
  untyped : Bool
  identifier : Bool
  literalDiffers : Bool
  annotation : Bytes

/-- Lines 416-431 -/
def fixes (f : FixInfo) (r : Report) : List Fix :=
  { text := ascii "readonly ", pos := f.nameStart, stop := f.nameStart } ::
    (if f.untyped && f.identifier && r.inConstructor && f.literalDiffers && !f.annotation.isEmpty then
      [{ text := ascii ": " ++ f.annotation, pos := f.nameEnd, stop := f.nameEnd }] else [])

end Tsgolint.PreferReadonly
