/-!
# Model of no-redundant-type-constituents
(/repo/internal/rules/no_redundant_type_constituents/no_redundant_type_constituents.go)

Types of nodes are the compiler's.
-/
namespace Tsgolint.Redundant

/-- The four primitive types the rule knows. -/
inductive Kind
  | bigint | boolean | number | string
deriving DecidableEq, Repr

def Kind.name : Kind → String
  | .bigint => "bigint"
  | .boolean => "boolean"
  | .number => "number"
  | .string => "string"

/-- The type flags the rule tells apart; `lit .string` is a string literal or a template literal; `booleanUnion`: the type `boolean`, found through a
reference, has the flags `Boolean|Union`; `other`: all others. -/
inductive Flag
  | any | unknown | never
  | prim (k : Kind)
  | lit (k : Kind)
  | booleanUnion
  | other
deriving DecidableEq, Repr

/-- `typeFlagsWithNodeOrType`, lines 48-53, with its `ToString`, lines 60-92; `id` identifies the part. -/
structure Part where
  flag : Flag
  text : String
  id : Nat := 0
deriving DecidableEq, Repr

/-- A type node: keyword or literal type; union; otherwise the parts of its type. -/
inductive TypeNode
  | simple (p : Part)
  | union (ns : List TypeNode)
  | typed (ps : List Part)

mutual
/-- `getTypeNodeTypePartFlags`, lines 97-171. -/
def partsOf : TypeNode → List Part
  | .simple p => [p]
  | .union ns => partsOfAll ns
  | .typed ps => ps

/-- Lines 144-150. -/
def partsOfAll : List TypeNode → List Part
  | [] => []
  | n :: ns => partsOf n ++ partsOfAll ns
end

inductive Container
  | union | intersection
deriving DecidableEq, Repr

/-- Lines 12-42. -/
inductive Message
  | errorTypeOverrides (name : String) (c : Container)
  | literalOverridden (literal primitive : String)
  | overridden (name : String) (c : Container)
  | overrides (name : String) (c : Container)
  | primitiveOverridden (literal primitive : String)
deriving DecidableEq, Repr

/-- A report: the index of the constituent it is put on, and the message. -/
abbrev Report := Nat × Message

/-- `checkIntersectionBottomAndTopTypes`, lines 173-194. -/
def intersectionTop (p : Part) : Option Message :=
  match p.flag with
  | .any => some (if p.text = "any" then .overrides p.text .intersection else .errorTypeOverrides p.text .intersection)
  | .never => some (.overrides p.text .intersection)
  | .unknown => some (.overridden p.text .intersection)
  | _ => none

def join (ps : List Part) : String := " | ".intercalate (ps.map (·.text))

def Flag.literal : Flag → Option Kind
  | .lit k => some k
  | _ => none

def Flag.primitive : Flag → Option Kind
  | .prim k => some k
  | _ => none

/-- The lists of lines 198-208, as functions of the kind. -/
structure Inter where
  reports : List Report := []
  literals : Kind → List Part := fun _ => []
  primitives : Kind → List Nat := fun _ => []
  unions : List (Nat × List Part) := []

def push {α} (f : Kind → List α) (k : Option Kind) (x : α) : Kind → List α :=
  fun j => if k = some j then f j ++ [x] else f j

/-- The inner loop, lines 221-251. -/
def interPart (i : Nat) (s : Inter) (p : Part) : Inter :=
  match intersectionTop p with
  | some m => { s with reports := s.reports ++ [(i, m)] }
  | none =>
    let s := if s.unions.length = 0 then { s with literals := push s.literals p.flag.literal p } else s
    { s with primitives := push s.primitives p.flag.primitive i }

/-- One constituent, lines 210-252. -/
def interNode (i : Nat) (s : Inter) (ps : List Part) : Inter :=
  let s := if ps.length ≥ 2 then { s with unions := s.unions ++ [(i, ps)] } else s
  ps.foldl (interPart i) s

def interLoop : Nat → Inter → List (List Part) → Inter
  | _, s, [] => s
  | i, s, ps :: rest => interLoop (i + 1) (interNode i s ps) rest

/-- The switch of lines 267-278: the name of the primitive the part is a literal of, if such a primitive was seen. -/
def primitiveName (prims : Kind → List Nat) (p : Part) : String :=
  match p.flag.literal with
  | some k => if (prims k).length > 0 then k.name else ""
  | none => ""

/-- The loop of lines 266-282. -/
def lastName (prims : Kind → List Nat) : String → List Part → String
  | name, [] => name
  | _, p :: ps => if primitiveName prims p = "" then "" else lastName prims (primitiveName prims p) ps

/-- The loop of lines 264-294; the text is computed for the first union reported and kept. -/
def unionLoop (prims : Kind → List Nat) : String → List (Nat × List Part) → List Report
  | _, [] => []
  | text, (i, ps) :: rest =>
    let name := lastName prims "" ps
    if name = "" then unionLoop prims text rest
    else
      let text := if text = "" then join ps else text
      (i, .primitiveOverridden name text) :: unionLoop prims text rest

/-- `checkLiteralTypeOverridesPrimitive`, lines 300-310. -/
def overridesPrimitive (literals : List Part) (prims : List Nat) (name : String) : List Report :=
  if literals.length = 0 then [] else prims.map fun i => (i, .primitiveOverridden (join literals) name)

/-- The listener for intersections, lines 197-319, given the parts of the constituents. -/
def runIntersection (nodes : List (List Part)) : List Report :=
  let s := interLoop 0 {} nodes
  let r := s.reports
  let r := if s.unions.length > 0 ∧ ((s.primitives .bigint).length > 0 ∨ (s.primitives .boolean).length > 0 ∨
      (s.primitives .number).length > 0 ∨ (s.primitives .string).length > 0)
    then r ++ unionLoop s.primitives "" s.unions else r
  if s.unions.length > 0 then r
  else r ++ overridesPrimitive (s.literals .bigint) (s.primitives .bigint) "bigint" ++
    overridesPrimitive (s.literals .boolean) (s.primitives .boolean) "boolean" ++
    overridesPrimitive (s.literals .number) (s.primitives .number) "number" ++
    overridesPrimitive (s.literals .string) (s.primitives .string) "string"

/-- `checkUnionBottomAndTopTypes`, lines 328-353. -/
def unionTop (inReturnType : Bool) (p : Part) : Option Message :=
  match p.flag with
  | .any => some (if p.text = "any" then .overrides p.text .union else .errorTypeOverrides p.text .union)
  | .unknown => some (.overrides p.text .union)
  | .never => if inReturnType then none else some (.overridden "never" .union)
  | _ => none

/-- A bit test: `flags & (BigInt|Boolean|Number|String)`, line 374. -/
def Flag.primitiveBit : Flag → Option Kind
  | .prim k => some k
  | .booleanUnion => some .boolean
  | _ => none

/-- A Go map from nodes to lists, in the order of insertion. -/
abbrev NodeMap := List (Nat × List Part)

/-- `m[i] = append(m[i], p)` -/
def NodeMap.upsert (i : Nat) (p : Part) : NodeMap → NodeMap
  | [] => [(i, [p])]
  | (j, ps) :: m => if j = i then (j, ps ++ [p]) :: m else (j, ps) :: NodeMap.upsert i p m

/-- Lines 321-326. -/
structure Union where
  reports : List Report := []
  overridden : Kind → NodeMap := fun _ => []
  seen : Kind → Bool := fun _ => false

/-- The inner loop, lines 358-375. -/
def unionPart (inReturnType : Bool) (i : Nat) (s : Union) (p : Part) : Union :=
  match unionTop inReturnType p with
  | some m => { s with reports := s.reports ++ [(i, m)] }
  | none =>
    { s with
      overridden := fun k => if p.flag.literal = some k then (s.overridden k).upsert i p else s.overridden k
      seen := fun k => if p.flag.primitiveBit = some k then true else s.seen k }

def unionNodes (inReturnType : Bool) : Nat → Union → List (List Part) → Union
  | _, s, [] => s
  | i, s, ps :: rest => unionNodes inReturnType (i + 1) (ps.foldl (unionPart inReturnType i) s) rest

/-- `checkOverriddenTypes`, lines 384-396; `order`: the order in which Go iterates over the map. -/
def overriddenReports (order : NodeMap → NodeMap) (s : Union) (k : Kind) : List Report :=
  if s.seen k = false then [] else (order (s.overridden k)).map fun e => (e.1, .literalOverridden (join e.2) k.name)

/-- The listener for unions, lines 320-402. -/
def runUnion (order : NodeMap → NodeMap) (inReturnType : Bool) (nodes : List (List Part)) : List Report :=
  let s := unionNodes inReturnType 0 {} nodes
  s.reports ++ overriddenReports order s .bigint ++ overriddenReports order s .boolean ++ overriddenReports order s .number ++
    overriddenReports order s .string

end Tsgolint.Redundant
