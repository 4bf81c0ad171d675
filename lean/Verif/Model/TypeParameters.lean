import Verif.Model.Fixer
import Verif.Model.Sorter
/-!
# Model of no-unnecessary-type-parameters
(/repo/internal/rules/no_unnecessary_type_parameters/no_unnecessary_type_parameters.go)

Types (`T`), symbols (`S`) and constraint nodes (`N`) are the compiler's.
-/
namespace Tsgolint.TypeParameters
open Fixer (Bytes Fix ascii)
variable {T S N : Type}

/-! ## What the compiler knows about types -/

/-- A type parameter's symbol whose first declaration is a type parameter declaration (lines 427-432), with its constraint node and its default type. -/
structure Decl (T S N : Type) where
  symbol : S
  constraint : Option N
  default : Option T

/-- The generic type of a reference: a tuple, an array (its symbol has the name `Array`, not `ReadonlyArray`), or another one. -/
inductive Generic
  | tuple (readonly : Bool)
  | array (named : Bool)
  | other

structure Signature (T : Type) where
  this : Option T
  parameters : List T
  typeParameters : List T
  returns : T
  /-- the type of its type predicate -/
  predicate : Option T

structure Mapped (T : Type) where
  typeParameter : Option T
  template : Option T
  constraint : Option T

structure Object (T : Type) where
  /-- types of the properties -/
  properties : List T
  mapped : Option (Mapped T)
  numberIndex : Option T
  stringIndex : Option T
  /-- call signatures, then construct signatures -/
  signatures : List (Signature T)

structure Facts (T S N : Type) where
  /-- `IsTypeParameter`; the inner option is `none` e.g. for `this` types -/
  param : Option (Option (Decl T S N))
  aliasArguments : List T
  unionOrIntersection : Bool
  /-- `Types()` -/
  types : List T
  /-- object and index type -/
  indexed : Option (T × T)
  /-- object types with the flag `Reference`, with their type arguments -/
  reference : Option (Generic × List T)
  template : Bool
  /-- check and extends type -/
  conditional : Option (T × T)
  object : Option (Object T)
  /-- `Target()` of `keyof` and string mapping types -/
  target : Option T

structure Env (T S N : Type) where
  facts : T → Facts T S N
  /-- `GetTypeAtLocation` of a constraint -/
  constraintType : N → T

/-! ## Counting (lines 324-558) -/

/-- A call of `visitType`. -/
structure Visit (T : Type) where
  type : T
  many : Bool
  returned : Bool

/-- Lines 389-420 `visitSignature` -/
def Signature.visits (s : Signature T) : List (Visit T) :=
  s.this.toList.map (⟨·, false, false⟩) ++ s.parameters.map (⟨·, false, false⟩) ++ s.typeParameters.map (⟨·, false, false⟩) ++ [⟨s.predicate.getD s.returns, false, true⟩]

/-- Lines 472-488 -/
def Generic.many (g : Generic) (fromClass many returned : Bool) : Bool :=
  match g with
  | .tuple readonly => fromClass || many || (returned && !readonly)
  | .array named => fromClass || many || (returned && named)
  | .other => true

/-- Lines 507-518 -/
def Mapped.visits (properties : List T) (m : Mapped T) : List (Visit T) :=
  m.typeParameter.toList.map (⟨·, false, false⟩) ++
  (if properties.isEmpty then (match m.template with | some t => [⟨t, false, false⟩] | none => m.constraint.toList.map (⟨·, false, false⟩)) else [])

/-- Lines 503-538 -/
def Object.visits (o : Object T) : List (Visit T) :=
  o.properties.map (⟨·, false, false⟩) ++ (match o.mapped with | some m => m.visits o.properties | none => []) ++
  o.numberIndex.toList.map (⟨·, true, false⟩) ++ o.stringIndex.toList.map (⟨·, true, false⟩) ++ o.signatures.flatMap Signature.visits

/-- Lines 449-545: what is visited for a type that is no type parameter.  (`functionLikeType` is only read before these assignments to it.) -/
def parts (E : Env T S N) (fromClass : Bool) (v : Visit T) : List (Visit T) :=
  let f := E.facts v.type
  if !f.aliasArguments.isEmpty then f.aliasArguments.map (⟨·, true, false⟩)
  else if f.unionOrIntersection then f.types.map (⟨·, v.many, false⟩)
  else match f.indexed with
  | some (o, i) => [⟨o, v.many, false⟩, ⟨i, v.many, false⟩]
  | none => match f.reference with
    | some (g, a :: as) => (a :: as).map (⟨·, g.many fromClass v.many v.returned, v.returned⟩)
    | _ =>
      if f.template then f.types.map (⟨·, v.many, false⟩)
      else match f.conditional with
      | some (c, e) => [⟨c, v.many, false⟩, ⟨e, v.many, false⟩]
      | none => match f.object with
        | some o => o.visits
        | none => f.target.toList.map (⟨·, v.many, false⟩)

/-- The maps and flags of one call of `collectTypeParameterUsageCounts`; `counts` and `remaining` go on to the next. -/
structure State (T S N : Type) where
  counts : S → Nat
  remaining : Nat
  usages : T → Nat
  constraints : List N
  /-- `visitedDefault`; here also which one -/
  default : Option T

variable [DecidableEq T] [DecidableEq S] [DecidableEq N]

/-- Lines 360-364 -/
def State.bump (s : State T S N) (t : T) : State T S N := { s with usages := fun x => if x = t then s.usages x + 1 else s.usages x }

/-- Lines 337-358 `incrementIdentifierCount` (there is a symbol; `targets` are the keys of the map). -/
def State.use (targets : List S) (s : State T S N) (x : S) (many : Bool) : State T S N :=
  if s.remaining = 0 then s
  else if !targets.contains x then s
  else if s.counts x > 2 then s
  else
    let n := s.counts x + (if many then 2 else 1)
    { s with counts := fun y => if y = x then n else s.counts y, remaining := if n > 2 then s.remaining - 1 else s.remaining }

/-- Lines 371-387 and the other sequences of visits; where the code does not look at `remainingTargets` between visits, the next visit does. -/
def visitAll (f : Visit T → State T S N → Option (State T S N)) : List (Visit T) → State T S N → Option (State T S N)
  | [], s => some s
  | v :: vs, s => if s.remaining = 0 then some s else (f v s).bind (visitAll f vs)

/-- Lines 435-438 -/
def visitConstraint (E : Env T S N) (f : Visit T → State T S N → Option (State T S N)) (c : Option N) (s : State T S N) : Option (State T S N) :=
  match c with
  | some c => if s.constraints.contains c then some s else f ⟨E.constraintType c, false, false⟩ { s with constraints := c :: s.constraints }
  | none => some s

/-- Lines 440-443 -/
def visitDefault (f : Visit T → State T S N → Option (State T S N)) (d : Option T) (s : State T S N) : Option (State T S N) :=
  match d with
  | some d => if s.default.isSome then some s else f ⟨d, false, false⟩ { s with default := some d }
  | none => some s

/-- Lines 422-546 `visitType`; `none`: out of fuel. -/
def visit (E : Env T S N) (fromClass : Bool) (targets : List S) : Nat → Visit T → State T S N → Option (State T S N)
  | 0, _, _ => none
  | n + 1, v, s =>
    if s.remaining = 0 then some s
    else if (s.bump v.type).usages v.type > 9 then some (s.bump v.type)
    else match (E.facts v.type).param with
    | some (some d) =>
      (visitConstraint E (visit E fromClass targets n) d.constraint ((s.bump v.type).use targets d.symbol v.many)).bind
        (visitDefault (visit E fromClass targets n) d.default)
    | some none => some (s.bump v.type)
    | none => visitAll (visit E fromClass targets n) (parts E fromClass v) (s.bump v.type)

/-- Lines 548-555: call signatures and constructors are visited as signatures (which may be missing), other nodes as types. -/
inductive Root (T : Type)
  | signature (s : Option (Signature T))
  | type (t : T)

def Root.visits : Root T → List (Visit T)
  | .signature none => []
  | .signature (some s) => s.visits
  | .type t => [⟨t, false, false⟩]

/-- Lines 324-558 `collectTypeParameterUsageCounts`, for the counts and the number of targets left. -/
def collect (E : Env T S N) (fromClass : Bool) (targets : List S) (n : Nat) (r : Root T) (c : (S → Nat) × Nat) : Option ((S → Nat) × Nat) :=
  (visitAll (visit E fromClass targets n) r.visits ⟨c.1, c.2, fun _ => 0, [], none⟩).map fun s => (s.counts, s.remaining)

def collectAll (E : Env T S N) (fromClass : Bool) (targets : List S) (n : Nat) : List (Root T) → (S → Nat) × Nat → Option ((S → Nat) × Nat)
  | [], c => some c
  | r :: rs, c => if c.2 = 0 then some c else (collect E fromClass targets n r c).bind (collectAll E fromClass targets n rs)

/-- Lines 200-232 `countTypeParameterUsage`: for a class its type parameters, the types of its heritage clauses and its members; for others the node itself.
`targets` has no duplicates: it stands for the keys of a map. -/
def countUsage (E : Env T S N) (fromClass : Bool) (targets : List S) (n : Nat) (roots : List (Root T)) : Option (S → Nat) :=
  (collectAll E fromClass targets n roots (fun _ => 0, targets.length)).map (·.1)

/-! ## References (lines 88-125) -/

/-- Kinds of nodes, as far as they matter: array, indexed access, intersection and union types; other type nodes; other nodes. -/
inductive Kind
  | wrapping
  | type
  | other
deriving DecidableEq

inductive Syn (S : Type)
  | node (kind : Kind) (kids : List (Syn S))
  /-- an identifier: the node, its symbol, its positions with and without leading trivia -/
  | ident (id : Nat) (symbol : Option S) (pos start stop : Nat)

structure Reference where
  id : Nat
  pos : Nat
  start : Nat
  stop : Nat
  /-- lines 62-78 `hasMatchingAncestorType` -/
  wrapped : Bool
deriving DecidableEq

mutual
/-- Lines 100-116 `walk`; `anc`: the kinds of the parent, its parent, and so on. -/
def references (x : S) (name : Nat) : List Kind → Syn S → List Reference
  | anc, .node k kids => referencesIn x name (k :: anc) kids
  | anc, .ident id symbol pos start stop =>
    match anc with
    | p :: rest => if id ≠ name ∧ p ≠ .other ∧ symbol = some x then [⟨id, pos, start, stop, decide (rest.head? = some .wrapping)⟩] else []
    | [] => []
def referencesIn (x : S) (name : Nat) : List Kind → List (Syn S) → List Reference
  | _, [] => []
  | anc, c :: cs => references x name anc c ++ referencesIn x name anc cs
end

/-- Lines 118-120 -/
def byPosition (a b : Reference) : Int := (a.pos : Int) - b.pos

/-! ## The rule (lines 301-322, 560-655) -/

structure Param (S : Type) where
  /-- the node of its name -/
  name : Nat
  symbol : Option S
  pos : Nat
  stop : Nat

/-- Lines 301-322 `isTypeParameterRepeatedInAST`; `body`: `getStartOfBody` (lines 234-299), `none` is the largest integer. -/
def repeatedLoop (p : Param S) (body : Option Nat) : List Reference → Nat → Bool
  | [], _ => false
  | r :: rs, total =>
    if r.pos < p.stop ∧ r.stop > p.pos then repeatedLoop p body rs total
    else if body.any fun b => decide (r.pos > b) then repeatedLoop p body rs total
    else if total + 1 ≥ 2 then true
    else repeatedLoop p body rs (total + 1)

structure Candidate (S : Type) where
  param : Param S
  symbol : S
  references : List Reference

/-- Lines 574-594 -/
def candidates (sorter : Sorter byPosition) (tree : Syn S) (body : Option Nat) (ps : List (Param S)) : List (Candidate S) :=
  ps.filterMap fun p =>
    match p.symbol with
    | none => none
    | some x =>
      let refs := sorter.sort (references x p.name [] tree)
      if repeatedLoop p body refs 0 then none else some ⟨p, x, refs⟩

/-- A report: for which type parameter, whether as never used (else as used only once), and the labelled reference (the name itself if there is none). -/
structure Report (S : Type) where
  param : Param S
  never : Bool
  label : Option Reference

/-- Lines 604-628 -/
def reportOf (counts : S → Nat) (c : Candidate S) : Option (Report S) :=
  if counts c.symbol = 0 ∨ counts c.symbol > 2 then none
  else some ⟨c.param, counts c.symbol = 1, c.references.head?⟩

/-- Lines 599-602: the keys of the map. -/
def distinct : List S → List S
  | [] => []
  | x :: xs => if xs.contains x then distinct xs else x :: distinct xs

/-- Lines 560-654 `checkNoUnnecessaryTypeParametersNode` -/
def check (E : Env T S N) (sorter : Sorter byPosition) (fromClass : Bool) (n : Nat) (tree : Syn S) (body : Option Nat) (ps : List (Param S)) (roots : List (Root T)) :
    Option (List (Report S)) :=
  let cs := candidates sorter tree body ps
  if cs.isEmpty then some []
  else (countUsage E fromClass (distinct (cs.map (·.symbol))) n roots).map fun counts => cs.filterMap (reportOf counts)

/-! ## The suggestion (lines 127-183, 630-652) -/

/-- Lines 149-156: the position after the next `>`, or the end of the text. -/
def closing (text : Bytes) (i : Nat) : Nat :=
  let rest := text.drop i
  let skipped := (rest.takeWhile (· != 62)).length
  if skipped < rest.length then i + skipped + 1 else i + skipped

/-- Lines 174-180: the first comma from `i` on, before `stop`. -/
def comma (text : Bytes) (i stop : Nat) : Nat :=
  let region := (text.take stop).drop i
  let skipped := (region.takeWhile (· != 44)).length
  if skipped < region.length then i + skipped else i

/-- Lines 136-183 `getTypeParameterListRemovalRange`, for the parameter at the index (which exists): positions of the parameters with leading trivia; `token`: the start of the
token after a position. -/
def removal (text : Bytes) (token : Nat → Nat) (ps : List (Param S)) (i : Nat) (p : Param S) : Nat × Nat :=
  if ps.length = 1 then
    let start := if p.pos = 0 then 0 else p.pos - 1
    let stop := closing text p.stop
    (start, if stop ≤ start then p.stop else stop)
  else if i = 0 then
    match ps[1]? with
    | some q => (p.pos, if token q.pos > p.pos then token q.pos else q.pos)
    | none => (p.pos, p.stop)
  else
    match ps[i - 1]? with
    | some q => (comma text q.stop p.pos, p.stop)
    | none => (p.pos, p.stop)

/-- The constraint: none or `any`; otherwise its text, and whether it is a union, an intersection or a conditional type (lines 49-60, 127-134). -/
abbrev Constraint := Option (Bytes × Bool)

/-- Lines 127-134, 638-641 -/
def replacement (c : Constraint) (r : Reference) : Bytes :=
  match c with
  | none => ascii "unknown"
  | some (text, complex) => if complex && r.wrapped then ascii "(" ++ text ++ ascii ")" else text

/-- Lines 629-651: the edits of the suggestion. -/
def fixes (c : Constraint) (range : Nat × Nat) (refs : List Reference) : List Fix :=
  (refs.filter fun r => !(decide (r.start < range.2) && decide (r.stop > range.1))).map (fun r => ⟨replacement c r, r.start, r.stop⟩) ++ [⟨[], range.1, range.2⟩]

end Tsgolint.TypeParameters
