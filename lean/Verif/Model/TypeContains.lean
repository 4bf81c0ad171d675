/-!
# Model of `typeContains` of no-unnecessary-type-assertion
(/repo/internal/rules/no_unnecessary_type_assertion/no_unnecessary_type_assertion.go, lines 170-244)

Types (`T`) and signatures (`S`) are the compiler's; there may be infinitely many, because instantiating a generic signature can make new ones.
-/
namespace Tsgolint.TypeContains
variable {T S : Type}

/-- What is asked about types and signatures. -/
structure Env (T S : Type) where
  /-- lines 185, 237, 243: the predicate -/
  holds : T → Bool
  /-- `UnionTypeParts` -/
  unionParts : T → List T
  /-- `IntersectionTypeParts` -/
  intersectionParts : T → List T
  /-- lines 170-178 `getTypeArguments` -/
  typeArguments : T → List T
  /-- `GetCallSignatures` -/
  callSignatures : T → List S
  /-- `Signature.Target` -/
  target : S → Option S
  /-- types of the parameters -/
  params : S → List T
  /-- `getReturnTypeOfSignature` -/
  result : S → T

/-- Line 179: the two maps shared by all calls. -/
structure State (T S : Type) where
  seen : List T
  active : List S

/-- Lines 211-214: from a signature to the one it was instantiated from; `none`: out of fuel. -/
def origin (E : Env T S) : Nat → S → Option S
  | 0, _ => none
  | n + 1, s => match E.target s with
    | none => some s
    | some s' => origin E n s'

/-- A call: the answer and the maps afterwards; `none`: out of fuel. -/
abbrev Call (T S : Type) := T → State T S → Option (Bool × State T S)

/-- Lines 189-204, 221-225: stops at the first `true`. -/
def each (f : Call T S) : List T → State T S → Option (Bool × State T S)
  | [], st => some (false, st)
  | t :: ts, st => (f t st).bind fun (b, st) => if b then some (true, st) else each f ts st

variable [DecidableEq T] [DecidableEq S]

/-- Lines 205-231: the call signatures. -/
def signatures (E : Env T S) (org : S → Option S) (f : Call T S) : List S → State T S → Option (Bool × State T S)
  | [], st => some (false, st)
  | s :: rest, st => (org s).bind fun o =>
    if st.active.contains o then some (true, st)
    else (each f (E.params s) { st with active := o :: st.active }).bind fun (b, st) =>
      if b then some (true, st)
      else (f (E.result s) st).bind fun (b, st) =>
        if b then some (true, st)
        else signatures E org f rest { st with active := st.active.filter (· ≠ o) }

/-- Lines 181-232 `typeContains` for a type that is not nil. -/
def contains (E : Env T S) : Nat → Call T S
  | 0, _, _ => none
  | n + 1, t, st =>
    if st.seen.contains t then some (false, st)
    else if E.holds t then some (true, { st with seen := t :: st.seen })
    else (each (contains E n) ((E.unionParts t).filter (· ≠ t)) { st with seen := t :: st.seen }).bind fun (b, st) =>
      if b then some (true, st)
      else (each (contains E n) ((E.intersectionParts t).filter (· ≠ t)) st).bind fun (b, st) =>
        if b then some (true, st)
        else (each (contains E n) (E.typeArguments t) st).bind fun (b, st) =>
          if b then some (true, st)
          else signatures E (origin E n) (contains E n) (E.callSignatures t) st

/-- Lines 180-181, 235-245 `containsAny`, `containsTypeVariable`: a call with empty maps. -/
def typeContains (E : Env T S) (fuel : Nat) : Option T → Option Bool
  | none => some false
  | some t => (contains E fuel t ⟨[], []⟩).map (·.1)

end Tsgolint.TypeContains
