import Verif.Model.Fixer
/-!
# Model of prefer-readonly-parameter-types
(/repo/internal/rules/prefer_readonly_parameter_types/prefer_readonly_parameter_types.go)

Types (`T`) are the compiler's.
-/
namespace Tsgolint.ReadonlyParam
variable {T : Type}

/-- A property of a type, as far as the rule looks at it. -/
structure Property (T : Type) where
  /-- flag `Method` -/
  method : Bool
  /-- check flags `Mapped`, `Readonly`, `SyntheticMethod` -/
  mapped : Bool
  checkReadonly : Bool
  synthetic : Bool
  /-- `isReadonlySymbol` -/
  readonlySymbol : Bool
  /-- modifiers of the declarations -/
  declaredReadonly : Bool
  declaredPrivate : Bool
  /-- the value declaration, and whether it has a `#name` -/
  valueDeclaration : Option Bool
  /-- the same for all declarations -/
  declarations : List Bool
  /-- lines 180-187 -/
  type : Option T

/-- Lines 82-103 `propertyHasPrivateIdentifierName` -/
def Property.privateName (p : Property T) : Bool :=
  match p.valueDeclaration with
  | some b => b
  | none => p.declarations.any id

/-- Lines 105-109 `propertyIsPrivateMappedProperty` -/
def Property.privateMapped (p : Property T) : Bool := p.mapped && p.declaredPrivate

/-- Lines 111-137 `propertyIsReadonly` -/
def Property.isReadonly (p : Property T) : Bool :=
  if p.readonlySymbol then true
  else if p.checkReadonly then true
  else if p.synthetic then true
  else if p.method && p.mapped then true
  else if p.valueDeclaration.isNone && p.mapped then true
  else p.declaredReadonly

inductive Kind (T : Type)
  | union (types : List T)
  | intersection (types : List T)
  | object
  | other

/-- Array and tuple types. -/
inductive Elements (T : Type)
  | notArray
  /-- `Array` or a tuple that is not readonly -/
  | writable
  /-- with the type arguments -/
  | fixed (args : List T)

/-- What the rule asks about types. -/
structure Env (T : Type) where
  /-- `TypeMatchesSomeSpecifier` for the option `allow` (C13) -/
  allowed : T → Bool
  kind : T → Kind T
  /-- `isArrayType` or `IsTupleType` -/
  arrayOrTuple : T → Bool
  /-- lines 51-77 -/
  elements : T → Elements T
  callable : T → Bool
  properties : T → List (Property T)
  /-- for each index signature: it is readonly; its value type -/
  indexInfos : T → List (Bool × Option T)
  treatMethodsAsReadonly : Bool

/-- Lines 147-166: the property is not readonly. -/
def offends (E : Env T) (p : Property T) : Bool :=
  if E.treatMethodsAsReadonly && p.method then false
  else if p.isReadonly then false
  else if p.privateName then false
  else if p.privateMapped then false
  else true

/-- Lines 169-192: the type of the property, if it is looked at. -/
def follow (p : Property T) : Option T :=
  if p.method then none
  else if p.privateName then none
  else if p.privateMapped then none
  else p.type

/-- A call of the recursion: with the types seen so far; whether the type is mutable, and the types seen afterwards; `none`: out of fuel. -/
abbrev Judge (T : Type) := List T → T → Option (Bool × List T)

variable [DecidableEq T]

/-- Lines 235-242, 256-262, 189-195: types already seen are skipped; stops at the first mutable one. -/
def fresh (f : Judge T) : List T → List T → Option (Bool × List T)
  | [], seen => some (false, seen)
  | t :: ts, seen =>
    if seen.contains t then fresh f ts seen
    else (f seen t).bind fun (b, seen) => if b then some (true, seen) else fresh f ts seen

/-- Lines 42-46: type arguments are judged whether seen or not. -/
def every (f : Judge T) : List T → List T → Option (Bool × List T)
  | [], seen => some (false, seen)
  | t :: ts, seen => (f seen t).bind fun (b, seen) => if b then some (true, seen) else every f ts seen

/-- Lines 199-215: the index signatures. -/
def indexLoop (f : Judge T) (self : T) : List (Bool × Option T) → List T → Option (Bool × List T)
  | [], seen => some (false, seen)
  | (false, _) :: _, seen => some (true, seen)
  | (true, none) :: rest, seen => indexLoop f self rest seen
  | (true, some v) :: rest, seen =>
    if v = self then indexLoop f self rest seen
    else if seen.contains v then indexLoop f self rest seen
    else (f seen v).bind fun (b, seen) => if b then some (true, seen) else indexLoop f self rest seen

/-- Lines 139-218 `isTypeReadonlyObject` -/
def object (E : Env T) (f : Judge T) (t : T) (seen : List T) : Option (Bool × List T) :=
  if (E.properties t).any (offends E) then some (true, seen)
  else (fresh f ((E.properties t).filterMap follow) seen).bind fun (b, seen) =>
    if b then some (true, seen) else indexLoop f t (E.indexInfos t) seen

/-- Lines 269-291: an object type. -/
def objectType (E : Env T) (f : Judge T) (t : T) (seen : List T) : Option (Bool × List T) :=
  if E.callable t && (E.properties t).isEmpty then some (false, seen)
  else match E.elements t with
    | .writable => some (true, seen)
    | .fixed args => every f args seen
    | .notArray => object E f t seen

/-- Lines 220-291 `isTypeReadonlyRecurser` (true: mutable; it never answers `unknown`).  There need not be enough fuel: `C93_hazard_diverges`. -/
def recurse (E : Env T) : Nat → Judge T
  | 0, _, _ => none
  | n + 1, seen, t =>
    if E.allowed t then some (false, t :: seen)
    else match E.kind t with
      | .union ts => fresh (recurse E n) ts (t :: seen)
      | .intersection ts => if ts.any E.arrayOrTuple then fresh (recurse E n) ts (t :: seen) else object E (recurse E n) t (t :: seen)
      | .other => some (false, t :: seen)
      | .object => objectType E (recurse E n) t (t :: seen)

/-- Lines 293-300 `isTypeReadonly` -/
def isReadonly (E : Env T) (fuel : Nat) (t : T) : Option Bool := (recurse E fuel [] t).map (!·.1)

/-- Lines 302-336: what is asked for branded literals. -/
structure Brands (T : Type) where
  /-- object type without call and construct signatures -/
  objectLike : T → Bool
  /-- a literal, or bigint, number, string or template literal -/
  primitiveLike : T → Bool

/-- Lines 320-332: the loop over the constituents. -/
def brandLoop (B : Brands T) : List T → Bool → Bool → Bool
  | [], o, p => o && p
  | c :: cs, o, p => if B.objectLike c then brandLoop B cs true p else if B.primitiveLike c then brandLoop B cs o true else false

omit [DecidableEq T] in
/-- Lines 316-335 `isTypeBrandedLiteral` -/
def branded (E : Env T) (B : Brands T) (t : T) : Bool :=
  match E.kind t with
  | .intersection cs => brandLoop B cs false false
  | _ => false

omit [DecidableEq T] in
/-- Lines 337-348 `isTypeBrandedLiteralLike` -/
def brandedLike (E : Env T) (B : Brands T) (t : T) : Bool :=
  match E.kind t with
  | .union ts => ts.all (branded E B)
  | _ => branded E B t

/-- A parameter: it declares a property; its annotation is there; its type. -/
structure Param (T : Type) where
  property : Bool
  annotated : Bool
  type : Option T

structure Options where
  checkParameterProperties : Bool
  ignoreInferredTypes : Bool

/-- Lines 378-412: whether the parameter is reported. -/
def report (E : Env T) (B : Brands T) (o : Options) (fuel : Nat) (p : Param T) : Option Bool :=
  if !o.checkParameterProperties && p.property then some false
  else if o.ignoreInferredTypes && !p.annotated then some false
  else match p.type with
    | none => some false
    | some t => (isReadonly E fuel t).map fun r => !r && !brandedLike E B t

end Tsgolint.ReadonlyParam
