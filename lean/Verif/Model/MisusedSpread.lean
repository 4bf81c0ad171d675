import Verif.Model.TypeGraph
import Verif.Model.Fixer
/-!
# Model of no-misused-spread (/repo/internal/rules/no_misused_spread/no_misused_spread.go)
-/
namespace Tsgolint.MisusedSpread
open Tsgolint.TypeGraph Tsgolint.Fixer
variable {T : Type}

/-- What the rule asks about a type (not about its constituents). -/
structure Env (T : Type) where
  shape : T → Shape T
  /-- `TypeMatchesSomeSpecifier` for the option `allow` (C13) -/
  allowed : T → Bool
  stringLike : T → Bool
  /-- `IsPromiseLike` -/
  promiseLike : T → Bool
  callSignatures : T → Nat
  properties : T → Nat
  /-- `IsBuiltinSymbolLike` -/
  builtin : T → String → Bool
  arrayOrTuple : T → Bool
  /-- it has a property `[Symbol.iterator]` -/
  iterator : T → Bool
  constructSignatures : T → Nat
  /-- for each declaration of the type's symbol, the number of construct signatures of the symbol's type there -/
  declarations : T → Option (List Nat)
  /-- flag `InstantiationExpressionType` of an object type -/
  instantiation : T → Bool
  /-- the value declaration of the symbol is a class -/
  classValue : T → Bool

inductive Kind
  | promise
  | function
  | map
  | array
  | iterable
  | classInstance
  | classDeclaration
deriving DecidableEq, Repr

/-- Lines 89-93 -/
def functionWithoutProps (E : Env T) (t : T) : Bool := decide (E.callSignatures t ≠ 0) && decide (E.properties t = 0)

/-- Lines 95-99 -/
def mapLike (E : Env T) (t : T) : Bool := E.builtin t "Map" || E.builtin t "ReadonlyMap" || E.builtin t "WeakMap"

/-- Lines 115-136 -/
def instanceOf (E : Env T) (t : T) : Bool :=
  if E.constructSignatures t ≠ 0 then false
  else match E.declarations t with
    | none => false
    | some ds => ds.any (fun n => decide (n ≠ 0))

/-- Lines 138-147 -/
def classLike (E : Env T) (t : T) : Bool := if E.instantiation t then true else E.classValue t

/-- The predicate of each check, lines 83-147. -/
def Kind.test (E : Env T) : Kind → T → Bool
  | .promise => E.promiseLike
  | .function => functionWithoutProps E
  | .map => mapLike E
  | .array => E.arrayOrTuple
  | .iterable => E.iterator
  | .classInstance => instanceOf E
  | .classDeclaration => classLike E

/-- `utils.TypeRecurser` with a predicate without state; `none`: out of fuel. -/
def recurse (E : Env T) (p : T → Bool) (fuel : Nat) (t : T) : Option Bool :=
  (typeRecurser E.shape (fun t (_ : Unit) => some (p t, ())) fuel t ()).map (·.1)

/-- Lines 77-81 `isString` -/
def isString (E : Env T) (fuel : Nat) (t : T) : Option Bool := recurse E E.stringLike fuel t

/-- One of the conditions of lines 215-261. -/
def Kind.holds (E : Env T) (fuel : Nat) (t : T) : Kind → Option Bool
  | .iterable => (recurse E (Kind.test E .iterable) fuel t).bind fun b => if b then (isString E fuel t).map (!·) else some false
  | k => recurse E (k.test E) fuel t

/-- The first of these kinds that holds. -/
def firstOf (E : Env T) (fuel : Nat) (t : T) : List Kind → Option (Option Kind)
  | [] => some none
  | k :: ks => (k.holds E fuel t).bind fun b => if b then some (some k) else firstOf E fuel t ks

/-- The order of the checks, lines 215-261. -/
def order : List Kind := [.promise, .function, .map, .array, .iterable, .classInstance, .classDeclaration]

/-- Lines 208-262 `checkObjectSpread` -/
def checkObject (E : Env T) (fuel : Nat) (t : T) : Option (Option Kind) := if E.allowed t then some none else firstOf E fuel t order

/-- Lines 153-158 `checkArrayOrCallSpread` -/
def checkArray (E : Env T) (fuel : Nat) (t : T) : Option Bool := if E.allowed t then some false else isString E fuel t

/-- Lines 172-177: whether there is a suggestion for a map. -/
def mapParts (E : Env T) (fuel : Nat) : List T → Option Bool
  | [] => some true
  | t :: ts => (recurse E (mapLike E) fuel t).bind fun b => if b then mapParts E fuel ts else some false

def mapSuggestion (E : Env T) (fuel : Nat) (t : T) : Option Bool := mapParts E fuel (unionParts E.shape t)

/-- Offsets: the object literal (`{` at `open_`), its end, the `...`, the argument, the end of its list of properties. -/
structure Spans where
  open_ : Nat
  dots : Nat
  argPos : Nat
  argEnd : Nat
  propsEnd : Nat
  stop : Nat

/-- Lines 178-202: `alone`: the spread is the only member of an object literal. -/
def mapFix (alone : Bool) (s : Spans) : List Fix :=
  if alone then
    [{ text := [], pos := s.open_, stop := s.open_ + 1 }, { text := ascii "Object.fromEntries(", pos := s.dots, stop := s.dots + 3 },
     { text := ascii ")", pos := s.argEnd, stop := s.propsEnd }, { text := [], pos := s.stop - 1, stop := s.stop }]
  else [{ text := ascii "Object.fromEntries(", pos := s.argPos, stop := s.argPos }, { text := ascii ")", pos := s.argEnd, stop := s.argEnd }]

/-- Lines 160-169: `higher`: `IsHigherPrecedenceThanAwait`. -/
def awaitFix (higher : Bool) (pos stop : Nat) : List Fix :=
  if higher then [{ text := ascii "await ", pos := pos, stop := pos }]
  else [{ text := ascii "await (", pos := pos, stop := pos }, { text := ascii ")", pos := stop, stop := stop }]

end Tsgolint.MisusedSpread
