import Verif.Model.Specifier
/-!
# Model of rule options (/repo/internal/utils/utils.go:189-305 and the generated `UnmarshalJSON` methods of /repo/internal/rules/*/options.go)

A rule gets its options as a decoded JSON value (`any`), writes them out and reads them into its option type.  All generated
`UnmarshalJSON` methods have the same form (see `unmarshal`); what differs is the list of fields, kept as data
(`Verif.Model.OptionTables`).  The JSON library is the external model of `Verif.Model.Payload`.
-/
namespace Tsgolint.Options
open Tsgolint.Payload

/-! ## BoolOr -/

/-- utils.go:231-235 `BoolOr[T]`. -/
structure BoolOr (T : Type) where
  isSet : Bool := false
  boolVal : Bool := false
  objectVal : Option T := none

variable {T : Type}

/-- utils.go:238-240. -/
def BoolOr.isTrue (b : BoolOr T) : Bool := b.isSet && b.boolVal && b.objectVal.isNone
/-- utils.go:243-245. -/
def BoolOr.isFalse (b : BoolOr T) : Bool := !b.isSet || (!b.boolVal && b.objectVal.isNone)
/-- utils.go:258-260. -/
def BoolOr.bool (b : BoolOr T) : Bool := b.boolVal || b.objectVal.isSome
/-- utils.go:303-305 `BoolOrValue`. -/
def boolOrValue (v : Bool) : BoolOr T := { isSet := true, boolVal := v }

/-- utils.go:263-288 `UnmarshalJSON` (it never returns an error); `dec` reads a `T`. -/
def BoolOr.unmarshal (dec : Json → Option T) (j : Json) : BoolOr T :=
  match j with
  | .null => {}
  | _ => match unBool j with
    | some b => { isSet := true, boolVal := b }
    | none => match dec j with
      | some o => { isSet := true, boolVal := true, objectVal := some o }
      | none => {}

/-- utils.go:291-299 `MarshalJSON`; `enc` writes a `T`. -/
def BoolOr.marshal (enc : T → Json) (b : BoolOr T) : Json :=
  if b.isSet = false then .null
  else match b.objectVal with
    | some o => enc o
    | none => .bool b.boolVal

/-! ## Option types -/

/-- The value of an option. -/
inductive Val
  | bool (b : Bool)
  | str (s : String)
  /-- a pointer to a string -/
  | strPtr (s : Option String)
  | strs (l : List String)
  | specs (l : List Specifier.Spec)
  /-- a `BoolOr` of another option type -/
  | boolOr (isSet boolVal : Bool) (objectVal : Option (List (String × Val)))
  /-- `interface{}` -/
  | any (j : Option Json)

/-- The type of a field. -/
inductive Kind
  | bool | str | strPtr | strs | specs | any
  /-- pointer to a string type whose `UnmarshalJSON` accepts only the values listed -/
  | enumPtr (values : List String)
  /-- `utils.BoolOr[T]`, with the reader of `T` -/
  | boolOr (dec : Json → Option (List (String × Val)))

/-- Storing a JSON value into a field (`null` leaves or sets the zero value; for a `BoolOr`, its `UnmarshalJSON`). -/
def Kind.decode : Kind → Json → Option Val
  | .bool, j => (unBool j).map .bool
  | .str, j => (unString j).map .str
  | .strPtr, j => (Specifier.unStringPtr j).map .strPtr
  | .strs, j => (unSlice unString j).map .strs
  | .specs, j => (unSlice Specifier.unmarshal j).map .specs
  | .any, j => (unAny j).map .any
  | .enumPtr values, j => match j with
    | .null => some (.strPtr none)
    | .str s => if s ∈ values then some (.strPtr (some s)) else none
    | _ => none
  | .boolOr dec, j => let b := BoolOr.unmarshal dec j; some (.boolOr b.isSet b.boolVal b.objectVal)

/-- The zero value of a field. -/
def Kind.zero : Kind → Val
  | .bool => .bool false
  | .str => .str ""
  | .strPtr => .strPtr none
  | .strs => .strs []
  | .specs => .specs []
  | .any => .any none
  | .enumPtr _ => .strPtr none
  | .boolOr _ => .boolOr false false none

/-- A field of an option type: its JSON name, its type and the value `UnmarshalJSON` gives it when the member is missing or null (none
if the method has no such statement). -/
structure Field where
  name : String
  kind : Kind
  dflt : Option Val

abbrev Schema := List Field

/-- One field, given the object: `json.Unmarshal(value, &plain)` and then `if v, ok := raw[name]; !ok || v == nil { plain.F = default }`. -/
def Field.read (f : Field) (m : List (String × Json)) : Option Val :=
  match f.kind.decode (get f.name m) with
  | none => none
  | some v => match get f.name m, f.dflt with
    | .null, some d => some d
    | _, _ => some v

/-- All fields. -/
def readAll (m : List (String × Json)) : Schema → Option (List (String × Val))
  | [] => some []
  | f :: r => match f.read m, readAll m r with
    | some v, some vs => some ((f.name, v) :: vs)
    | _, _ => none

/-- The generated `UnmarshalJSON` (e.g. no_floating_promises/options.go:28-55): the value must be an object or null. -/
def unmarshal (s : Schema) (j : Json) : Option (List (String × Val)) := unStruct (fun m => readAll m s) j

/-- utils.go:189-206 `UnmarshalOptions` on a decoded JSON value: writing it out and reading it back gives the same value, so what is read
is the value itself; an error is a panic (`none`). -/
def unmarshalOptions (s : Schema) (options : Json) : Option (List (String × Val)) := unmarshal s options

/-- return_await/options.go:20-45: the option of `return-await` is a string from a list, `null` is the default. -/
def returnAwait (j : Json) : Option String :=
  match j with
  | .null => some "in-try-catch"
  | .str s => if s ∈ ["always", "error-handling-correctness-only", "in-try-catch", "never"] then some s else none
  | _ => none

/-- no_misused_promises.go:87-119: whether void returns are checked, and with which sub-options (`none`: nil). -/
def checksVoidReturn (sub : Schema) (defaults : List (String × Val)) (option : Option Json) : Bool × Option (List (String × Val)) :=
  match option with
  | none => (true, some defaults)
  | some (.bool true) => (true, some defaults)
  | some (.bool false) => (false, none)
  | some (.obj m) => match unmarshal sub (.obj m) with
    | some o => (true, some o)
    | none => (true, some defaults)
  | some _ => (true, none)

end Tsgolint.Options
