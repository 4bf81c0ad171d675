/-!
# Model of the headless payload decoder (/repo/cmd/tsgolint/payload.go)

`json.Unmarshal` (github.com/go-json-experiment/json, default options) is external.  What is assumed about it: the
text is parsed to a JSON value first (a parse error, including duplicate object names, rejects the whole text: parameter
`parse` of `deserializeBytes`), and a value is stored into a Go type as written in the `un*` functions below (`null`
stores the zero value, member names are case sensitive, unknown members are ignored, a missing member leaves the zero
value, a kind mismatch is an error, integers must be literals without fraction or exponent that fit in 64 bits).
-/
namespace Tsgolint.Payload

/-- A parsed JSON value.  `int` is a number literal without fraction and exponent, `frac` is any other number literal.
Object member names are distinct (the parser rejects duplicates). -/
inductive Json
  | null
  | bool (b : Bool)
  | int (i : Int)
  | frac (raw : String)
  | str (s : String)
  | arr (l : List Json)
  | obj (l : List (String × Json))

/-- Member lookup; a missing member is stored like `null` (zero value stays). -/
def get (k : String) : List (String × Json) → Json
  | [] => .null
  | (k', v) :: r => if k' = k then v else get k r

/-- Storing into a Go `string`. -/
def unString : Json → Option String
  | .null => some ""
  | .str s => some s
  | _ => none

/-- Storing into a Go `bool`. -/
def unBool : Json → Option Bool
  | .null => some false
  | .bool b => some b
  | _ => none

/-- Storing into a Go `int` (64 bits). -/
def unInt : Json → Option Int
  | .null => some 0
  | .int i => if -(2 ^ 63) ≤ i ∧ i < 2 ^ 63 then some i else none
  | _ => none

/-- Storing into a Go `any`. -/
def unAny : Json → Option (Option Json)
  | .null => some none
  | j => some (some j)

/-- `mapM` on `Option`, written out. -/
def allSome {α β : Type} (f : α → Option β) : List α → Option (List β)
  | [] => some []
  | a :: l => match f a, allSome f l with
    | some b, some r => some (b :: r)
    | _, _ => none

/-- Storing into a Go slice. -/
def unSlice {α : Type} (f : Json → Option α) : Json → Option (List α)
  | .null => some []
  | .arr l => allSome f l
  | _ => none

/-- Storing into a Go `map[string]string`, as the list of its entries. -/
def unMapStr : Json → Option (List (String × String))
  | .null => some []
  | .obj l => allSome (fun kv => (unString kv.2).map (fun v => (kv.1, v))) l
  | _ => none

/-- Storing into a Go struct: the members are handed to `f`. -/
def unStruct {α : Type} (f : List (String × Json) → Option α) : Json → Option α
  | .null => f []
  | .obj l => f l
  | _ => none

/-- payload.go:34-37 `headlessRule` (`Options any`, nil = `none`) -/
structure Rule where
  name : String
  options : Option Json

/-- payload.go:29-32 `headlessConfig` -/
structure Config where
  filePaths : List String
  rules : List Rule

/-- payload.go:21-27 `headlessPayload` -/
structure Payload where
  version : Int
  configs : List Config
  sourceOverrides : List (String × String)
  reportSyntactic : Bool
  reportSemantic : Bool

/-- payload.go:11-14 `headlessConfigForFileV1` -/
structure FileV1 where
  filePath : String
  rules : List String

/-- payload.go:34-37 -/
def unRule : Json → Option Rule := unStruct fun m =>
  match unString (get "name" m), unAny (get "options" m) with
  | some n, some o => some ⟨n, o⟩
  | _, _ => none

/-- payload.go:29-32 -/
def unConfig : Json → Option Config := unStruct fun m =>
  match unSlice unString (get "file_paths" m), unSlice unRule (get "rules" m) with
  | some f, some r => some ⟨f, r⟩
  | _, _ => none

/-- payload.go:21-27 -/
def unPayload : Json → Option Payload := unStruct fun m =>
  match unInt (get "version" m), unSlice unConfig (get "configs" m), unMapStr (get "source_overrides" m),
    unBool (get "report_syntactic" m), unBool (get "report_semantic" m) with
  | some v, some c, some o, some a, some b => some ⟨v, c, o, a, b⟩
  | _, _, _, _, _ => none

/-- payload.go:11-14 -/
def unFileV1 : Json → Option FileV1 := unStruct fun m =>
  match unString (get "file_path" m), unSlice unString (get "rules" m) with
  | some f, some r => some ⟨f, r⟩
  | _, _ => none

/-- payload.go:15-17 -/
def unPayloadV1 : Json → Option (List FileV1) := unStruct fun m => unSlice unFileV1 (get "files" m)

/-- payload.go:86-94 `getPayloadVersion` -/
def getPayloadVersion : Json → Option Int := unStruct fun m => unInt (get "version" m)

/-- The error returned; the texts of errors that come from the JSON library are not modelled. -/
inductive Err
  /-- payload.go:40-43 -/
  | badVersion
  /-- payload.go:47-49 -/
  | badV2
  /-- payload.go:54-56, with the version printed in the message -/
  | unsupported (v : Int)
  /-- payload.go:59-61 -/
  | badV1
  /-- payload.go:64-66 -/
  | noFiles

/-- payload.go:69-83: the loop that converts V1 to V2. -/
def convertV1 (files : List FileV1) : Payload :=
  { version := 2
    configs := files.map fun f => { filePaths := [f.filePath], rules := f.rules.map fun r => { name := r, options := none } }
    sourceOverrides := [], reportSyntactic := false, reportSemantic := false }

/-- payload.go:39-84 `deserializePayload`, on the parsed value. -/
def deserialize (j : Json) : Except Err Payload :=
  match getPayloadVersion j with
  | none => .error .badVersion
  | some version =>
    if version = 2 then
      match unPayload j with
      | none => .error .badV2
      | some p => .ok p
    else if version ≠ 0 then .error (.unsupported version)
    else match unPayloadV1 j with
      | none => .error .badV1
      | some files => if files.length = 0 then .error .noFiles else .ok (convertV1 files)

/-- payload.go:39-43 on bytes: a text that is not JSON fails in `getPayloadVersion`. -/
def deserializeBytes {B : Type} (parse : B → Option Json) (data : B) : Except Err Payload :=
  match parse data with
  | none => .error .badVersion
  | some j => deserialize j

end Tsgolint.Payload
