import Verif.Model.Fixer
/-!
# Model of consistent-type-exports (/repo/internal/rules/consistent_type_exports/consistent_type_exports.go)

Symbols are numbers.  Texts of nodes are given trimmed, so that `strings.TrimSpace` does nothing to them.
-/
namespace Tsgolint.TypeExports
open Tsgolint.Fixer (Fix Bytes ascii)

/-- A symbol: some declaration is type-only; it has a value; it is an alias; what it is an alias of. -/
structure Info where
  typeOnly : Bool
  value : Bool
  alias : Bool
  next : Option Nat

/-- Lines 48-74 `isSymbolTypeBased`: the outer `none` means out of fuel (there is always enough, `C90_terminates`); the inner
`none` that the symbol is not resolved. -/
def typeBased (E : Nat → Info) : Nat → List Nat → Option Nat → Option (Option Bool)
  | 0, _, _ => none
  | _ + 1, _, none => some none
  | fuel + 1, visited, some s =>
    if visited.contains s then some none
    else if (E s).typeOnly then some (some true)
    else if (E s).value then some (some false)
    else if (E s).alias then
      match (E s).next with
      | none => some none
      | some n => typeBased E fuel (s :: visited) (some n)
    else some (some true)

/-- `unicode.IsSpace(rune(b))` for a byte. -/
def isSpace (b : UInt8) : Bool := b == 9 || b == 10 || b == 11 || b == 12 || b == 13 || b == 32 || b == 0x85 || b == 0xA0

/-- Line 95: the cut set of `strings.TrimLeft`. -/
def isBlank (b : UInt8) : Bool := b == 32 || b == 9 || b == 13 || b == 10

/-- Lines 81-96 `stripLeadingTypeKeyword` -/
def strip (text : Bytes) : Bytes :=
  if text.take 4 ≠ ascii "type" then text
  else match text.drop 4 with
    | [] => []
    | c :: rest => if !isSpace c && c != 47 then text else (c :: rest).dropWhile isBlank

/-- An export specifier: its text, the texts of the local and the exported name, `type`, the symbol of the local name. -/
structure Specifier where
  text : Bytes
  «local» : Bytes
  exported : Bytes
  typeOnly : Bool
  symbol : Option Nat
deriving DecidableEq

/-- Lines 98-118 `getExportSpecifierText` -/
def Specifier.name (s : Specifier) : Bytes :=
  if s.typeOnly then strip s.text
  else if s.local = s.exported then s.local
  else s.local ++ ascii " as " ++ s.exported

/-- Lines 40-47, without the node. -/
structure Analyzed where
  typeTexts : List Bytes
  typeBased : List Specifier
  valueTexts : List Bytes

/-- Lines 227-253: the loop over the specifiers; `resolve` is `isSymbolTypeBased`. -/
def analyze (resolve : Option Nat → Option Bool) : List Specifier → Analyzed
  | [] => ⟨[], [], []⟩
  | s :: rest =>
    let r := analyze resolve rest
    if s.typeOnly then { r with typeTexts := s.name :: r.typeTexts }
    else match resolve s.symbol with
      | none => r
      | some true => { r with typeTexts := s.name :: r.typeTexts, typeBased := s :: r.typeBased }
      | some false => { r with valueTexts := s.name :: r.valueTexts }

/-- `strings.Join` -/
def join (sep : Bytes) : List Bytes → Bytes
  | [] => []
  | [a] => a
  | a :: b :: l => a ++ sep ++ join sep (b :: l)

/-- Lines 134-145 `joinWordList` -/
def joinWords (words : List Bytes) : Bytes :=
  match words with
  | [] => []
  | [a] => a
  | [a, b] => a ++ ascii " and " ++ b
  | _ => join (ascii ", ") words.dropLast ++ ascii ", and " ++ words.getLast?.getD []

/-- Lines 147-158 `buildNamedExportStatement`; `source` is empty if there is no module. -/
def statement (typeOnly : Bool) (specifiers : List Bytes) (source : Bytes) : Bytes :=
  ascii "export " ++ (if typeOnly then ascii "type " else []) ++ ascii "{ " ++ join (ascii ", ") specifiers ++ ascii " }" ++
    (if source.isEmpty then [] else ascii " from " ++ source) ++ ascii ";"

/-- An `export { … } from …` declaration. -/
structure Named where
  typeOnly : Bool
  specifiers : List Specifier
  source : Bytes

inductive Message
  | typeOverValue
  | single (name : Bytes)
  | multiple (names : Bytes)
deriving DecidableEq

/-- What the fix does. -/
inductive Edit
  /-- replace the declaration -/
  | replace (text : Bytes)
  /-- insert `type ` before each of these specifiers -/
  | inline (specifiers : List Specifier)
deriving DecidableEq

/-- Lines 211-220 and 256-317: `inlineOption` is `fixMixedExportsWithInlineTypeSpecifier`. -/
def checkNamed (resolve : Option Nat → Option Bool) (inlineOption : Bool) (d : Named) : Option (Message × Edit) :=
  if d.typeOnly then none
  else
    let a := analyze resolve d.specifiers
    if a.typeBased.isEmpty then none
    else if a.valueTexts.isEmpty then some (.typeOverValue, .replace (statement true a.typeTexts d.source))
    else
      let msg := match a.typeBased with
        | [s] => .single s.name
        | l => .multiple (joinWords (l.map (·.name)))
      some (msg, if inlineOption then .inline a.typeBased
        else .replace (statement true a.typeTexts d.source ++ ascii "\n" ++ statement false a.valueTexts d.source))

/-- An `export *` declaration: `module`: for each property of the module's type (lines 179-184) whether it is found again by its name; `none`: no module symbol or type. -/
structure Star where
  typeOnly : Bool
  module : Option (List Bool)

/-- Lines 164-189: whether it is reported. -/
def checkStar (d : Star) : Bool :=
  if d.typeOnly then false
  else match d.module with
    | none => false
    | some props => if props.any id then false else true

inductive Token
  | asterisk
  | endOfFile
  | other
deriving DecidableEq

/-- Lines 195-208: the loop over the tokens with their positions; `stop` is the end of the declaration. -/
def starFix (stop : Nat) : List (Token × Nat) → List Fix
  | [] => []
  | (k, p) :: rest =>
    if k = .asterisk then [{ text := ascii "type ", pos := p, stop := p }]
    else if k = .endOfFile || decide (p ≥ stop) then []
    else starFix stop rest

end Tsgolint.TypeExports
