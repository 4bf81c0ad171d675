import Verif.Model.TypeGraph
import Verif.Model.StringLiteral
import Verif.Model.Fixer
/-!
# Model of switch-exhaustiveness-check (/repo/internal/rules/switch_exhaustiveness_check/switch_exhaustiveness_check.go)

The discriminant's and the cases' types are the results of `utils.GetConstrainedTypeAtLocation`.  Texts are lists of code points.
-/
namespace Tsgolint.Switch
open Tsgolint.TypeGraph (Shape typeRecurser unionParts)
open Tsgolint.Fixer (Fix Bytes)

abbrev Text := List Char

/-- What the rule asks the checker and the scanner. -/
structure Env (T : Type) where
  shape : T → Shape T
  /-- `isLiteralLikeType` (switch_exhaustiveness_check.go:50-55): the flags Literal, Undefined, Null, UniqueESSymbol -/
  literalLike : T → Bool
  isUndefined : T → Bool
  isSymbolLike : T → Bool
  /-- `t.Symbol()` and its `Name` -/
  symbolName : T → Option Text
  /-- `TypeToString` -/
  print : T → Text
  /-- `scanner.IsIdentifierText(_, LanguageVariantStandard)` -/
  isIdentifier : Text → Bool
  /-- `commentPattern.MatchString` (`none` for an error); the pattern is the option's or `^no default$` ignoring case (:280-283) -/
  matchesPattern : Text → Option Bool
  /-- `strings.TrimSpace` -/
  trimSpace : Text → Text

/-- One clause of the case block. -/
structure Clause (T : Type) where
  /-- `some` type of the expression of a `case`, `none` for `default` -/
  test : Option T
  /-- start (without trivia) and end of the clause -/
  start : Nat
  stop : Nat
  /-- UTF-16 column of the start (:174) -/
  column : Nat

/-- A comment between the end of the last clause and the end of the case block (utils.GetCommentsInRange). -/
structure Comment where
  pos : Nat
  isLine : Bool
  isBlock : Bool
  text : Text

/-- A switch statement. -/
structure Stmt (T : Type) where
  discriminant : T
  clauses : List (Clause T)
  comments : List Comment
  /-- start (without trivia) and end of the case block -/
  blockStart : Nat
  blockStop : Nat
  /-- column of the switch statement -/
  column : Nat

/-- The options (options.go). -/
structure Options where
  allowDefaultCaseForExhaustiveSwitch : Bool
  considerDefaultExhaustiveForUnions : Bool
  requireDefaultForNonUnion : Bool

variable {T : Type} [DecidableEq T]

/-- utils.IntersectionTypeParts (ts_api_utils.go) -/
def intersectionParts (shape : T → Shape T) (t : T) : List T :=
  match shape t with
  | .intersection ps => ps
  | _ => [t]

/-- :66-78 `doesTypeContainNonLiteralType` -/
def containsNonLiteral (E : Env T) (t : T) : Bool :=
  (unionParts E.shape t).any fun p => (intersectionParts E.shape p).all fun q => !E.literalLike q

/-- `strings.TrimPrefix` -/
def trimPrefix (p s : Text) : Text := if p.isPrefixOf s then s.drop p.length else s

/-- `strings.TrimSuffix` -/
def trimSuffix (p s : Text) : Text := if p.isSuffixOf s then s.take (s.length - p.length) else s

/-- :89-95 -/
def commentBody (c : Comment) : Text :=
  if c.isLine then trimPrefix ['/', '/'] c.text
  else if c.isBlock then trimSuffix ['*', '/'] (trimPrefix ['/', '*'] c.text)
  else c.text

/-- :87-105, the loop -/
def firstMatch (E : Env T) : List Comment → Option Comment
  | [] => none
  | c :: cs => match E.matchesPattern (E.trimSpace (commentBody c)) with
    | none => none
    | some true => some c
    | some false => firstMatch E cs

/-- :80-106 `getCommentDefaultCase` -/
def commentDefaultCase (E : Env T) (s : Stmt T) : Option Comment :=
  if s.clauses.isEmpty then none else firstMatch E s.comments

/-- :37-44 `SwitchMetadata` -/
structure Metadata (T : Type) where
  containsNonLiteralType : Bool
  defaultCase : Option (Clause T)
  defaultCaseComment : Option Comment
  missing : List T
  symbolName : Text

/-- :46-48 `hasDefaultCase` -/
def Metadata.hasDefaultCase (m : Metadata T) : Bool := m.defaultCase.isSome || m.defaultCaseComment.isSome

/-- :144-156, the callback given to `TypeRecurser`; it never stops the recursion -/
def collect (E : Env T) (caseTypes : List T) (hasUndefinedCase : Bool) (t : T) (missing : List T) : Option (Bool × List T) :=
  if caseTypes.contains t || !E.literalLike t then some (false, missing)
  else if hasUndefinedCase && E.isUndefined t then some (false, missing)
  else some (false, missing ++ [t])

/-- :108-166 `getSwitchMetadata`; `none` for out of fuel -/
def metadata (E : Env T) (fuel : Nat) (s : Stmt T) : Option (Metadata T) :=
  let defaultCase := s.clauses.find? (fun c => c.test.isNone)
  let comment := if defaultCase.isNone then commentDefaultCase E s else none
  let symbolName := (E.symbolName s.discriminant).getD []
  let caseTypes := s.clauses.filterMap (·.test)
  let hasUndefinedCase := caseTypes.any E.isUndefined
  match typeRecurser E.shape (collect E caseTypes hasUndefinedCase) fuel s.discriminant [] with
  | none => none
  | some (_, missing) => some ⟨containsNonLiteral E s.discriminant, defaultCase, comment, missing, symbolName⟩

/-! ## The suggestion -/

/-- :181-199 `buildCaseTest` -/
def caseTest (E : Env T) (t : T) (symbolName : Text) : Text :=
  let name := (E.symbolName t).getD []
  if symbolName ≠ [] ∧ E.isIdentifier name = false then symbolName ++ ['['] ++ StringLiteral.quote name ++ [']']
  else if E.isSymbolLike t then name
  else E.print t

/-- :207 `strings.NewReplacer("\\", "\\\\", "'", "\\'").Replace`: single pass, left to right -/
def escapeCase (s : Text) : Text := s.flatMap fun c => if c = '\\' then ['\\', '\\'] else if c = '\'' then ['\\', '\''] else [c]

/-- :201-209 `buildMissingCaseLine`; `none` is the nil type that stands for a default case -/
def caseLine (E : Env T) (t : Option T) (symbolName : Text) : Text :=
  match t with
  | none => "default: { throw new Error('default case') }".toList
  | some t => "case ".toList ++ caseTest E t symbolName ++ ": { throw new Error('Not implemented yet: ".toList ++
      escapeCase (caseTest E t symbolName) ++ " case') }".toList

/-- :172-179 `getNodeIndent` -/
def indent (column : Nat) : Text := List.replicate column ' '

/-- `strings.Join` -/
def join (sep : Text) (parts : List Text) : Text := sep.intercalate parts

/-- :219-269 `applyMissingCases`; `enc` is the encoding of texts as bytes -/
def applyMissingCases (enc : Text → Bytes) (s : Stmt T) (defaultCase : Option (Clause T)) (missingCases : List Text) : List Fix :=
  let caseIndent := match s.clauses.getLast? with
    | some l => indent l.column
    | none => indent s.column
  let fixString := join ['\n'] (missingCases.map (caseIndent ++ ·))
  match s.clauses.getLast? with
  | some l => match defaultCase with
    | some d => [⟨enc (missingCases.flatMap fun code => code ++ ['\n'] ++ caseIndent), d.start, d.start⟩]
    | none => [⟨enc ('\n' :: fixString), l.stop, l.stop⟩]
  | none => [⟨enc (join ['\n'] [['{'], fixString, caseIndent ++ ['}']]), s.blockStart, s.blockStop⟩]

/-- :271-274 `fixSwitch` -/
def fixSwitch (E : Env T) (enc : Text → Bytes) (s : Stmt T) (missing : List (Option T)) (m : Metadata T) : List Fix :=
  applyMissingCases enc s m.defaultCase (missing.map fun t => caseLine E t m.symbolName)

/-! ## The reports -/

/-- What is reported. -/
inductive Report (T : Type)
  /-- `switchIsNotExhaustive` at the discriminant with the listed branches and the suggestion -/
  | notExhaustive (branches : Text) (fixes : List Fix)
  /-- `dangerousDefaultCase` at the comment -/
  | dangerousComment (c : Comment)
  /-- `dangerousDefaultCase` at the default clause -/
  | dangerousDefault (c : Clause T)

/-- :294-301 -/
def branchName (E : Env T) (t : T) : Text :=
  match E.isSymbolLike t, E.symbolName t with
  | true, some name => "typeof ".toList ++ name
  | _, _ => E.print t

/-- :285-311 `checkSwitchExhaustive` -/
def checkExhaustive (E : Env T) (enc : Text → Bytes) (o : Options) (s : Stmt T) (m : Metadata T) : List (Report T) :=
  if o.considerDefaultExhaustiveForUnions && m.hasDefaultCase then []
  else if m.missing.length > 0 then
    [.notExhaustive (join " | ".toList (m.missing.map (branchName E))) (fixSwitch E enc s (m.missing.map some) m)]
  else []

/-- :313-327 `checkSwitchUnnecessaryDefaultCase` (`hasDefaultCase` without a comment means a default clause) -/
def checkUnnecessaryDefault (o : Options) (m : Metadata T) : List (Report T) :=
  if o.allowDefaultCaseForExhaustiveSwitch then []
  else if m.missing.length == 0 && m.hasDefaultCase && !m.containsNonLiteralType then
    match m.defaultCaseComment, m.defaultCase with
    | some c, _ => [.dangerousComment c]
    | none, some d => [.dangerousDefault d]
    | none, none => []
  else []

/-- :328-341 `checkSwitchNoUnionDefaultCase` -/
def checkNoUnionDefault (E : Env T) (enc : Text → Bytes) (o : Options) (s : Stmt T) (m : Metadata T) : List (Report T) :=
  if !o.requireDefaultForNonUnion then []
  else if m.containsNonLiteralType && !m.hasDefaultCase then
    [.notExhaustive "default".toList (fixSwitch E enc s [none] m)]
  else []

/-- :343-353, the listener for switch statements -/
def check (E : Env T) (enc : Text → Bytes) (o : Options) (fuel : Nat) (s : Stmt T) : Option (List (Report T)) :=
  (metadata E fuel s).map fun m =>
    checkExhaustive E enc o s m ++ checkUnnecessaryDefault o m ++ checkNoUnionDefault E enc o s m

end Tsgolint.Switch
