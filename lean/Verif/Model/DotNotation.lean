import Verif.Model.Fixer
/-!
# Model of dot-notation (/repo/internal/rules/dot_notation/dot_notation.go)

Names are byte sequences (Go strings).  Symbols, types, the allowed pattern and positions are given by the compiler or the regular
expression library.
-/
namespace Tsgolint.DotNotation
open Fixer (Fix Bytes ascii)

/-- `es3Keywords`, lines 17-25. -/
def es3Keywords : List String := [
  "abstract", "boolean", "break", "byte", "case", "catch", "char", "class", "const", "continue", "debugger",
  "default", "delete", "do", "double", "else", "enum", "export", "extends", "false", "final", "finally",
  "float", "for", "function", "goto", "if", "implements", "import", "in", "instanceof", "int", "interface",
  "long", "native", "new", "null", "package", "private", "protected", "public", "return", "short", "static",
  "super", "switch", "synchronized", "this", "throw", "throws", "transient", "true", "try", "typeof", "var",
  "void", "volatile", "while", "with"]

/-- `isKeyword`, lines 41-44. -/
def isKeyword (name : Bytes) : Bool := (es3Keywords.map ascii).contains name

def letter (b : UInt8) : Bool := (b ≥ 97 && b ≤ 122) || (b ≥ 65 && b ≤ 90) || b == 95 || b == 36

/-- The loop of `isDotNotationIdentifier`, lines 57-63. -/
def restLoop : Bytes → Bool
  | [] => true
  | ch :: rest =>
    if (ch ≥ 97 && ch ≤ 122) || (ch ≥ 65 && ch ≤ 90) || (ch ≥ 48 && ch ≤ 57) || ch == 95 || ch == 36 then restLoop rest else false

/-- `isDotNotationIdentifier`, lines 47-66. -/
def isDotNotationIdentifier (name : Bytes) : Bool := match name with
  | [] => false
  | first :: rest => if !letter first then false else restLoop rest

/-- Expressions in brackets, as far as the rule distinguishes them. -/
inductive Property
  | str (text : Bytes)
  | tru
  | fls
  | null
  | template (text : Bytes)
  | other
deriving DecidableEq, Repr

/-- `getComputedPropertyValue`, lines 68-85 (without the text for the message). -/
def value : Property → Option Bytes
  | .str t => some t
  | .tru => some (ascii "true")
  | .fls => some (ascii "false")
  | .null => some (ascii "null")
  | .template t => some t
  | .other => none

/-- `isDecimalInteger`, lines 98-123, of the text of a numeric literal. -/
def isDecimalInteger (text : Bytes) : Bool :=
  if text = [] then false
  else if text.any (fun b => (ascii ".eExXoObBnN").contains b) then false
  else (List.range text.length).all fun i => match text[i]? with
    | some ch => (ch ≥ 48 && ch ≤ 57) || (ch == 95 && decide (i > 0) && decide (i < text.length - 1))
    | none => true

/-- A declaration: what kind of accessor, and its modifiers. -/
structure Decl where
  getter : Bool
  setter : Bool
  isPrivate : Bool
  isProtected : Bool
  indexSignature : Bool
deriving DecidableEq, Repr

/-- The loop of `getRelevantDeclaration`, lines 142-148. -/
def accessors : Option Decl → Option Decl → List Decl → Option Decl × Option Decl
  | g, s, [] => (g, s)
  | g, s, d :: rest =>
    if g.isNone && d.getter then accessors (some d) s rest
    else if s.isNone && d.setter then accessors g (some d) rest
    else accessors g s rest

/-- `getRelevantDeclaration`, lines 137-171; `write`: `ast.IsWriteAccess`. -/
def getRelevantDeclaration (decls : List Decl) (write : Bool) : Option Decl :=
  match decls with
  | [] => none
  | first :: _ =>
    let (getter, setter) := accessors none none decls
    if getter.isNone && setter.isNone then some first
    else if write then if setter.isSome then setter else getter
    else if getter.isSome then getter else setter

/-- Options, lines 175-189; `fromIndexSignature`: the compiler option noPropertyAccessFromIndexSignature; `pattern`: allowPattern. -/
structure Options where
  allowKeywords : Bool
  allowPrivate : Bool
  allowProtected : Bool
  allowIndexSignature : Bool
  fromIndexSignature : Bool
  pattern : Option (Bytes → Bool)

/-- What the compiler knows about an access: the declarations of the property (empty if there is no symbol), whether it is written
to, and whether the (apparent, non-null) object type has an index signature for the key. -/
structure Access where
  decls : List Decl
  write : Bool
  indexType : Bool

/-- `shouldSkipForTypeAwareAllowances`, lines 276-329. -/
def skip (o : Options) (a : Access) : Bool :=
  let allowIndex := o.allowIndexSignature || o.fromIndexSignature
  if !o.allowPrivate && !o.allowProtected && !allowIndex then false
  else
    let d := getRelevantDeclaration a.decls a.write
    if d.any (fun d => (o.allowPrivate && d.isPrivate) || (o.allowProtected && d.isProtected) || (allowIndex && d.indexSignature)) then true
    else if a.decls.isEmpty && allowIndex then
      if o.fromIndexSignature then true else a.indexType
    else false

/-- The listener for `obj[property]`, lines 192-215 and 331-337: the name to be used with a dot. -/
def computed (o : Options) (a : Access) (p : Property) : Option Bytes :=
  if skip o a then none
  else match value p with
    | none => none
    | some v =>
      if !isDotNotationIdentifier v then none
      else if !o.allowKeywords && isKeyword v then none
      else if o.pattern.any (fun m => m v) then none
      else some v

/-- The listener for `obj.name`, lines 248-264; `identifier`: the name is not a private one. -/
def dotted (o : Options) (identifier : Bool) (name : Bytes) : Option Bytes :=
  if o.allowKeywords then none
  else if !identifier then none
  else if !isKeyword name then none
  else some name

/-- The edits for `obj[property]`, lines 218-244.  `left`: the opening bracket; `question`: the end of the `?.` token; `right`: the
end of the closing bracket, which is the end of the node; `number`: the object is a decimal integer; `space`: see
`needsSpaceAfterIdentifier`. -/
def fixComputed (question : Option Nat) (number space : Bool) (left right : Nat) (name : Bytes) : List Fix :=
  (match question with
    | none => [⟨if number then ascii " ." else ascii ".", left, left⟩, ⟨name, left, right⟩]
    | some q => [⟨name, q, right⟩])
    ++ (if space then [⟨ascii " ", right, right⟩] else [])

/-- `needsSpaceAfterIdentifier`, lines 125-133; `next`: the first character after the node (`none`: white space, a comment or the end
of the file); `part`: `scanner.IsIdentifierPart`. -/
def needsSpace (part : Char → Bool) (next : Option Char) : Bool := match next with
  | none => false
  | some c => part c

/-- The edits for `obj.name`, lines 264-280: `none` for `let.name`, where the fix is withheld. -/
def fixDotted (question isLet : Bool) (dot dotEnd name nameEnd : Nat) (text : Bytes) : List Fix :=
  if !question && isLet then []
  else (if question then [] else [⟨[], dot, dotEnd⟩]) ++ [⟨ascii "[\"" ++ text ++ ascii "\"]", name, nameEnd⟩]

end Tsgolint.DotNotation
