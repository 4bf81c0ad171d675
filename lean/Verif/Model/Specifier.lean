import Verif.Model.Payload
/-!
# Model of type-or-value specifiers (/repo/internal/utils/type_matches_specifier.go)

The JSON library is the same external model as for the payload (`Verif.Model.Payload`).  Types, symbols and declarations of
typescript-go are records holding just what the code reads from them.  File names and package names are lists of characters.
Not modelled: `ConvertTypeOrValueSpecifier` (446-513), which nothing calls; the two `panic`s on an impossible `From` value.
-/
namespace Tsgolint.Specifier
open Tsgolint.Payload

/-- type_matches_specifier.go:18-23. -/
inductive From
  | file | lib | package | name
deriving DecidableEq, Repr

/-- type_matches_specifier.go:25-32 `TypeOrValueSpecifier`. -/
structure Spec where
  frm : From
  name : List String
  path : String
  package : String
deriving DecidableEq, Repr

/-- type_matches_specifier.go:75-86: an element of the name array must be a string. -/
def onlyStrings : List Json → Option (List String)
  | [] => some []
  | .str s :: l => (onlyStrings l).map (s :: ·)
  | _ :: _ => none

/-- type_matches_specifier.go:69-91: the "name" field (`any`). -/
def parseName : Json → Option (List String)
  | .null => some []
  | .str s => some [s]
  | .arr l => onlyStrings l
  | _ => none

/-- Storing into a `*string` field: `null` (or absence) leaves nil. -/
def unStringPtr : Json → Option (Option String)
  | .null => some none
  | .str s => some (some s)
  | _ => none

/-- type_matches_specifier.go:55-66: the "from" field. -/
def parseFrom (s : String) : Option From :=
  if s = "" ∨ s = "file" then some .file
  else if s = "lib" then some .lib
  else if s = "package" then some .package
  else none

/-- type_matches_specifier.go:36-106 `UnmarshalJSON`; `none` is an error. -/
def unmarshal (j : Json) : Option Spec :=
  match unString j with
  | some s => some ⟨.name, [s], "", ""⟩
  | none =>
    match j with
    | .obj m =>
      -- 46-53: all four fields are decoded first
      match unString (get "from" m), unStringPtr (get "path" m), unStringPtr (get "package" m) with
      | some f, some path, some package =>
        match parseFrom f with
        | none => none
        | some frm =>
          match parseName (get "name" m) with
          | none => none
          | some names => some ⟨frm, names, path.getD "", package.getD ""⟩
      | _, _, _ => none
    | _ => none

/-- type_matches_specifier.go:110-145 `MarshalJSON`; `none` is an error. -/
def marshal (s : Spec) : Option Json :=
  match s.frm with
  | .name => match s.name with
    | [n] => some (.str n)
    | _ => none
  | f =>
    let fromStr := match f with
      | .file => "file"
      | .lib => "lib"
      | _ => "package"
    some (.obj ([("from", .str fromStr), ("name", .arr (s.name.map .str))] ++
      (if s.path ≠ "" then [("path", Json.str s.path)] else []) ++
      (if s.package ≠ "" then [("package", Json.str s.package)] else [])))

/-! ## Matching -/

abbrev Str := List Char

/-- A source file as far as the code looks at it. -/
structure File where
  /-- `FileName()`, with forward slashes (`NormalizeSlashes` is the identity on it) -/
  fileName : Str
  /-- `IsSourceFileDefaultLibrary(program, ·)` (builtin_symbol_likes.go:18-51) -/
  isDefaultLib : Bool
  /-- `program.IsSourceFileFromExternalLibrary(·)` -/
  isExternal : Bool
  /-- what `findPackageNameFromNearestPackageJSON` finds (see `nearestPackageJson`) -/
  packageJson : Option Str

/-- A node on the way from a declaration up to its source file, as far as `findParentModuleDeclaration` looks at it. -/
inductive Up
  /-- a module declaration: is the keyword `namespace`, is the name a string literal, the name -/
  | module (isNamespace : Bool) (isString : Bool) (name : Str)
  | other
deriving DecidableEq

/-- A declaration: the nodes from it up to (not including) the source file, and the source file. -/
structure Decl where
  up : List Up
  file : File

structure Sym where
  name : Str
  declarations : List Decl

/-- A type as far as the code looks at it. -/
structure Ty where
  /-- `Type_alias(t).Symbol()` -/
  alias : Option Sym
  /-- `Type_symbol(t)` -/
  symbol : Option Sym
  /-- the intrinsic name if `IsIntrinsicType(t)` -/
  intrinsic : Option Str

/-- A specifier with names as character lists. -/
structure MSpec where
  frm : From
  name : List Str
  path : Str
  package : Str

/-- type_matches_specifier.go:147-169 `typeMatchesStringSpecifier`. -/
def typeMatchesString (t : Ty) (names : List Str) : Bool :=
  let symbol := match t.alias with
    | none => t.symbol
    | some a => some a
  let bySymbol := match symbol with
    | some s => names.contains s.name
    | none => false
  if bySymbol then true
  else match t.intrinsic with
    | some n => names.contains n
    | none => false

/-- The directory of the program and the path functions of typescript-go that are used. -/
structure Host where
  cwd : Str
  /-- `tspath.GetNormalizedAbsolutePath(·, cwd)` -/
  absolute : Str → Str

/-- type_matches_specifier.go:171-186 `typeDeclaredInFile`. -/
def declaredInFile (host : Host) (relativePath : Str) (files : List File) : Bool :=
  if relativePath = [] then files.any fun f => host.cwd.isPrefixOf f.fileName
  else files.any fun f => decide (f.fileName = host.absolute relativePath)

/-- type_matches_specifier.go:188-202 `typeDeclaredInLib`. -/
def declaredInLib (files : List File) : Bool :=
  if files.length = 0 then true else files.any (·.isDefaultLib)

/-- type_matches_specifier.go:204-223 `findParentModuleDeclaration`: its name. -/
def parentModule : List Up → Option Str
  | [] => none
  | .module true _ _ :: r => parentModule r
  | .module false true n :: _ => some n
  | .module false false _ :: _ => none
  | .other :: r => parentModule r

/-- type_matches_specifier.go:225-234 `typeDeclaredInDeclareModule`. -/
def declaredInDeclareModule (packageName : Str) (decls : List Decl) : Bool :=
  decls.any fun d => match parentModule d.up with
    | some n => decide (n = packageName)
    | none => false

/-- `strings.Split(s, "/")`. -/
def splitSlash : Str → List Str
  | [] => [[]]
  | c :: s => match splitSlash s with
    | [] => [[]]
    | w :: ws => if c = '/' then [] :: w :: ws else (c :: w) :: ws

/-- `strings.Contains(s, sub)`. -/
def containsStr (s sub : Str) : Bool :=
  match s with
  | [] => sub.isPrefixOf []
  | c :: r => sub.isPrefixOf (c :: r) || containsStr r sub

def nodeModules : Str := ['n', 'o', 'd', 'e', '_', 'm', 'o', 'd', 'u', 'l', 'e', 's']

/-- type_matches_specifier.go:322-325 `containsNodeModulesSegment`. -/
def containsNodeModules (path : Str) : Bool :=
  containsStr ('/' :: path ++ ['/']) ('/' :: nodeModules ++ ['/'])

/-- type_matches_specifier.go:292-319, the loop; `i` counts down, `i + 1` is tried first. -/
def pkgLoop (segments : List Str) : Nat → Option Str
  | 0 => none
  | i + 1 =>
    -- here Go's `i` is this `i`
    if segments[i]? ≠ some nodeModules then pkgLoop segments i
    else match segments[i + 1]? with
      | none => pkgLoop segments i
      | some name =>
        if name = [] ∨ name = ['.'] ∨ name = ['.', '.'] then pkgLoop segments i
        else if ['@'].isPrefixOf name then
          match segments[i + 2]? with
          | some second => if second ≠ [] then some (name ++ '/' :: second) else pkgLoop segments i
          | none => pkgLoop segments i
        else some name

/-- type_matches_specifier.go:290-320 `findPackageNameFromNodeModulesPath`. -/
def packageFromPath (fileName : Str) : Option Str :=
  let segments := splitSlash fileName
  pkgLoop segments segments.length

/-- type_matches_specifier.go:262-288 `findPackageNameFromNearestPackageJSON`: `dirs` are the directories from that of the file up to the
root; `nameIn dir` is the non-empty "name" of a readable `package.json` there. -/
def nearestPackageJson (nameIn : Str → Option Str) : List Str → Option Str
  | [] => none
  | d :: dirs =>
    if d = [] ∨ containsNodeModules d = false then none
    else match nameIn d with
      | some n => some n
      | none => nearestPackageJson nameIn dirs

/-- type_matches_specifier.go:236-260 `getSourceFilePackageName` and `findSourceFilePackageName`. -/
def packageOf (f : File) : Option Str :=
  if containsNodeModules f.fileName = false then none
  else match f.packageJson with
    | some n => some n
    | none => packageFromPath f.fileName

/-- type_matches_specifier.go:354-365 `getTypesPackageName`. -/
def typesPackageName (p : Str) : Str :=
  match p with
  | '@' :: r =>
    -- slashIndex = (index in r) + 1
    match r.findIdx? (· = '/') with
    | none => p
    | some i => if i + 1 ≤ 1 ∨ i + 2 ≥ p.length then p else r.take i ++ ['_', '_'] ++ r.drop (i + 1)
  | _ => p

def typesScope : Str := ['@', 't', 'y', 'p', 'e', 's', '/']

/-- type_matches_specifier.go:327-352 `typeDeclaredInDeclarationFile`. -/
def declaredInDeclarationFile (packageName : Str) (files : List File) : Bool :=
  if packageName = [] then false
  else
    let tn := typesPackageName packageName
    files.any fun f => match packageOf f with
      | none => false
      | some id =>
        if id = [] then false
        else (decide (id = packageName) || decide (id = tn) || decide (id = typesScope ++ packageName) || decide (id = typesScope ++ tn)) &&
          f.isExternal

/-- type_matches_specifier.go:367-375 `typeDeclaredInPackageDeclarationFile`. -/
def declaredInPackage (packageName : Str) (decls : List Decl) (files : List File) : Bool :=
  declaredInDeclareModule packageName decls || declaredInDeclarationFile packageName files

/-- type_matches_specifier.go:398-409 and 430-441: the switch on `From`. -/
def sourceMatches (host : Host) (s : MSpec) (decls : List Decl) : Bool :=
  let files := decls.map (·.file)
  match s.frm with
  | .name => true
  | .file => declaredInFile host s.path files
  | .lib => declaredInLib files
  | .package => declaredInPackage s.package decls files

/-- type_matches_specifier.go:377-409 `typeMatchesSpecifier`. -/
def typeMatches (host : Host) (t : Ty) (s : MSpec) : Bool :=
  if typeMatchesString t s.name = false then false
  else
    let symbol := match t.symbol with
      | some x => some x
      | none => t.alias
    let decls := match symbol with
      | some x => x.declarations
      | none => []
    sourceMatches host s decls

/-- type_matches_specifier.go:418-443 `SymbolMatchesSpecifierNameAndSource`. -/
def symbolMatches (host : Host) (symbol : Option Sym) (name : Str) (s : MSpec) : Bool :=
  match symbol with
  | none => false
  | some x => if s.name.contains name = false then false else sourceMatches host s x.declarations

def errorName : Str := ['e', 'r', 'r', 'o', 'r']

/-- type_matches_specifier.go:515-543 `TypeMatchesSomeSpecifier`; `parts` are the types of an intersection other than `t` itself
(none for any other type). -/
def typeMatchesSome (host : Host) (t : Ty) (parts : List Ty) (specs : List MSpec) : Bool :=
  let matches' := fun t : Ty =>
    if t.intrinsic = some errorName then false
    else specs.any fun s => typeMatches host t s
  if matches' t then true else parts.any matches'

/-- type_matches_specifier.go:558-612 `valueMatchesSpecifier`: `nodeName` is `getStaticName(node)` (`[]` if it has none), `hasFile` whether
the node has a source file, `symbol` the symbol of the type. -/
def valueMatches (nodeName : Str) (hasFile : Bool) (symbol : Option Sym) (s : MSpec) : Bool :=
  if nodeName = [] then false
  else if s.name.contains nodeName = false then false
  else if hasFile = false then false
  else match s.frm with
    | .package => match symbol with
      | some x => declaredInPackage s.package x.declarations (x.declarations.map (·.file))
      | none => false
    | _ => true

/-- type_matches_specifier.go:614-626 `ValueMatchesSomeSpecifier`. -/
def valueMatchesSome (nodeName : Str) (hasFile : Bool) (symbol : Option Sym) (specs : List MSpec) : Bool :=
  specs.any fun s => valueMatches nodeName hasFile symbol s

end Tsgolint.Specifier
