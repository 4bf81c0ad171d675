import Verif.Model.Specifier
/-! # What specifiers mean -/
namespace Tsgolint.Specifier
open Tsgolint.Payload

/-- The JSON forms of a specifier. -/
inductive Denotes : Json → Spec → Prop
  /-- a bare string: any declaration with that name -/
  | string (s : String) : Denotes (.str s) ⟨.name, [s], "", ""⟩
  /-- `null` is taken for the empty string -/
  | null : Denotes .null ⟨.name, [""], "", ""⟩
  /-- an object; other members are ignored -/
  | object (m : List (String × Json)) (frm : From) (names : List String) (path package : String)
      (hfrom : (get "from" m = .null ∨ get "from" m = .str "" ∨ get "from" m = .str "file") ∧ frm = .file ∨
        get "from" m = .str "lib" ∧ frm = .lib ∨ get "from" m = .str "package" ∧ frm = .package)
      (hname : get "name" m = .null ∧ names = [] ∨ (∃ s, get "name" m = .str s ∧ names = [s]) ∨ get "name" m = .arr (names.map .str))
      (hpath : get "path" m = .null ∧ path = "" ∨ get "path" m = .str path)
      (hpackage : get "package" m = .null ∧ package = "" ∨ get "package" m = .str package) :
      Denotes (.obj m) ⟨frm, names, path, package⟩

/-- The segments of a path: it is the segments joined by slashes. -/
def IsSegments (path : Str) (segs : List Str) : Prop :=
  segs ≠ [] ∧ (∀ s ∈ segs, '/' ∉ s) ∧ path = List.intercalate ['/'] segs

/-- `name` is the package a path names at one of its `node_modules` segments: the segment after it, or the two segments after it if the
first begins with `@`.  `pre` are the segments before that `node_modules`. -/
inductive PackageAt (segs : List Str) (pre : List Str) : Str → Prop
  | unscoped (n : Str) (rest : List Str) : segs = pre ++ nodeModules :: n :: rest → n ≠ [] → n ≠ ['.'] → n ≠ ['.', '.'] →
      ¬ ['@'] <+: n → PackageAt segs pre n
  | inScope (s n : Str) (rest : List Str) : segs = pre ++ nodeModules :: s :: n :: rest → ['@'] <+: s → n ≠ [] →
      PackageAt segs pre (s ++ '/' :: n)

/-- The innermost module declaration around a node that is not a `namespace`, when it is an ambient module with a string name. -/
inductive InDeclareModule : List Up → Str → Prop
  | here (n : Str) (r : List Up) : InDeclareModule (.module false true n :: r) n
  | inNamespace (b : Bool) (m n : Str) (r : List Up) : InDeclareModule r n → InDeclareModule (.module true b m :: r) n
  | inNode (n : Str) (r : List Up) : InDeclareModule r n → InDeclareModule (.other :: r) n

/-- The package a file belongs to.  Only files below a `node_modules` directory belong to one; the nearest `package.json` decides, and if
none says, the innermost `node_modules` segment of the path that is followed by a package name. -/
def FilePackage (f : File) (id : Str) : Prop :=
  ∃ segs, IsSegments f.fileName segs ∧ nodeModules ∈ segs ∧
    (f.packageJson = some id ∨
      f.packageJson = none ∧ ∃ pre, PackageAt segs pre id ∧ ∀ pre' id', PackageAt segs pre' id' → pre'.length ≤ pre.length)

/-- A file belongs to (the published types of) package `p`: to `p`, to `@types/p`, or, for a scoped package `@s/n`, to the mangled `s__n` or
`@types/s__n`; and the program treats it as external. -/
def InPackage (p : Str) (f : File) : Prop :=
  ∃ id, FilePackage f id ∧ id ≠ [] ∧ f.isExternal = true ∧
    (id = p ∨ id = typesScope ++ p ∨
      ∃ s n, s ≠ [] ∧ n ≠ [] ∧ '/' ∉ s ∧ p = '@' :: s ++ '/' :: n ∧
        (id = s ++ ['_', '_'] ++ n ∨ id = typesScope ++ (s ++ ['_', '_'] ++ n)))

/-- Where a specifier wants the declarations to be. -/
def SourceOk (host : Host) (s : MSpec) (decls : List Decl) : Prop :=
  match s.frm with
  | .name => True
  | .file => ∃ d ∈ decls, if s.path = [] then host.cwd <+: d.file.fileName else d.file.fileName = host.absolute s.path
  | .lib => decls = [] ∨ ∃ d ∈ decls, d.file.isDefaultLib = true
  | .package => (∃ d ∈ decls, InDeclareModule d.up s.package) ∨ (s.package ≠ [] ∧ ∃ d ∈ decls, InPackage s.package d.file)

/-- The name of a type: that of its alias if it has one, else that of its symbol; for intrinsic types also the intrinsic name. -/
def HasName (t : Ty) (n : Str) : Prop :=
  (∃ a, t.alias = some a ∧ a.name = n) ∨ (t.alias = none ∧ ∃ x, t.symbol = some x ∧ x.name = n) ∨ t.intrinsic = some n

/-- The declarations of a type: those of its symbol, or of its alias if it has none. -/
def declsOf (t : Ty) : List Decl :=
  match t.symbol, t.alias with
  | some x, _ => x.declarations
  | none, some a => a.declarations
  | none, none => []

/-- A type meets a specifier. -/
def Meets (host : Host) (t : Ty) (s : MSpec) : Prop := (∃ n ∈ s.name, HasName t n) ∧ SourceOk host s (declsOf t)

end Tsgolint.Specifier
