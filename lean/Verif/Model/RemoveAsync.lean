import Verif.Model.RequireAwait

/-!
# require-await: where the suggestion to remove `async` looks

Models what `buildRemoveAsyncFixes` reads of the syntax tree (`internal/rules/require_await/require_await.go` lines 33-50, 60-105, 109-124, 131-202); the edits made
from it are in `Model/RequireAwait.lean`.

Simplifications: a node among its siblings is known by its position in the list; the scanner's answers (the token after `async`, ends of trivia) are parameters.
-/

namespace Tsgolint.RemoveAsync

open RequireAwait
open Tsgolint.Fixer (Fix Bytes)

/-- kinds of class members, members of object literals and functions -/
inductive Kind | method | getter | setter | constructor | property | function | arrow | other
  deriving DecidableEq, Repr

/-- `isMethodLike` (require_await.go 33-35); `ast.IsMethodOrAccessor`: methods and accessors -/
def isMethodLike : Kind → Bool
  | .method | .getter | .setter | .constructor => true
  | _ => false

/-- `previousSiblingIsMethodLike` (require_await.go 40-50): the loop over the members, `node` being the number of the node -/
def previousIsMethodLike (members : List Kind) (node : Nat) : Bool :=
  let rec go (i : Nat) (previous : Option Kind) : List Kind → Bool
    | [] => false
    | m :: ms => if i = node then (previous.map isMethodLike).getD false else go (i + 1) (some m) ms
  go 0 none members

/-- the parent, with its members (`nil` if there is no list) and the number of the node among them (require_await.go 91-101) -/
inductive Parent
  | classLike (members : Option (List Kind)) (node : Nat)
  | objectLiteral (members : Option (List Kind)) (node : Nat)
  | other
  | none
  deriving DecidableEq, Repr

/-- require_await.go 90-101 -/
def afterMember : Parent → Bool
  | .classLike (some ms) i | .objectLiteral (some ms) i => previousIsMethodLike ms i
  | _ => false

/-- an ancestor: where it begins (with its trivia) and whether it is an expression statement -/
structure Ancestor where
  pos : Nat
  isStatement : Bool
  deriving DecidableEq, Repr

/-- `isAtStartOfExpressionStatement` (require_await.go 194-202); the ancestors from the parent upwards -/
def atStart (start : Nat) : List Ancestor → Bool
  | [] => false
  | a :: as => if a.pos = start then (if a.isStatement then true else atStart start as) else false

/-- the token after `async` (require_await.go 146-150) -/
inductive Next | openParen | openBracket | template | templateHead | other
  deriving DecidableEq, Repr

/-- require_await.go 147-150 -/
def Next.joins : Next → Bool
  | .openParen | .openBracket | .template | .templateHead => true
  | .other => false

/-- the name of a type reference -/
inductive TypeName
  | ident (name : String)
  | qualified (left : Option String) (right : String)
  | other
  deriving DecidableEq, Repr

/-- `isTypeReferenceNamed` (require_await.go 109-124); `left` is `none` if it is itself a qualified name -/
def named (name : String) : TypeName → Bool
  | .ident n => n == name
  | .qualified left right => right == name && left == some "globalThis"
  | .other => false

/-- the annotated return type: its name, where that is, and the range between the angle brackets if there is an argument (require_await.go 163-190) -/
structure Annotation where
  name : TypeName
  nameStart : Int
  nameEnd : Int
  args : Option (Int × Int)

/-- require_await.go 172-187: which edit the type gets -/
def returnType : Option Annotation → ReturnType
  | none => .other
  | some t =>
    if named "AsyncGenerator" t.name then .asyncGenerator t.nameStart t.nameEnd
    else if named "Promise" t.name then
      match t.args with
      | some (p, e) => .promise t.nameStart p e
      | none => .other
    else .other

/-- the function: the text before it, its modifiers and decorators up to `async`, `async` with the white space after it, and its surroundings -/
structure Place where
  before : Bytes
  modifiers : Bytes
  asyncText : Bytes
  next : Next
  kind : Kind
  /-- where the node begins, with its trivia -/
  start : Nat
  ancestors : List Ancestor
  parent : Parent
  annotation : Option Annotation

/-- require_await.go 135-169 -/
def Place.site (p : Place) : AsyncSite where
  asyncStart := (p.before ++ p.modifiers).length
  removeEnd := (p.before ++ p.modifiers ++ p.asyncText).length
  hazard := p.next.joins
  startsStatementOrMember := atStart p.start p.ancestors || isMethodLike p.kind
  before := p.before
  afterMember := afterMember p.parent
  returnType := returnType p.annotation

/-- `buildRemoveAsyncFixes` (require_await.go 130-190) -/
def fixes (p : Place) (isGenerator : Bool) : List Fix := removeAsyncFixes p.site isGenerator

end Tsgolint.RemoveAsync
