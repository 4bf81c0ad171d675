import Verif.Model.RuleTree
import Verif.Model.Fixer
/-!
# Model of no-unnecessary-qualifier
(/repo/internal/rules/no_unnecessary_qualifier/no_unnecessary_qualifier.go)
-/
namespace Tsgolint.Qualifier
open Tsgolint.RuleTree Tsgolint.Fixer

/-- A symbol, as far as lines 39-55 look at it: the nodes declaring it, and the flag `SymbolFlagsAlias`. -/
structure Sym where
  declarations : List Nat
  isAlias : Bool
deriving DecidableEq, Repr

/-- The expressions before the last dot (lines 119-130). -/
inductive Expr
  | identifier
  | propertyAccess (e : Expr)
  | other
deriving DecidableEq, Repr

/-- `isEntityNameExpression`, lines 118-130. -/
def isEntityName : Expr → Bool
  | .identifier => true
  | .propertyAccess e => isEntityName e
  | .other => false

/-- A symbol in scope: its name, its flags and the symbol `GetExportSymbolOfSymbol` gives for it. -/
structure InScope where
  name : String
  flags : Nat
  exported : Nat
deriving DecidableEq, Repr

/-- A property access or a qualified name. -/
structure Access where
  /-- the node -/
  id : Nat
  /-- `none` for a qualified name; the expression of a property access -/
  expression : Option Expr
  name : String
  /-- the symbol at the qualifier followed by what `GetAliasedSymbol` gives for it, for that, and so on (simplified: the list is finite, as
  the checker's `GetAliasedSymbol` does not return aliases); empty if there is no symbol -/
  namespaceSymbol : List Sym
  /-- the symbol at the name, with its flags -/
  accessed : Option (Nat × Nat)
  /-- the scopes around the qualifier, the innermost first -/
  scopes : List (List InScope)
deriving DecidableEq, Repr

/-- What `GetSymbolsInScope` gives (typescript-go, not part of /repo): the symbols that share a flag with the ones asked for, inner scopes
first; of symbols with the same name the first is kept. -/
def symbolsInScope (scopes : List (List InScope)) (flags : Nat) : List InScope := scopes.flatten.filter fun s => s.flags &&& flags != 0

/-- `symbolIsNamespaceInScope`, lines 38-54. -/
def symbolIsNamespaceInScope (stack : List Nat) : List Sym → Bool
  | [] => false
  | s :: rest => if s.declarations.any stack.contains then true else if s.isAlias then symbolIsNamespaceInScope stack rest else false

/-- `getSymbolInScope`, lines 56-64. -/
def getSymbolInScope (scopes : List (List InScope)) (flags : Nat) (name : String) : Option InScope :=
  (symbolsInScope scopes flags).find? fun s => s.name == name

/-- `qualifierIsUnnecessary`, lines 73-86, with `symbolsAreEqual`, lines 66-71. -/
def qualifierIsUnnecessary (stack : List Nat) (a : Access) : Bool :=
  if !symbolIsNamespaceInScope stack a.namespaceSymbol then false
  else match a.accessed with
    | none => false
    | some (sym, flags) => match getSymbolInScope a.scopes flags a.name with
      | none => false
      | some s => sym == s.exported

/-- What the rule tells nodes apart by; a module block is labelled with its declaration (lines 139-148; a block whose parent is no module
declaration does not exist). -/
inductive Label
  | declaration (d : Nat)
  | access (a : Access)
  | other
deriving DecidableEq

/-- Lines 24-25. -/
structure State where
  namespacesInScope : List Nat
  failed : Option Nat
deriving DecidableEq

def init : State := ⟨[], none⟩

/-- `visitNamespaceAccess`, lines 88-109. -/
def visitNamespaceAccess (s : State) (a : Access) : State × List Nat :=
  if s.failed.isSome then (s, [])
  else if s.namespacesInScope.isEmpty then (s, [])
  else if !qualifierIsUnnecessary s.namespacesInScope a then (s, [])
  else ({ s with failed := some a.id }, [a.id])

/-- The listeners, lines 132-168. -/
def step (s : State) : Event Label → State × List Nat
  | .enter (.declaration d) => ({ s with namespacesInScope := d :: s.namespacesInScope }, [])
  | .exit (.declaration _) => ({ s with namespacesInScope := s.namespacesInScope.drop 1 }, [])
  | .enter (.access a) =>
    match a.expression with
    | some e => if isEntityName e then visitNamespaceAccess s a else (s, [])
    | none => visitNamespaceAccess s a
  | .exit (.access a) => (if s.failed = some a.id then { s with failed := none } else s, [])
  | .enter .other => (s, [])
  | .exit .other => (s, [])

/-- The reports for a file. -/
def reports (file : List (Tree Label)) : List Nat := (run step init (eventss file)).2

/-- The fix, lines 104-108. -/
def fix (qualifierStart nameStart : Nat) : Fix := ⟨[], qualifierStart, nameStart⟩

end Tsgolint.Qualifier
