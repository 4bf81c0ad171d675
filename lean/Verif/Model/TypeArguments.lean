import Verif.Model.Sorter
import Verif.Model.Fixer
/-!
# Model of no-unnecessary-type-arguments
(/repo/internal/rules/no_unnecessary_type_arguments/no_unnecessary_type_arguments.go)
-/
namespace Tsgolint.TypeArguments
open Tsgolint.Fixer
variable {T : Type} [DecidableEq T]

/-- A type parameter: its symbol, and the type of its default, if it has one. -/
structure Param (T : Type) where
  symbol : Nat
  default : Option T

/-- The declarations of a symbol, as far as lines 87-102 tell them apart. -/
inductive Decl (T : Type)
  /-- type aliases and interfaces -/
  | typeContext (params : List (Param T))
  /-- classes -/
  | classLike (params : List (Param T))
  /-- variables: the type parameters of the declaration of the first construct signature, if there is one -/
  | variable_ (params : Option (List (Param T)))
  | other

/-- `isTypeContextDeclaration`, lines 21-23. -/
def isTypeContext : Decl T → Bool
  | .typeContext _ => true
  | _ => false

/-- The comparison of lines 70-85. -/
def compare (inTypeContext : Bool) (a b : Decl T) : Int :=
  let (a, b) := if !inTypeContext then (b, a) else (a, b)
  (if isTypeContext a then -1 else 0) + (if isTypeContext b then 1 else 0)

/-- The loop of lines 87-105. -/
def firstParams : List (Decl T) → Option (List (Param T))
  | [] => none
  | .typeContext ps :: _ => some ps
  | .classLike ps :: _ => some ps
  | .variable_ (some ps) :: _ => some ps
  | .variable_ none :: ds => firstParams ds
  | .other :: ds => firstParams ds

/-- `getTypeParametersFromType`, lines 50-106, once the symbol (not an alias) is found. -/
def paramsFromType (inTypeContext : Bool) (S : Sorter (compare (T := T) inTypeContext)) (decls : List (Decl T)) : Option (List (Param T)) :=
  firstParams (S.sort decls)

/-- What the comparison of types asks: the target and type arguments of a reference (lines 34-45). -/
structure Env (T : Type) where
  reference : T → Option (T × List T)

/-- `getTypeForComparison`, lines 34-45. -/
def comparison (E : Env T) (t : T) : T × List T :=
  match E.reference t with
  | some r => r
  | none => (t, [])

/-- The loop of lines 212-217. -/
def sameArguments : List T → List T → Bool
  | [], _ => true
  | _ :: _, [] => false
  | a :: as, b :: bs => if a ≠ b then false else sameArguments as bs

/-- Lines 200-218. -/
def typesMatch (E : Env T) (d a : T) : Bool :=
  if d = a then true
  else
    let x := comparison E d
    let y := comparison E a
    if decide (x.1 = y.1) && decide (x.2.length = y.2.length) then sameArguments x.2 y.2 else false

/-- A place with type arguments. -/
structure Use (T : Type) where
  isNew : Bool
  arguments : List T
  /-- for `new` with arguments: for each parameter type of the resolved signature, the symbols it mentions; empty if there is nothing to look at -/
  mentioned : List (List Nat)
  /-- the number of value arguments -/
  valueArguments : Nat

/-- `constructorArgumentsCanInferTypeParameters`, lines 146-181. -/
def canInfer (u : Use T) (params : List (Param T)) : Bool :=
  if !u.isNew || u.valueArguments == 0 then false
  else if params.isEmpty then false
  else u.mentioned.any fun ss => ss.any fun s => (params.map (·.symbol)).contains s

/-- `checkArgsAndParameters`, lines 183-227: whether the last argument is reported. -/
def reported (E : Env T) (u : Use T) (params : List (Param T)) : Bool :=
  if u.arguments.isEmpty || params.isEmpty then false
  else
    let last := u.arguments.length - 1
    if last ≥ params.length then false
    else
      match u.arguments[last]?, params[last]? with
      | some a, some p =>
        match p.default with
        | none => false
        | some d =>
          if !typesMatch E d a then false
          else if last == 0 && canInfer u params then false
          else true
      | _, _ => false

/-- The fix, lines 229-237: the whole list with its brackets if there is one argument, otherwise from the end of the one before. -/
def fix (count listPos closeEnd prevEnd argEnd : Nat) : Fix :=
  if count = 1 then ⟨[], (listPos : Int) - 1, closeEnd⟩ else ⟨[], prevEnd, argEnd⟩

/-- What stands above a name with type arguments, as far as line 26 tells.  `ownerInterface`: the heritage clause belongs to an interface. -/
inductive Parent
  | typeReference
  | interface_
  | heritage (implements ownerInterface : Bool)
  | other
deriving DecidableEq

/-- The places where the rule looks (the listeners, lines 266-291). -/
inductive Place
  | heritage
  | typeReference
  | call
  | newCall
  | tag
  | jsx
  | jsxSelf
deriving DecidableEq

/-- `isInTypeContext`, lines 25-27. -/
def inTypeContext (place : Place) (parent : Parent) : Bool :=
  decide (place = .typeReference) || decide (parent = .interface_) || decide (parent = .typeReference) ||
    (match parent with
      | .heritage implements _ => implements
      | _ => false)

/-- The symbol of a name, with its declarations if it has any; of an alias, what it stands for, if that is found. -/
inductive Name (T : Type)
  | unknown
  | plain (decls : List (Decl T))
  | alias_ (target : Option (List (Decl T)))

/-- Lines 51-66: the declarations to look at. -/
def Name.decls : Name T → Option (List (Decl T))
  | .unknown => none
  | .plain ds => some ds
  | .alias_ t => t

/-- `getTypeParametersFromType`, lines 50-106. -/
def paramsFromName (S : (b : Bool) → Sorter (compare (T := T) b)) (place : Place) (parent : Parent) (name : Name T) : Option (List (Param T)) :=
  match name.decls with
  | none => none
  | some ds => paramsFromType (inTypeContext place parent) (S (inTypeContext place parent)) ds

/-- `getTypeParametersFromCall`, lines 108-121; `signature` are the type parameters of the declaration of the resolved signature, if there is one. -/
def paramsFromCall (S : (b : Bool) → Sorter (compare (T := T) b)) (place : Place) (parent : Parent) (signature : Option (List (Param T))) (name : Name T) :
    Option (List (Param T)) :=
  match signature with
  | some (p :: ps) => some (p :: ps)
  | _ => if place = .newCall then paramsFromName S place parent name else none

/-- Lines 251-291: a place with type arguments. -/
def look (E : Env T) (S : (b : Bool) → Sorter (compare (T := T) b)) (place : Place) (parent : Parent) (signature : Option (List (Param T))) (name : Name T)
    (u : Use T) : Bool :=
  if u.arguments.isEmpty then false
  else match place with
    | .heritage => reported E u ((paramsFromName S place parent name).getD [])
    | .typeReference => reported E u ((paramsFromName S place parent name).getD [])
    | _ => reported E u ((paramsFromCall S place parent signature name).getD [])

end Tsgolint.TypeArguments
