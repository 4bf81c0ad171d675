import Verif.Model.Condition
/-!
# Model of no-unnecessary-condition, second part: optional chains and calls of type guards
(/repo/internal/rules/no_unnecessary_condition/no_unnecessary_condition.go)
-/
namespace Tsgolint.Condition

/-- The argument of `a[k]` -/
structure Key where
  id : Nat
  /-- a numeric literal, in parentheses or not (lines 1009-1011) -/
  numeric : Bool

/-- An expression; `site` tells apart nodes that look the same.  `root`: none of the others. -/
inductive Node
  | root (n : Nat)
  | paren (e : Node)
  /-- the name is empty if it has no text -/
  | property (site : Nat) (e : Node) (name : String) (optional : Bool)
  | element (site : Nat) (e : Node) (key : Option Key) (optional : Bool)
  | call (site : Nat) (e : Node) (optional : Bool)

/-- `ast.SkipParentheses` -/
def Node.skip : Node → Node
  | .paren e => e.skip
  | e => e

/-- Lines 493-519 `hasOptionalChain` -/
def Node.hasOptional : Node → Bool
  | .root _ => false
  | .paren e => e.hasOptional
  | .property _ e _ o | .element _ e _ o | .call _ e o => if o then true else e.hasOptional

/-- Lines 985-1002 `usesOptionalChaining` -/
def Node.usesOptional : Node → Bool
  | .root _ => false
  | .paren e => e.usesOptional
  | .property _ _ _ o | .element _ _ _ o | .call _ _ o => o

/-- What the checker says.  Simplified: signatures always have return types; the type of a property of a type is the type of the property's symbol; parentheses do not change types. -/
structure Types where
  checker : Checker
  noUnchecked : Bool
  /-- `GetTypeAtLocation`, without parentheses -/
  typeAt : Node → Option Ty
  /-- the same for keys -/
  keyType : Nat → Option Ty
  /-- `getTypeOfPropertyOfType`; `getPropertyOfType` and `GetTypeOfSymbol` -/
  property : Ty → String → Option Ty
  /-- `getApparentType` -/
  apparent : Ty → Option Ty
  /-- `GetStringIndexType` -/
  stringIndex : Ty → Option Ty
  /-- `getIndexInfosOfType`: the names of the keys' types, and the types of the values -/
  indexInfos : Ty → List (String × Ty)
  /-- `utils.GetTypeName` -/
  typeName : Ty → String
  /-- `TypeToString` -/
  display : Ty → String
  /-- the object flag `Mapped` -/
  mapped : Ty → Bool
  /-- the modifier `IncludeOptional` of a mapped type -/
  mappedOptional : Ty → Bool
  /-- a member of `getPropertiesOfType`: is it optional, and its type -/
  member : Ty → String → Option (Bool × Ty)
  tuple : Ty → Bool
  /-- the return types of the call signatures -/
  signatures : Ty → List Ty
  /-- the return type of the resolved signature of a call -/
  signature : Node → Option Ty
  /-- `GetSymbolAtLocation` of the name after a dot: is it optional -/
  symbolAt : Node → Option Bool
  /-- `getPropertyOfType`: is it optional -/
  optionalProperty : Ty → String → Option Bool

/-- `GetTypeAtLocation` -/
def Types.at (T : Types) : Node → Option Ty
  | .paren e => T.at e
  | e => T.typeAt e

/-- Lines 387-401 `getResolvedType` -/
def Types.resolved (T : Types) (e : Node) : Option Ty := T.checker.resolved (T.at e)

/-- Lines 2022-2050 `removeNullishFromType` -/
def removeNullish : Ty → Option Ty
  | .union ts => (ts.filter fun t => !nullish t).head?
  | t => if t.nullishLeaf then none else some t

/-- Lines 225-231 `isIndeterminateType` -/
def Ty.indeterminate : Ty → Bool
  | .any | .unknown | .typeParameter _ | .index _ => true
  | _ => false

/-- Lines 537-560 `getPropertyNameFromLiteralType` -/
def Ty.literalName : Ty → Option String
  | .stringLit s => some s
  | .numberLit t => some t
  | _ => none

/-- Lines 577-591: a key that is not a union -/
def Types.nullableKey (T : Types) (obj key : Ty) : Bool :=
  match key.literalName.bind (T.property obj) with
  | some p => nullish p
  | none => (T.indexInfos obj).any fun i => i.1 == T.typeName key

mutual
/-- Lines 563-592 `isNullablePropertyType` -/
def Types.nullableProperty (T : Types) (obj : Ty) : Ty → Bool
  | .union ts => T.someNullableProperty obj ts
  | t => T.nullableKey obj t
/-- Lines 569-574 -/
def Types.someNullableProperty (T : Types) (obj : Ty) : List Ty → Bool
  | [] => false
  | t :: ts => T.nullableProperty obj t || T.someNullableProperty obj ts
end

/-- Lines 648-676: the return type, from the type of what is called -/
def Types.calleeReturn (T : Types) (whole : Node) : Ty → Option Ty
  | .union ts => if ts.any fun t => (T.signatures t).head?.any nullish then T.at whole else (T.signatures (.union ts)).head?
  | t => (T.signatures t).head?

/-- Lines 639-676: neither the type of the call nor the resolved signature is used -/
def Types.fromCallee (T : Types) (whole e : Node) : Option Ty :=
  ((T.resolved e).bind removeNullish).bind (T.calleeReturn whole)

/-- Lines 618-677 `getCallReturnType` -/
def Types.callReturn (T : Types) (whole : Node) : Option Ty :=
  match whole with
  | .call _ e o =>
    match (if !o && !e.hasOptional then T.resolved whole else none) with
    | some t => some t
    | none =>
      match T.signature whole with
      | some t => some t
      | none => T.fromCallee whole e
  | _ => none

/-- Lines 724-727: the type of the string index signature -/
def Types.stringIndexOf (T : Types) (b : Ty) : Option Ty :=
  match T.stringIndex b with
  | some s => some s
  | none => (T.apparent b).bind T.stringIndex

/-- Lines 732-751: a mapped type -/
def Types.mappedMember (T : Types) (b : Ty) (name : String) : Option Ty :=
  match T.member b name with
  | some (optional, t) => if optional then none else some t
  | none => none

/-- Lines 720-767: no property was found -/
def Types.fromIndex (T : Types) (b : Ty) (whole : Node) (name : String) : Option Ty :=
  match T.stringIndexOf b with
  | some s => if T.noUnchecked then none else some s
  | none => if T.mapped b then T.mappedMember b name else T.at whole

/-- Lines 705-718: the property of the type or of its apparent type -/
def Types.found (T : Types) (b : Ty) (name : String) : Option Ty :=
  match T.property b name with
  | some p => some p
  | none => (T.apparent b).bind fun a => T.property a name

/-- Lines 680-768 `getPropertyTypeFromBase` -/
def Types.propertyFrom (T : Types) (base : Ty) (whole : Node) (name : String) : Option Ty :=
  (removeNullish base).bind fun b =>
    if name = "" then T.at whole
    else match T.found b name with
      | some p => some p
      | none => T.fromIndex b whole name

/-- Lines 785-792: a property or an element of what a call returns -/
def Types.accessOf (T : Types) (access : Node) (r : Ty) : Option Ty :=
  match access with
  | .property _ _ name _ => T.propertyFrom r access name
  | _ => T.at access

/-- Lines 772-793 `getTypeFromCallProperty` -/
def Types.callProperty (T : Types) (call access : Node) : Option Ty :=
  ((match T.callReturn call with
    | some t => some t
    | none => T.at call).bind removeNullish).bind (T.accessOf access)

/-- Lines 795-821 `isCallExpressionNullableOriginFromCallee`; `e` is called -/
def Types.nullishCallee (T : Types) (e : Node) : Bool :=
  match T.resolved e with
  | some (.union ts) => !(ts.any fun t => (T.signatures t).any nullish) && anyNullish ts
  | _ => false

/-- Lines 862-899: the property itself may be nullish in a part of the object's type -/
def Types.ownProperty (T : Types) (name : String) (part : Ty) : Bool :=
  if nullish part then false
  else if name = "" then false
  else match T.property part name with
    | some p => nullish p
    | none => (T.indexInfos part).any fun i => i.1 == "string" && (T.noUnchecked || nullish i.2)

/-- Lines 867-873: the same for elements -/
def Types.ownElement (T : Types) (key : Option Ty) (part : Ty) : Bool :=
  if nullish part then false else key.any (T.nullableProperty part)

/-- Lines 856-902 -/
def originIn (own : Ty → Bool) : Option Ty → Bool
  | some (.union ts) => !ts.any own && anyNullish ts
  | _ => false

/-- Lines 823-903 `isMemberExpressionNullableOriginFromObject`, of a node without parentheses -/
def Types.nullishObject (T : Types) : Node → Bool
  | .property _ e name _ => originIn (T.ownProperty name) (T.resolved e)
  | .element _ e (some k) _ => originIn (T.ownElement (T.checker.resolved (T.keyType k.id))) (T.resolved e)
  | _ => false

/-- Lines 919-925, of a node without parentheses -/
def Types.ownNullable (T : Types) : Node → Bool
  | .property s e name o => !T.nullishObject (.property s e name o)
  | .element s e k o => !T.nullishObject (.element s e k o)
  | .call _ e _ => !T.nullishCallee e
  | _ => true

/-- Lines 905-929 `isOptionableExpression` -/
def Types.optionable (T : Types) (e : Node) : Bool :=
  match T.resolved e.skip with
  | none => false
  | some t => if alwaysNecessary t then true else T.ownNullable e.skip && nullish t

/-- Lines 1004-1019 `isSafeTupleAccess` -/
def Types.safeTuple (T : Types) (e : Node) (key : Option Key) : Bool :=
  key.any fun k => k.numeric && (T.resolved e).any T.tuple

/-- Lines 1024-1031, 1044-1051 -/
def Types.unsafeElement (T : Types) (e : Node) (key : Option Key) (optional : Bool) : Bool :=
  !optional && !T.noUnchecked && !T.safeTuple e key

/-- Lines 1037-1063 `hasUnsafeElementAccess` -/
def Types.hasUnsafe (T : Types) : Node → Bool
  | .root _ => false
  | .paren e => T.hasUnsafe e
  | .element _ e k o => if T.unsafeElement e k o then true else T.hasUnsafe e
  | .property _ e _ _ | .call _ e _ => T.hasUnsafe e

/-- Lines 1021-1032, of a node without parentheses: `a[i]` before `?.` -/
def Types.isUnsafe (T : Types) : Node → Bool
  | .element _ e k o => T.unsafeElement e k o
  | _ => false

/-- Lines 1021-1068: `?.` after `e` is not judged -/
def Types.skips (T : Types) (e : Node) : Bool :=
  T.isUnsafe e.skip || (e.usesOptional && T.hasUnsafe e)

def Ty.isStringLit : Ty → Bool
  | .stringLit _ => true
  | _ => false

def Ty.stringLits : List Ty → List String
  | [] => []
  | .stringLit s :: ts => s :: Ty.stringLits ts
  | _ :: ts => Ty.stringLits ts

/-- Lines 1157-1189: the keys, if all are string literals -/
def Ty.literalKeys : Ty → List String
  | .stringLit s => [s]
  | .union ts => if ts.all Ty.isStringLit then Ty.stringLits ts else []
  | _ => []

/-- Lines 1193-1210: the types of the properties, if all are there and not nullish -/
def Types.literalTypes (T : Types) (b : Ty) : List String → Option (List Ty)
  | [] => some []
  | k :: ks =>
    match T.property b k with
    | none => none
    | some p => if nullish p then none else (T.literalTypes b ks).map (p :: ·)

/-- Lines 1211-1214: the different names, in order -/
def addNames (names : List String) : List String → List String
  | [] => names
  | n :: ns => addNames (if n ∈ names then names else names ++ [n]) ns

/-- The type `?.` is judged by, and the names in the report (none: that of the type) -/
structure Judgement where
  type : Ty
  names : List String

/-- Lines 1191-1225 -/
def Types.literalElement (T : Types) (b : Ty) (keys : List String) : Option Judgement :=
  match T.literalTypes b keys with
  | some (p :: ps) => some { type := p, names := addNames [] ((p :: ps).map T.display) }
  | _ => none

/-- Lines 1148-1235: the operand is `b?.[k]` -/
def Types.chainedElement (T : Types) (b : Ty) (whole : Node) (key : Option Key) : Option Judgement :=
  match (key.bind fun k => T.keyType k.id).bind fun t => T.literalElement b t.literalKeys with
  | some j => some j
  | none => (T.at whole).map fun t => { type := t, names := [] }

/-- Lines 1128-1147: not found in the object's type -/
def Types.chainedMapped (T : Types) (b : Ty) (whole : Node) : Option Ty :=
  (T.at whole).bind fun t => if !T.noUnchecked && T.mapped b && !T.mappedOptional b then removeNullish t else some t

/-- Lines 1126-1147: the operand is `b?.name` -/
def Types.chainedProperty (T : Types) (b : Ty) (whole : Node) (name : String) : Option Ty :=
  match T.propertyFrom b whole name with
  | some t => some t
  | none => T.chainedMapped b whole

/-- Lines 1236-1245, 1272-1282 -/
def Types.ofCall (T : Types) (whole : Node) : Option Ty :=
  match T.callReturn whole with
  | some t => some t
  | none => T.resolved whole

def Node.isCall : Node → Bool
  | .call _ _ _ => true
  | _ => false

/-- Lines 1250-1268: the operand is `e.name` or `e[k]` -/
def Types.ofAccess (T : Types) (e whole : Node) : Option Ty := if e.isCall then T.callProperty e whole else T.resolved whole

def named (t : Ty) : Judgement := { type := t, names := [] }

/-- Lines 1074-1290: the type of the operand -/
def Types.operandType (T : Types) (operand : Node) : Option Judgement :=
  match operand with
  | .property _ e name true => (((T.resolved e).bind removeNullish).bind fun b => T.chainedProperty b operand name).map named
  | .element _ e key true => ((T.resolved e).bind removeNullish).bind fun b => T.chainedElement b operand key
  | .call _ e true => (((T.resolved e).bind removeNullish).bind fun _ => T.ofCall operand).map named
  | .property _ e _ false | .element _ e _ false => (T.ofAccess e operand).map named
  | .call _ _ false => (T.ofCall operand).map named
  | _ => (T.resolved operand).map named

/-- Lines 1292-1300 -/
def Types.withoutCallee (T : Types) (operand : Node) (j : Judgement) : Option Judgement :=
  match operand with
  | .call _ e _ => if T.nullishCallee e then (removeNullish j.type).map fun t => { j with type := t } else some j
  | _ => some j

/-- Lines 1302-1330: a function that may be called returns nullish, by its first signature -/
def Types.someReturn (T : Types) (operand : Node) : Bool :=
  match operand with
  | .call _ e _ => (T.resolved e).any fun t => (parts t).any fun p => !p.nullishLeaf && (T.signatures p).head?.any nullish
  | _ => false

/-- Lines 1332-1343: indeterminate, or a union with such a part -/
def Ty.unclear : Ty → Bool
  | .union ts => ts.any Ty.indeterminate
  | t => t.indeterminate

/-- A report: on `?.` after the operand -/
structure ChainReport where
  operand : Node
  judged : Judgement

/-- Lines 1302-1356 -/
def Types.judge (T : Types) (operand : Node) (j : Judgement) : Option ChainReport :=
  if T.someReturn operand then none
  else if j.type.unclear then none
  else if nullish j.type then none
  else some { operand := operand, judged := j }

/-- Lines 1021-1356: `?.` after the operand -/
def Types.checkOperand (T : Types) (operand : Node) : Option ChainReport :=
  if T.skips operand then none
  else if T.optionable operand then none
  else ((T.operandType operand).bind (T.withoutCallee operand)).bind (T.judge operand)

/-- Lines 951-1357 `checkOptionalChain` -/
def Types.checkChain (T : Types) : Node → Option ChainReport
  | .property _ e _ true | .element _ e _ true | .call _ e true => T.checkOperand e
  | _ => none

/-- Lines 1375-1391: the symbol of the name, of the property, of the member: the first there is -/
def Types.symbolOptional (T : Types) (whole : Node) (b : Ty) (name : String) : Option Bool :=
  match T.symbolAt whole with
  | some o => some o
  | none =>
    match T.optionalProperty b name with
    | some o => some o
    | none => (T.member b name).map Prod.fst

/-- Lines 594-610 `isNullableElementAccessExpression` -/
def Types.nullableElement (T : Types) (e : Node) : Option Key → Bool
  | none => false
  | some k =>
    match T.at e, T.keyType k.id with
    | some obj, some key => T.nullableProperty obj key
    | _, _ => false

/-- Lines 1359-1399 `isNullableMemberExpression` -/
def Types.nullableMember (T : Types) : Node → Bool
  | .paren e => T.nullableMember e
  | .property s e name o =>
    match T.at e with
    | none => false
    | some b => if name = "" then false else T.symbolOptional (.property s e name o) b name == some true
  | .element _ e key _ => T.nullableElement e key
  | _ => false

/-! ### Calls of type guards -/

/-- An argument of a call -/
inductive Argument
  | plain (n : Nat)
  | spread
  deriving DecidableEq

/-- The kinds of predicates: `x is T`, `asserts x is T` or `asserts x`, those about `this` -/
inductive GuardKind
  | identifier
  | assertsIdentifier
  | other
  deriving DecidableEq

/-- The predicate of the signature that is called; types are given by numbers -/
structure CallGuard where
  kind : GuardKind
  index : Int
  type : Option Nat

/-- Lines 1720-1731: the arguments before the first spread -/
def checkable : List Argument → List Nat
  | .plain n :: as => n :: checkable as
  | _ => []

inductive GuardReport
  /-- line 1757: the argument is checked as a condition -/
  | condition (argument : Nat)
  /-- lines 1760-1768, 1770-1778: the argument already has the type -/
  | same (argument type : Nat)
  deriving DecidableEq

/-- Lines 1760-1768, 1770-1778; `argType`: `GetConstrainedTypeAtLocation` -/
def sameType (argType : Nat → Option Nat) (n : Nat) (type : Option Nat) : Option GuardReport :=
  match argType n, type with
  | some a, some t => if a = t then some (.same n a) else none
  | _, _ => none

/-- Lines 1754-1779 -/
def guardArgument (argType : Nat → Option Nat) (g : CallGuard) (n : Nat) : Option GuardReport :=
  match g.kind, g.type with
  | .assertsIdentifier, none => some (.condition n)
  | .assertsIdentifier, some t => sameType argType n (some t)
  | .identifier, t => sameType argType n t
  | .other, _ => none

/-- Lines 1715-1780 `checkTypePredicateCallExpression` -/
def checkGuardCall (enabled : Bool) (argType : Nat → Option Nat) (guard : Option CallGuard) (args : List Argument) : Option GuardReport :=
  if !enabled then none
  else match guard with
    | none => none
    | some g =>
      if g.index < 0 then none
      else match (checkable args)[g.index.toNat]? with
        | none => none
        | some n => guardArgument argType g n

end Tsgolint.Condition
