import Verif.Model.Fixer
/-!
# Model of no-useless-default-assignment (/repo/internal/rules/no_useless_default_assignment/no_useless_default_assignment.go)

Types (`T`) are the compiler's.  Syntax is kept as far as the rule looks at it.  The branch of `getSourceTypeForPattern` for a
pattern lying directly in an array pattern (lines 321-331) is left out: the parser wraps such patterns in binding elements.
-/
namespace Tsgolint.DefaultAssignment
open Tsgolint.Fixer (Fix Bytes ascii)
variable {T : Type}

/-- A property name as written in a pattern or an object literal. -/
inductive PropName
  | ident (s : String)
  /-- a string or number -/
  | literal (s : String)
  /-- `[k]` -/
  | computedIdent (s : String)
  /-- `['k']` -/
  | computedLiteral (s : String)
  | other
deriving DecidableEq, Repr

/-- Lines 72-89 `getPropertyName` -/
def PropName.text : PropName → Option String
  | .ident s => some s
  | .literal s => some s
  | .computedIdent s => some s
  | .computedLiteral s => some s
  | .other => none

/-- A member of an object literal: `none` for a spread. -/
abbrev Member := Option PropName

/-- Expressions. -/
inductive Expr
  | object (members : List Member)
  | cond (whenTrue whenFalse : Expr)
  | paren (e : Expr)
  /-- the identifier `undefined` -/
  | undefinedName
  | other
deriving Repr

/-- Lines 186-191: one member of the object literal. -/
def memberNamed (n : String) : Member → Bool
  | none => false
  | some p => p.text == some n

/-- Lines 182-202 `hasPropertyInAllBranches` -/
def Expr.hasAll (n : String) : Expr → Bool
  | .object ms => ms.any (memberNamed n)
  | .cond a b => a.hasAll n && b.hasAll n
  | .paren e => e.hasAll n
  | .undefinedName => false
  | .other => false

/-- `ast.SkipParentheses` followed by `IsUndefinedIdentifier` (lines 469-471). -/
def Expr.isUndefined : Expr → Bool
  | .paren e => e.isUndefined
  | .undefinedName => true
  | _ => false

/-- A property or parameter symbol: flag `Optional`, declared with `...`, its type. -/
structure Sym (T : Type) where
  optional : Bool
  rest : Bool
  type : T

/-- What the rule asks about types. -/
structure Env (T : Type) where
  anyOrUnknown : T → Bool
  /-- `UnionTypeParts` -/
  parts : T → List T
  isUndefined : T → Bool
  isTypeParameter : T → Bool
  /-- the type arguments of a tuple type -/
  tuple : T → Option (List T)
  /-- `GetNumberIndexType` -/
  numberIndex : T → Option T
  /-- `getPropertyOfType` and `GetTypeOfSymbolAtLocation` -/
  property : T → String → Option (Sym T)
  unionOrIntersection : T → Bool
  /-- a flag of the primitive groups of line 148 -/
  primitive : T → Bool
  /-- the type's symbol has a non-empty name -/
  named : T → Bool
  toString : T → String

/-- Lines 62-70 `canBeUndefined` (for a type that is there) -/
def canBeUndefined (E : Env T) (t : T) : Bool := if E.anyOrUnknown t then true else (E.parts t).any E.isUndefined

/-- Lines 91-99 `getArrayElementType` -/
def arrayElement (E : Env T) (t : T) (i : Nat) : Option T :=
  match E.tuple t with
  | some args => match args[i]? with
    | some a => some a
    | none => E.numberIndex t
  | none => E.numberIndex t

/-- A function's own signature: it has a `this` parameter; its parameters without `this`. -/
structure Signature (T : Type) where
  thisParameter : Bool
  params : List (Sym T)

/-- Lines 288-314: the type of the parameter at position `index` of the list of declared parameters; `firstIsThis`: the first
declared parameter is named `this`. -/
def paramSource (sig : Option (Signature T)) (firstIsThis : Bool) (index : Nat) : Option T :=
  match sig with
  | none => none
  | some s =>
    if s.thisParameter && firstIsThis then
      (if index = 0 then none else (s.params[index - 1]?).map (·.type))
    else (s.params[index]?).map (·.type)

mutual
/-- Where a pattern stands. -/
inductive Ctx (T : Type)
  /-- in a variable declaration with this initialiser, of this type -/
  | initialised (init : Expr) (type : T)
  /-- in a declaration without initialiser (`for (const {a} of …)`, `catch ({a})`) -/
  | bare
  | param (sig : Option (Signature T)) (firstIsThis : Bool) (index : Nat)
  /-- it is the target of a binding element of another pattern -/
  | nested (b : Binding T)
/-- A binding element, with its default value. -/
inductive Binding (T : Type)
  | inObject (ctx : Ctx T) (name : PropName) (default : Option Expr)
  | inArray (ctx : Ctx T) (index : Nat) (default : Option Expr)
end

def Binding.default : Binding T → Option Expr
  | .inObject _ _ d => d
  | .inArray _ _ d => d

/-- Lines 255-264: the guard for an optional property. -/
def optionalGuard (ctx : Ctx T) (n : String) : Bool :=
  match ctx with
  | .initialised init _ => init.hasAll n
  | _ => false

/-- Lines 250-267: a property of the source type. -/
def propertyType (E : Env T) (ctx : Ctx T) (t : T) (n : String) : Option T :=
  match E.property t n with
  | none => none
  | some s => if s.optional && !optionalGuard ctx n then none else some s.type

mutual
/-- Lines 280-338 `getSourceTypeForPattern` -/
def sourceType (E : Env T) : Ctx T → Option T
  | .initialised _ t => some t
  | .bare => none
  | .param sig this i => paramSource sig this i
  | .nested b => bindingType E b
/-- Lines 220-278 `getTypeOfBindingElement` -/
def bindingType (E : Env T) : Binding T → Option T
  | .inObject ctx name _ =>
    match sourceType E ctx with
    | none => none
    | some t => match name.text with
      | none => none
      | some n => propertyType E ctx t n
  | .inArray ctx i _ =>
    match sourceType E ctx with
    | none => none
    | some t => arrayElement E t i
end

/-- A call signature of the contextual type: it is the function's own; its parameters. -/
structure ContextSignature (T : Type) where
  own : Bool
  params : List (Sym T)

/-- A parameter declaration. -/
structure Param (T : Type) where
  default : Option Expr
  annotation : Option T
  nameIsIdentifier : Bool
  /-- the function is an arrow function or function expression -/
  inExpression : Bool
  /-- position in the list of declared parameters, `this` included -/
  index : Nat
  /-- the call signatures of the contextual type of the function -/
  contextual : Option (List (ContextSignature T))

/-- What is reported. -/
inductive Report
  /-- `mark`: a `?` is inserted after the name -/
  | preferOptional (mark : Bool)
  | uselessUndefined (kind : String)
  /-- with the text of the type, if it is simple -/
  | useless (kind : String) (type : Option String)
deriving DecidableEq, Repr

/-- Lines 138-153 `isSimpleTypeForMessage` -/
def isSimple (E : Env T) (t : T) : Bool :=
  if E.unionOrIntersection t then false else if E.primitive t then true else E.named t

/-- Lines 345-359: the message of `reportUselessDefaultAssignment`. -/
def useless (E : Env T) (kind : String) (t : T) : Report := .useless kind (if isSimple E t then some (E.toString t) else none)

/-- Lines 419-460 `checkFunctionExpressionParameter` -/
def checkParameter (E : Env T) (p : Param T) : Option Report :=
  if !p.inExpression then none
  else match p.contextual with
  | none => none
  | some [] => none
  | some (s :: _) =>
    if s.own then none
    else match s.params[p.index]? with
    | none => none
    | some q =>
      if q.rest then none
      else if q.optional then none
      else if !E.isTypeParameter q.type && !canBeUndefined E q.type then some (useless E "parameter" q.type) else none

/-- Lines 494-498 -/
def checkType (E : Env T) (t : T) : Option Report := if canBeUndefined E t then none else some (useless E "property" t)

/-- Lines 486-518: a binding element. -/
def checkBinding (E : Env T) (b : Binding T) : Option Report :=
  match b with
  | .inObject .. => (bindingType E b).bind (checkType E)
  | .inArray ctx i _ => match sourceType E ctx with
    | none => none
    | some t => match E.tuple t with
      | none => none
      | some args => (args[i]?).bind (checkType E)

inductive Node (T : Type)
  | param (p : Param T)
  | binding (b : Binding T)

def Node.default : Node T → Option Expr
  | .param p => p.default
  | .binding b => b.default

/-- Lines 462-518 `checkAssignmentPattern` -/
def check (E : Env T) (n : Node T) : Option Report :=
  match n.default with
  | none => none
  | some d =>
    if d.isUndefined then
      match n with
      | .param p =>
        match p.annotation with
        | some t => if canBeUndefined E t then some (.preferOptional p.nameIsIdentifier) else some (.uselessUndefined "parameter")
        | none => some (.uselessUndefined "parameter")
      | .binding _ => some (.uselessUndefined "property")
    else match n with
      | .param p => checkParameter E p
      | .binding b => checkBinding E b

/-- Lines 155-164 `getPluralAssignmentType` -/
def plural (kind : String) : String := if kind = "property" then "properties" else if kind = "parameter" then "parameters" else kind ++ "s"

/-- Lines 22-60: identifier and description. -/
def Report.message : Report → String × String
  | .preferOptional _ => ("preferOptionalSyntax", "Using `= undefined` to make a parameter optional adds unnecessary runtime logic.")
  | .uselessUndefined k => ("uselessUndefined", "Default value is useless because it is undefined. Optional " ++ plural k ++ " are already undefined by default.")
  | .useless k none => ("uselessDefaultAssignment", "Default value is useless because the " ++ k ++ " is not nullish. This default assignment will never be used.")
  | .useless k (some t) => ("uselessDefaultAssignment", "Default value is useless because the " ++ k ++ " has type `" ++ t ++ "` (not nullish). This default assignment will never be used.")

/-- Offsets: end of the name, end of the annotation, end of the whole node. -/
structure Spans where
  nameEnd : Nat
  typeEnd : Option Nat
  stop : Nat

/-- Lines 119-136 `getDefaultAssignmentStart` (a parameter with annotation: its end, else the name's end) -/
def Spans.start (s : Spans) : Nat := s.typeEnd.getD s.nameEnd

/-- Lines 340-343, 396-417: the edits of a report (for `useless` they are a suggestion). -/
def Report.edits (s : Spans) : Report → List Fix
  | .preferOptional mark => { text := [], pos := s.start, stop := s.stop } :: (if mark then [{ text := ascii "?", pos := s.nameEnd, stop := s.nameEnd }] else [])
  | .uselessUndefined _ => [{ text := [], pos := s.start, stop := s.stop }]
  | .useless _ _ => [{ text := [], pos := s.start, stop := s.stop }]

/-- Whether the edits are applied without asking (lines 391, 404) or only suggested (line 376). -/
def Report.automatic : Report → Bool
  | .useless _ _ => false
  | _ => true

end Tsgolint.DefaultAssignment
