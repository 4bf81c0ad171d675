import Verif.Model.Visit
/-!
# Model of the listeners of no-unnecessary-type-parameters and prefer-readonly-parameter-types
(/repo/internal/rules/no_unnecessary_type_parameters/no_unnecessary_type_parameters.go:656-724,
/repo/internal/rules/prefer_readonly_parameter_types/prefer_readonly_parameter_types.go:350-429)

Which declarations of a file are checked, and which of their parameters are reported.  Whether a type is readonly is in `Verif.Model.ReadonlyParam`; here it is a
parameter.  What is decided about a type parameter is in `Verif.Model.TypeParameters`.
-/
namespace Tsgolint.FunctionKinds
open Tsgolint.Visit (Node Kinds Ev visitFile)

/-- The kinds of nodes that can have parameters or type parameters. -/
inductive Kind
  | arrowFunction | functionDeclaration | functionExpression | callSignature | constructSignature | constructorType | functionType
  | methodSignature | methodDeclaration | classDeclaration | classExpression | constructor | getAccessor | setAccessor
  | indexSignature | interfaceDeclaration | typeAliasDeclaration
deriving DecidableEq, Repr

/-- How the declaration is called in messages. -/
inductive Label
  | function | class'
deriving DecidableEq, Repr

/-- no_unnecessary_type_parameters.go:665-720: kinds and descriptors. -/
def typeParameterTable : List (Kind × Label) :=
  [(.arrowFunction, .function), (.functionDeclaration, .function), (.functionExpression, .function), (.callSignature, .function),
   (.constructSignature, .function), (.constructorType, .function), (.functionType, .function), (.methodSignature, .function),
   (.methodDeclaration, .function), (.classDeclaration, .class'), (.classExpression, .class')]

/-- no_unnecessary_type_parameters.go:661-663 and the listeners: the calls of `checkNoUnnecessaryTypeParametersNode` for an event; `code` gives the number of a
kind, `typeParameters` how many the node has. -/
def typeParameterListener (code : Kind → Nat) (typeParameters : Nat → Nat) (e : Ev) : List (Nat × Label) :=
  match typeParameterTable.find? fun entry => code entry.1 == e.1 with
  | some entry => if typeParameters e.2 > 0 then [(e.2, entry.2)] else []
  | none => []

/-- The calls made for a file. -/
def typeParameterChecks (K : Kinds) (code : Kind → Nat) (typeParameters : Nat → Nat) (topLevel : List Node) : List (Nat × Label) :=
  (visitFile K topLevel).flatMap (typeParameterListener code typeParameters)

/-- prefer_readonly_parameter_types.go:417-427: the kinds listened to. -/
def parameterTable : List Kind :=
  [.arrowFunction, .callSignature, .constructSignature, .constructor, .functionDeclaration, .functionExpression, .functionType, .methodDeclaration,
   .methodSignature]

/-- The options used here: `CheckParameterProperties`, `IgnoreInferredTypes`. -/
structure Options where
  checkParameterProperties : Bool
  ignoreInferredTypes : Bool

/-- What is asked about parameters (`P`) and types (`T`). -/
structure Env (P T : Type) where
  /-- line 359: one of the modifiers that make a property -/
  modified : P → Bool
  /-- `parameter.Type()` -/
  annotation : P → Option T
  /-- `GetTypeAtLocation` -/
  inferred : P → Option T
  /-- `parameter.Name() != nil` -/
  named : P → Bool
  /-- `isTypeReadonly` with the options, lines 397-400 -/
  readonly : T → Bool
  /-- `isTypeBrandedLiteralLike`, line 402 -/
  branded : T → Bool

/-- What is highlighted: the parameter (line 412), or the parameter from its name on (line 407). -/
inductive Extent
  | parameter | fromName
deriving DecidableEq, Repr

variable {P T : Type}

/-- Lines 350-360 `isParameterProperty`; the parent of a parameter is the function. -/
def isParameterProperty (E : Env P T) (ofConstructor : Bool) (p : P) : Bool := ofConstructor && E.modified p

/-- Lines 362-372 `getParameterType` -/
def getParameterType (E : Env P T) (p : P) : Option T :=
  match E.annotation p with
  | some t => some t
  | none => E.inferred p

/-- Lines 379-415: the loop of the listener. -/
def parameters (o : Options) (E : Env P T) (ofConstructor : Bool) : List P → List (P × Extent)
  | [] => []
  | p :: ps =>
    let rest := parameters o E ofConstructor ps
    if !o.checkParameterProperties && isParameterProperty E ofConstructor p then rest
    else if o.ignoreInferredTypes && (E.annotation p).isNone then rest
    else match getParameterType E p with
      | none => rest
      | some t =>
        if !E.readonly t && !E.branded t then
          if isParameterProperty E ofConstructor p && E.named p then (p, .fromName) :: rest
          else (p, .parameter) :: rest
        else rest

/-- The listener, called for an event: the function, and what is reported of it. -/
def parameterListener (o : Options) (E : Env P T) (code : Kind → Nat) (parametersOf : Nat → List P) (e : Ev) : List (Nat × P × Extent) :=
  if (parameterTable.map code).contains e.1 then (parameters o E (e.1 == code .constructor) (parametersOf e.2)).map fun r => (e.2, r)
  else []

/-- The reports for a file. -/
def parameterReports (o : Options) (E : Env P T) (K : Kinds) (code : Kind → Nat) (parametersOf : Nat → List P) (topLevel : List Node) : List (Nat × P × Extent) :=
  (visitFile K topLevel).flatMap (parameterListener o E code parametersOf)

end Tsgolint.FunctionKinds
