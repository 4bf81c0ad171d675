import Verif.Model.FunctionKinds
/-! # What the two rules about functions should check -/
namespace Tsgolint.FunctionKinds

/-- Functions, methods, signatures and types of functions: callable, so that type arguments can be inferred from a call. -/
def Callable : Kind → Prop
  | .arrowFunction | .functionDeclaration | .functionExpression | .callSignature | .constructSignature | .constructorType | .functionType
  | .methodSignature | .methodDeclaration => True
  | _ => False

/-- Classes -/
def Class : Kind → Prop
  | .classDeclaration | .classExpression => True
  | _ => False

/-- Everything a value can be passed to: callables, and the functions of classes that are not called by name. -/
def TakesValues (f : Kind) : Prop := Callable f ∨ f = .constructor ∨ f = .setAccessor

/-- The kinds have different numbers, and these are numbers of syntax kinds (not of listeners). -/
structure CodeOk (code : Kind → Nat) : Prop where
  differ : ∀ f g, code f = code g → f = g
  syn : ∀ f, code f < 1000

variable {P T : Type}

/-- A parameter of a constructor with a modifier: it is a property too. -/
def Property (E : Env P T) (f : Kind) (p : P) : Prop := f = .constructor ∧ E.modified p = true

/-- The type of a parameter: the one written, or else the inferred one. -/
def HasType (E : Env P T) (p : P) (t : T) : Prop := E.annotation p = some t ∨ (E.annotation p = none ∧ E.inferred p = some t)

/-- A parameter to be reported: its type is neither readonly nor a branded literal, and no option excludes the parameter. -/
def Wrong (o : Options) (E : Env P T) (f : Kind) (p : P) : Prop :=
  (Property E f p → o.checkParameterProperties = true) ∧ (o.ignoreInferredTypes = true → E.annotation p ≠ none) ∧
  ∃ t, HasType E p t ∧ E.readonly t = false ∧ E.branded t = false

end Tsgolint.FunctionKinds
