import Verif.Model.UnboundMethod
/-! # What unbound-method promises -/
namespace Tsgolint.UnboundMethod
open Tsgolint.TypeGraph

/-- The value of the reference is the value of the parent, or may be. -/
def Passes : Frame → Prop
  | .parens | .nonNull | .assertion | .binary .and false _ | .binary .or _ _ => True
  | _ => False

/-- The value is used up by the parent: it is tested, compared, called, accessed, assigned to or made a value of another kind. -/
def UsesUp : Frame → Prop
  | .statement | .access | .postfix_ true | .prefix_ true | .call true | .conditional true | .tagged true | .unary => True
  | .binary .and true _ | .binary .equality _ _ | .binary .instanceOf _ _ | .binary .assign true _ => True
  | _ => False

/-- `this.x = super.x` -/
def KeepsSuper (superAccess : Bool) (frames : List Frame) : Prop :=
  superAccess = true ∧ ∃ rest, frames = .binary .assign false true :: rest

/-- A safe use: passed on any number of times, and then used up. -/
def SafeUse (superAccess : Bool) (frames : List Frame) : Prop :=
  (∃ pre f rest, frames = pre ++ f :: rest ∧ (∀ g ∈ pre, Passes g) ∧ UsesUp f) ∨ KeepsSuper superAccess frames

/-- In a call, `this` is the object only if the callee is the access itself, but for parentheses and assertions. -/
def CallKeepsThis (frames : List Frame) : Prop :=
  ∃ pre f rest, frames = pre ++ f :: rest ∧ (∀ g ∈ pre, g = .parens ∨ g = .nonNull ∨ g = .assertion) ∧ (f = .call true ∨ f = .tagged true)

/-- Declares only types. -/
def TypeOnly : Ancestor → Prop
  | .class_ true | .method true | .function false | .typeOnly | .variableStatement true => True
  | _ => False

/-- A function declares `this`. -/
def DeclaresThis (f : Function) : Prop := ∃ a, f.first = some (some "this", a)

/-- A function that may use the object it is called on, or the class. -/
def NeedsThis (ignoreStatic : Bool) (f : Function) : Prop :=
  f.first ≠ some (some "this", .void) ∧ ¬ (ignoreStatic = true ∧ f.isStatic = true)

/-- A declaration of a method that must not be detached. -/
def Dangerous (ignoreStatic : Bool) : Option (Option Decl) → Prop
  | some (some (.property true)) => True
  | some (some (.assignment (some f))) => NeedsThis ignoreStatic f
  | some (some (.method f)) => NeedsThis ignoreStatic f
  | _ => False

/-- Every parameter `this` has a type annotation. -/
def Annotated : Option (Option Decl) → Prop
  | some (some (.assignment (some f))) => f.first ≠ some (some "this", .missing)
  | some (some (.method f)) => f.first ≠ some (some "this", .missing)
  | _ => True

/-- The message calls for an annotation exactly for functions without a parameter `this`. -/
def LacksThis : Option (Option Decl) → Prop
  | some (some (.assignment (some f))) => ¬ DeclaresThis f
  | some (some (.method f)) => ¬ DeclaresThis f
  | _ => False

/-- Listed by name, from another file; or a member from the default library of one of the library's own objects. -/
def NativelyBound (table : List (String × List String)) (n : Native) : Prop :=
  (∃ o p ms, n.identifiers = some (o, p) ∧ n.elsewhere = true ∧ table.lookup o = some ms ∧ p ∈ ms) ∨ (n.globalType = true ∧ n.builtinProperty = true)

end Tsgolint.UnboundMethod
