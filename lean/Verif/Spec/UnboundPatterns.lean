import Verif.Model.UnboundPatterns
import Verif.Spec.UnboundMethod
/-!
# Which properties destructuring takes out of an object
-/
namespace Tsgolint.UnboundPatterns
open UnboundMethod (Ancestor TypeOnly)

/-- The property a member of an assignment pattern takes. -/
inductive Takes : Member → Name → Prop
  | assignment {n} : Takes (.assignment n) n
  | shorthand {s} : Takes (.shorthand s) (.identifier s)

/-- The property an element of a binding pattern takes: `{ name: … }` or `{ name }`. -/
inductive Binds : Element → Name → Prop
  | named {n b} : Binds ⟨false, some n, b⟩ n
  | short {s} : Binds ⟨false, none, some s⟩ (.identifier s)

/-- What the object is initialised with, and whether that is only a default value. -/
inductive Source : Parent I → Option I → Bool → Prop
  | variable {i} : Source (.variable i) i false
  | element {i} : Source (.element i) i true
  | parameter {i} : Source (.parameter i) i true
  | assignment {c r} : Source (.assignment c r) none false
  | other : Source .other none false

end Tsgolint.UnboundPatterns
