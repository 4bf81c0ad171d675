import Verif.Model.PromiseAsync
/-! # What promise-function-async promises -/
namespace Tsgolint.PromiseAsync
variable {T : Type}

/-- The type's own name (the name of the generic type, for `Promise<X>`) is `Promise` or an allowed name. -/
def Named (E : Env T) (o : Opts) (t : T) : Prop :=
  ∃ s, E.symbol (E.target t) = some s ∧ (s = "Promise" ∨ s ∈ o.allowedPromiseNames)

/-- The parts of a union or of an intersection. -/
def PartsOf (E : Env T) (t : T) (ps : List T) : Prop := E.view (E.target t) = .union ps ∨ E.view (E.target t) = .intersection ps

/-- A promise throughout: named so, or every part is, or it extends one. -/
inductive Wholly (E : Env T) (o : Opts) : T → Prop
  | named {t} : E.loose t = false → Named E o t → Wholly E o t
  | parts {t ps} : E.loose t = false → PartsOf E t ps → (∀ p, p ∈ ps → Wholly E o p) → Wholly E o t
  | base {t bs b} : E.loose t = false → E.view (E.target t) = .classOrInterface bs → b ∈ bs → Wholly E o b → Wholly E o t

/-- Possibly a promise: named so, or some part is, or it extends something and everything it extends is. -/
inductive Possibly (E : Env T) (o : Opts) : T → Prop
  | named {t} : E.loose t = false → Named E o t → Possibly E o t
  | part {t ps p} : E.loose t = false → PartsOf E t ps → p ∈ ps → Possibly E o p → Possibly E o t
  | bases {t bs} : E.loose t = false → E.view (E.target t) = .classOrInterface bs → bs ≠ [] → (∀ b, b ∈ bs → Possibly E o b) → Possibly E o t

/-- A part or a base type of a type. -/
def Below (E : Env T) (u t : T) : Prop :=
  (∃ ps, PartsOf E t ps ∧ u ∈ ps) ∨ ∃ bs, E.view (E.target t) = .classOrInterface bs ∧ u ∈ bs

/-- The functions looked at: of a checked kind, not async, with a body, not abstract, and callable. -/
def LookedAt (o : Opts) (f : Fn T) : Prop :=
  (match f.kind with
    | .arrow => o.checkArrowFunctions = true
    | .functionDeclaration => o.checkFunctionDeclarations = true
    | .functionExpression => o.checkFunctionExpressions = true
    | .method => o.checkMethodDeclarations = true ∧ f.isAbstract = false) ∧
  f.isAsync = false ∧ f.hasBody = true ∧ f.returns ≠ []

/-- A return type that must not be left as it is. -/
def Untyped (E : Env T) (o : Opts) (f : Fn T) : Prop := o.allowAny = false ∧ ∃ r ∈ f.returns, E.loose r = true

/-- Every signature returns a promise: throughout if the return type is written down, possibly if it is inferred. -/
def ReturnsPromise (E : Env T) (o : Opts) (f : Fn T) : Prop :=
  ∀ r ∈ f.returns, if f.hasReturnType then Wholly E o r else Possibly E o r

/-- An inferred return type is a union with a part that is not throughout a promise. -/
def Hybrid (E : Env T) (o : Opts) (f : Fn T) : Prop :=
  f.hasReturnType = false ∧ ∃ r ∈ f.returns, ∃ ps, E.unionTypes r = some ps ∧ ∃ p ∈ ps, ¬ Wholly E o p

end Tsgolint.PromiseAsync
