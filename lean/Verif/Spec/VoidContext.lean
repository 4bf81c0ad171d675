import Verif.Spec.VoidReturn
import Verif.Model.VoidContext
/-! # Specification of where strict-void-return looks -/
namespace Tsgolint.VoidReturn
variable {T N : Type}

/-- The context wants a function that returns nothing. -/
def Site.Wants (E : Env T) (s : Site T N) : Prop := ∃ t, s.contextual = some t ∧ ForNothing E t

/-- The name a member goes by: that of its symbol; failing that, as written. -/
inductive Called (n : MemberName) : String → Prop
  | symbol {s} : n.symbol = some s → s ≠ "" → Called n s
  | written {s} : n.symbol = none ∨ n.symbol = some "" → n.written = .plain s → s ≠ "" → Called n s

/-- A class member has a member of the same name in some type its class extends or implements, called for nothing. -/
def OverridesForNothing (E : Env T) (M : Members T) (heritage : Heritage T) (name : Option MemberName) : Prop :=
  ∃ clauses n s, heritage = some clauses ∧ name = some n ∧ n.symbol = some s ∧
    ∃ types ∈ clauses, ∃ base ∈ types, ∃ t, M.property base s = some t ∧ ForNothing E t

/-- A signature of the callee, for a call or for `new`. -/
def SignatureOf (E : Env T) (M : Members T) (isCall : Bool) (callee : T) (ps : List T) : Prop :=
  ∃ p ∈ E.parts callee, (isCall = true ∧ ps ∈ M.callSignatures p) ∨ (isCall = false ∧ ps ∈ M.constructSignatures p)

/-- A return type expected of the callback at this position by some signature of the callee. -/
def ExpectedOf (E : Env T) (M : Members T) (isCall : Bool) (callee : T) (i : Nat) (t : T) : Prop :=
  ∃ ps, SignatureOf E M isCall callee ps ∧ ∃ p, ps[i]? = some p ∧ ∃ q ∈ E.parts p, t ∈ E.callReturns q

/-- At this place stands this function, where one that returns nothing is wanted. -/
inductive Stands (E : Env T) (M : Members T) : Place T N → Func T N → Prop
  | element {es s} : Element.value s ∈ es → s.Wants E → Stands E M (.array es) s.func
  | arrow {s} : s.Wants E → Stands E M (.arrow false (some s)) s.func
  | assigned {s} : s.Wants E → Stands E M (.binary true s) s.func
  /-- an argument, by its contextual type: the callee has one signature, or all returns expected here are void, nullish, any or a type parameter -/
  | argument {isCall callee args i s} : args[i]? = some (some s) → s.Wants E →
      ((E.parts callee).flatMap fun p => if isCall then M.callSignatures p else M.constructSignatures p).length = 1 ∨
        (∀ t, ExpectedOf E M isCall callee i t → E.isVoid t = true ∨ E.nullishOrAny t = true ∨ E.isTypeParameter t = true) →
      Stands E M (.call isCall callee args) s.func
  /-- an argument, by the signatures: some return expected here is void and all are void, nullish or any -/
  | callback {isCall callee args i s t} : args[i]? = some (some s) → ExpectedOf E M isCall callee i t → E.isVoid t = true →
      (∀ t, ExpectedOf E M isCall callee i t → E.nullishOrAny t = true) → Stands E M (.call isCall callee args) s.func
  | jsxValue {s} : s.Wants E → Stands E M (.jsxAttribute (.value s)) s.func
  /-- a method of an object literal (its name not computed) whose contextual type has a property of that name, called for nothing -/
  | objectMethod {object n name t f} : (∀ x, n.written ≠ .computed x) → Called n name → M.property object name = some t → ForNothing E t →
      Stands E M (.objectMethod (some object) (some n) f) f
  | classMethod {h name f} : OverridesForNothing E M h name → Stands E M (.classMethod h name true f) f
  | classProperty {h name s} : OverridesForNothing E M h name ∨ s.Wants E → Stands E M (.classProperty h name (some s)) s.func
  | property {s} : s.Wants E → Stands E M (.propertyAssignment s) s.func
  | shorthand {s} : s.Wants E → Stands E M (.shorthand s) s.func
  | returned {s} : s.Wants E → Stands E M (.returned (some s)) s.func
  | variableDeclaration {s} : s.Wants E → Stands E M (.variableDeclaration (some s)) s.func

end Tsgolint.VoidReturn
