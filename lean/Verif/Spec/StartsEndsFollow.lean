import Verif.Model.StartsEndsFollow
import Verif.Spec.StartsEnds
/-! # Following variables: specification -/
namespace Tsgolint.StartsEnds
variable {N : Type}

/-- The expression is a variable with this initialiser. -/
def Initial (kind : N → Kind N) (n i : N) : Prop := ∃ c, kind n = .identifier c (some i)

/-- From one expression to another through initialisers. -/
inductive Leads (kind : N → Kind N) : N → N → Prop
  | here (n : N) : Leads kind n n
  | step (n i m : N) : Initial kind n i → Leads kind i m → Leads kind n m

/-- The expression the variables stand for in the end: one that is no variable with an initialiser. -/
def StandsFor (kind : N → Kind N) (n m : N) : Prop := Leads kind n m ∧ ∀ i, ¬Initial kind m i

/-- A variable whose initialiser leads back to it can be reached. -/
def Circular (kind : N → Kind N) (n : N) : Prop := ∃ m i, Leads kind n m ∧ Initial kind m i ∧ Leads kind i m

/-- The text of an expression that is one. -/
def IsText (k : Kind N) (t : List Nat) : Prop := k = .text t

/-- Regular expression literals are written `/pattern/flags`: flags without slash, the closing slash not escaped. -/
def WellWritten (kind : N → Kind N) : Prop :=
  ∀ n s, kind n = .regex s → ∃ p f, s = '/' :: p ++ '/' :: f ∧ '/' ∉ f ∧ endingBackslashes p % 2 = 0

/-- The expression is the regular expression with this pattern and these flags: a literal, `new RegExp("p")` or `new RegExp("p", "f", …)`. -/
inductive Denotes : Kind N → Text → Text → Prop
  | literal (p f : Text) : '/' ∉ f → endingBackslashes p % 2 = 0 → Denotes (.regex ('/' :: p ++ '/' :: f)) p f
  | constructed (p : Text) : Denotes (.construct (some "RegExp".toList) [some p]) p []
  | flagged (p f : Text) (rest : List (Option Text)) : Denotes (.construct (some "RegExp".toList) (some p :: some f :: rest)) p f

/-- `o.test`, `o["test"]`. -/
inductive TestOf (o : N) : Callee N → Prop
  | property : TestOf o (.property o "test".toList)
  | element : TestOf o (.element o (some "test".toList))

end Tsgolint.StartsEnds
