import Verif.Model.Errors
/-! # What only-throw-error and prefer-promise-reject-errors promise -/
namespace Tsgolint.Errors
variable {T : Type}

/-- A caught error: `catch (e) { throw e }`, `p.catch(e => { throw e })` or `p.then(f, e => { throw e })` with a promise `p` (and `f` no spread). -/
inductive Caught : Decl → Prop
  | clause : Caught .caught
  | catchMethod (args) : args ≠ [] → Caught (.param false 0 true (.argument (some ("catch", true)) 0 args))
  | thenMethod (a args) : Caught (.param false 0 true (.argument (some ("then", true)) 1 (.plain :: a :: args)))

/-- The call rejects a promise: `P.reject(…)`, or `reject(…)` with the second parameter of the function given to `new Promise(…)`, possibly in
parentheses. -/
inductive Above.New : Above → Prop
  | here : Above.New (.new_ true)
  | paren {up} : Above.New up → Above.New (.paren up)

inductive Rejects : Callee → Prop
  | method : Rejects (.access (some "reject") true)
  | param {params above} : 2 ≤ params → above.New → Rejects (.param 1 params above)

/-- The reason is fine: an error, a read-only error, a listed type, `any` or `unknown` if allowed; none if that is allowed. -/
def GoodReason (E : Env T) (o : RejectOpts) (args : List T) : Prop :=
  (args = [] ∧ o.allowEmptyReject = true) ∨
  ∃ t rest, args = t :: rest ∧ (E.listed t = true ∨ (o.allowThrowingAny = true ∧ E.isAny t = true) ∨ (o.allowThrowingUnknown = true ∧ E.isUnknown t = true) ∨
    E.errorLike t = true ∨ E.readonlyErrorLike t = true)

end Tsgolint.Errors
