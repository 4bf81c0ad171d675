import Verif.Model.UnsafeReturn
/-! # What no-unsafe-return promises -/
namespace Tsgolint.UnsafeReturn
open Tsgolint.TypeGraph (AnyClass)
variable {T : Type}

/-- The annotation allows the value: some signature returns the very type of the value, or `any`/`unknown`; in an async function, up to awaiting. -/
inductive Sanctions (E : Env T) (f : Fn T) (ret : T) : Prop
  | same : ret ∈ f.signatures → Sanctions E f ret
  | top {s} : s ∈ f.signatures → E.anyOrUnknown s = true → Sanctions E f ret
  | awaitedSame {s} : f.async = true → s ∈ f.signatures → E.awaited s = E.awaited ret → Sanctions E f ret
  | awaitedTop {s a} : f.async = true → s ∈ f.signatures → E.awaited s = some a → E.anyOrUnknown a = true → Sanctions E f ret

/-- Some signature returns the `unknown` counterpart of the value. -/
inductive Accepts (E : Env T) (f : Fn T) : AnyClass → Prop
  | any {s} : s ∈ f.signatures → E.isUnknown s = true → Accepts E f .any
  | anyArray {s} : s ∈ f.signatures → E.isUnknownArray s = true → Accepts E f .anyArray
  | promise {s a} : s ∈ f.signatures → E.awaited s = some a → E.isUnknown a = true → Accepts E f .promiseAny

/-- What the message calls the value. -/
def Names (E : Env T) (ret : T) (c : AnyClass) (w : What) : Prop :=
  if E.isError ret = true then w = .error else match c with
    | .any => w = .any
    | .promiseAny => w = .promiseAny
    | .anyArray => w = .anyArray
    | .safe => False

end Tsgolint.UnsafeReturn
