import Verif.Model.TypeGraph
/-!
# Model of no-unsafe-return (/repo/internal/rules/no_unsafe_return/no_unsafe_return.go)

Types (`T`) are the compiler's; `DiscriminateAnyType` and `IsUnsafeAssignment` are modelled in `TypeGraph`, `GetThisExpression` in `UnsafeAccess`.
-/
namespace Tsgolint.UnsafeReturn
open Tsgolint.TypeGraph (AnyClass)
variable {T : Type} [DecidableEq T]

/-- What the rule asks about types. -/
structure Env (T : Type) where
  /-- flags `Any` or `Unknown` -/
  anyOrUnknown : T → Bool
  isUnknown : T → Bool
  /-- `unknown[]` -/
  isUnknownArray : T → Bool
  /-- `getAwaitedType`; `none` is `nil` -/
  awaited : T → Option T
  isError : T → Bool
  /-- `IsUnsafeAssignment` of the returned expression: receiver and sender if it is unsafe -/
  unsafe_ : T → T → Option (T × T)

/-- The enclosing function: ts_eslint.go:564-577 `GetParentFunctionNode`, for the ancestors of a node, innermost first (`some f`: a function). -/
def parentFunction {F : Type} : List (Option F) → Option F
  | [] => none
  | some f :: _ => some f
  | none :: as => parentFunction as

/-- What the rule asks about the function. -/
structure Fn (T : Type) where
  /-- it has a return type annotation -/
  annotated : Bool
  async : Bool
  /-- the return types of the call signatures of its (contextual) type -/
  signatures : List T

/-- Lines 143-163: an annotated function that says so. -/
def sanctioned (E : Env T) (f : Fn T) (ret : T) : List T → Bool
  | [] => false
  | s :: ss =>
    if s = ret || E.anyOrUnknown s then true
    else if f.async && (E.awaited s = E.awaited ret || ((E.awaited s).map E.anyOrUnknown).getD false) then true
    else sanctioned E f ret ss

/-- Lines 168-186: the function returns `unknown`, `unknown[]` or a promise of `unknown`. -/
def accepted (E : Env T) (c : AnyClass) : List T → Bool
  | [] => false
  | s :: ss =>
    if c = .any && E.isUnknown s then true
    else if c = .anyArray && E.isUnknownArray s then true
    else if c = .promiseAny && ((E.awaited s).map E.isUnknown).getD false then true
    else accepted E c ss

inductive What
  | error
  | any
  | promiseAny
  | anyArray
deriving DecidableEq, Repr

inductive Msg (T : Type)
  | unsafe_ (this : Bool) (what : What)
  | assignment (sender receiver : T)
deriving DecidableEq

/-- Lines 192-201 -/
def what (E : Env T) (c : AnyClass) (ret : T) : What :=
  if E.isError ret then .error else if c = .any then .any else if c = .promiseAny then .promiseAny else .anyArray

/-- Lines 76-231 `checkReturn`, given the class of the returned expression's type, its constrained type and whether `this` is to blame (lines 203-210). -/
def checkReturn (E : Env T) (fn : Option (Fn T)) (c : AnyClass) (ret : T) (blamesThis : Bool) : Option (Msg T) :=
  match fn with
  | none => none
  | some f =>
    if f.annotated && sanctioned E f ret f.signatures then none
    else if c ≠ .safe then
      if accepted E c f.signatures then none
      else if c = .promiseAny && !f.async then none
      else some (.unsafe_ blamesThis (what E c ret))
    else match f.signatures with
      | [] => none
      | s :: _ => (E.unsafe_ ret s).map fun (receiver, sender) => .assignment sender receiver

/-- A signature as the label needs it: the range of its declaration's return type, if it is written in this file, and its return type. -/
structure Labelled (T : Type) where
  local_ : Option (Nat × Nat)
  ret : T

/-- Lines 113-130: the labelled range and type.  `annotation`: range and type of the function's own annotation. -/
def expectedLabel (annotation : Option ((Nat × Nat) × T)) (contextual : Bool) : List (Labelled T) → Option ((Nat × Nat) × T)
  | ls => match annotation with
    | some a => some a
    | none => if !contextual then none else
      let rec go : List (Labelled T) → Option ((Nat × Nat) × T)
        | [] => none
        | l :: ls => match l.local_ with
          | none => go ls
          | some r => some (r, l.ret)
      go ls

end Tsgolint.UnsafeReturn
