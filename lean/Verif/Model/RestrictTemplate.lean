import Verif.Model.Switch
/-!
# Model of restrict-template-expressions
(/repo/internal/rules/restrict_template_expressions/restrict_template_expressions.go)

Types are elements of an arbitrary type `T`; array types may contain themselves (`type A = A[]`), so the recursion takes fuel.
-/
namespace Tsgolint.RestrictTemplate
open Tsgolint.TypeGraph Tsgolint.Switch
variable {T : Type} [DecidableEq T]

/-- options.go (defaults: any, boolean, nullish, number, RegExp allowed) -/
structure Opts where
  allowAny : Bool := true
  allowArray : Bool := false
  allowBoolean : Bool := true
  allowNever : Bool := false
  allowNullish : Bool := true
  allowNumber : Bool := true
  allowRegExp : Bool := true
deriving Repr

/-- The groups of type flags the rule distinguishes. -/
inductive Flag | stringLike | any | booleanLike | nullable | numberLike | bigIntLike | never
deriving DecidableEq, Repr

/-- What the rule asks the compiler. -/
structure Env (T : Type) where
  shape : T → Shape T
  /-- `IsTypeFlagSet` -/
  has : T → Flag → Bool
  /-- the type or a base type matches the option `allow` (C26, C27, C51) -/
  listed : T → Bool
  /-- `Checker_isArrayOrTupleType` -/
  isArray : T → Bool
  /-- `GetNumberIndexType`, for arrays and tuples -/
  element : T → T
  /-- `Checker_globalRegExpType` -/
  regexp : T

/-- Lines 33-49. -/
def allowedFlags (o : Opts) : List Flag :=
  [.stringLike] ++ (if o.allowAny then [.any] else []) ++ (if o.allowBoolean then [.booleanLike] else []) ++
    (if o.allowNullish then [.nullable] else []) ++ (if o.allowNumber then [.numberLike, .bigIntLike] else []) ++
    (if o.allowNever then [.never] else [])

/-- Lines 57-62, for one part of an intersection; `rec_` is `isTypeAllowed`. -/
def partAllowed (E : Env T) (o : Opts) (rec_ : T → Option Bool) (t : T) (_ : Unit) : Option (Bool × Unit) :=
  if (allowedFlags o).any (E.has t) then some (true, ())
  else if E.listed t then some (true, ())
  else if o.allowArray && E.isArray t then
    match rec_ (E.element t) with
    | none => none
    | some true => some (true, ())
    | some false => some (o.allowRegExp && decide (t = E.regexp), ())
  else some (o.allowRegExp && decide (t = E.regexp), ())

/-- `isTypeAllowed`, lines 53-65. -/
def isTypeAllowed (E : Env T) (o : Opts) : Nat → T → Option Bool
  | 0, _ => none
  | n + 1, t => (everyLoop (fun p u => someLoop (partAllowed E o (isTypeAllowed E o n)) (intersectionParts E.shape p) u)
      (unionParts E.shape t) ()).map (·.1)

/-- The loop over the spans, lines 74-87: the indices of the expressions reported. -/
def reportSpans (E : Env T) (o : Opts) (fuel : Nat) : List T → Nat → Option (List Nat)
  | [], _ => some []
  | t :: ts, i =>
    match isTypeAllowed E o fuel t with
    | none => none
    | some b => (reportSpans E o fuel ts (i + 1)).map fun r => if b then r else i :: r

/-- The listener, lines 68-89. -/
def report (E : Env T) (o : Opts) (fuel : Nat) (tagged : Bool) (spans : List T) : Option (List Nat) :=
  if tagged then some [] else reportSpans E o fuel spans 0

end Tsgolint.RestrictTemplate
