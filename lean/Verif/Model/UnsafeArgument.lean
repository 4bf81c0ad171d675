/-!
# Model of no-unsafe-argument (/repo/internal/rules/no_unsafe_argument/no_unsafe_argument.go)

Types are the compiler's (`T`); `IsUnsafeAssignment` is modelled in `TypeGraph`.
-/
namespace Tsgolint.UnsafeArgument
variable {T : Type}

/-- The type of a rest parameter, lines 107-126 `getRestType`. -/
inductive Rest (T : Type)
  | array (element : T)
  | tuple (elements : List T)
  | other (t : T)

/-- A parameter of the resolved signature; `rest`: its declaration has `...`, with its type. -/
inductive Param (T : Type)
  | normal (t : T)
  | rest (r : Rest T)

/-- `functionSignature`, lines 83-95, without the caches. -/
structure Sig (T : Type) where
  params : List T
  rest : Option (Rest T)

/-- Lines 64-73 of `newFunctionSignature`: the parameters before the first rest parameter, and that one. -/
def splitParams : List (Param T) → Sig T
  | [] => ⟨[], none⟩
  | .rest r :: _ => ⟨[], some r⟩
  | .normal t :: ps => let s := splitParams ps; ⟨t :: s.params, s.rest⟩

/-- `parameterTypeIndex` and `hasConsumedArguments`. -/
structure Cursor where
  index : Nat
  consumed : Bool
deriving DecidableEq, Repr

/-- Lines 99-104. -/
def Cursor.consume (c : Cursor) : Cursor := { c with consumed := true }
def Cursor.skip (c : Cursor) : Cursor := { c with index := c.index + 1 }

/-- Lines 128-163 `getNextParameterType`; the outer `none` is an index out of range. -/
def parameterType (s : Sig T) (c : Cursor) : Option (Option T) :=
  if c.index ≥ s.params.length ∨ c.consumed then
    match s.rest with
    | none => some none
    | some (.array e) => some (some e)
    | some (.other t) => some (some t)
    | some (.tuple ts) =>
      if ts.length = 0 then some none
      else if c.consumed then (ts[ts.length - 1]?).map some
      else if c.index - s.params.length ≥ ts.length then (ts[ts.length - 1]?).map some
      else (ts[c.index - s.params.length]?).map some
  else (s.params[c.index]?).map some

/-- An argument.  `canBeUnsafe`: lines 165-196 `argumentCanBeUnsafe` (a question of its syntax). -/
inductive Arg (T : Type)
  | plain (id : Nat) (canBeUnsafe : Bool) (t : T)
  /-- `...x` with `x` of type `any` -/
  | spreadAny (id : Nat) (t : T)
  /-- … of type `any[]` -/
  | spreadAnyArray (id : Nat) (t : T)
  /-- … of a tuple type; `variable_`: it has a rest element -/
  | spreadTuple (id : Nat) (elements : List T) (variable_ : Bool)
  /-- … of any other type -/
  | spreadOther (id : Nat) (t : T)

def Arg.id : Arg T → Nat
  | .plain i .. => i
  | .spreadAny i _ => i
  | .spreadAnyArray i _ => i
  | .spreadTuple i _ _ => i
  | .spreadOther i _ => i

/-- Spread elements are no literals, so their type may be unsafe (line 194). -/
def Arg.canBeUnsafe : Arg T → Bool
  | .plain _ b _ => b
  | _ => true

inductive Msg (T : Type)
  | argument (sender receiver : T)
  | spread (t : T)
  | arraySpread (t : T)
  | tupleSpread (sender receiver : T)
deriving DecidableEq

structure Report (T : Type) where
  id : Nat
  msg : Msg T
deriving DecidableEq

/-- `IsUnsafeAssignment` for a sender (with its node, if there is one) and a receiver. -/
abbrev Unsafe (T : Type) := Option Nat → T → T → Bool

/-- The loop of lines 262-281. -/
def tupleLoop (u : Unsafe T) (s : Sig T) (id : Nat) : Cursor → List T → Option (List (Report T) × Cursor)
  | c, [] => some ([], c)
  | c, t :: ts => (parameterType s c).bind fun p =>
      (tupleLoop u s id c.skip ts).map fun (rs, c') => match p with
        | none => (rs, c')
        | some p => (if u none t p then (⟨id, .tupleSpread t p⟩ :: rs, c') else (rs, c'))

/-- The loop of lines 246-315. -/
def argLoop (u : Unsafe T) (s : Sig T) : Cursor → List (Arg T) → Option (List (Report T))
  | _, [] => some []
  | c, .spreadAny id t :: as => (argLoop u s c as).map (⟨id, .spread t⟩ :: ·)
  | c, .spreadAnyArray id t :: as => (argLoop u s c as).map (⟨id, .arraySpread t⟩ :: ·)
  | c, .spreadTuple id ts variable_ :: as => (tupleLoop u s id c ts).bind fun (rs, c') =>
      (argLoop u s (if variable_ then c'.consume else c') as).map (rs ++ ·)
  | c, .spreadOther _ _ :: as => argLoop u s c as
  | c, .plain id can t :: as =>
    if !can then argLoop u s c.skip as
    else (parameterType s c).bind fun p => (argLoop u s c.skip as).map fun rs => match p with
      | none => rs
      | some p => if u (some id) t p then ⟨id, .argument t p⟩ :: rs else rs

/-- Lines 222-316 `checkUnsafeArguments`; `sig` is the resolved signature, `none` (of the result) a panic (line 240 or an index out of range). -/
def checkArguments (u : Unsafe T) (tagged calleeAny : Bool) (sig : Option (List (Param T))) (args : List (Arg T)) : Option (List (Report T)) :=
  if !args.any Arg.canBeUnsafe then some []
  else if calleeAny then some []
  else match sig with
    | none => none
    | some ps => argLoop u (splitParams ps) (if tagged then ⟨1, false⟩ else ⟨0, false⟩) args

end Tsgolint.UnsafeArgument
