/-!
# Model of the recursive type helpers (/repo/internal/utils/ts_eslint.go, ts_api_utils.go, builtin_symbol_likes.go, base_type_utils.go,
utils.go)

Types of typescript-go are the elements of an arbitrary type `T` (a pointer is an element); what the helpers read from a type is a
function on `T`.  The graph may be cyclic and even infinite, so recursive helpers take an amount of fuel and answer `none` when it is
used up; a helper terminates if some amount of fuel is enough.
-/
namespace Tsgolint.TypeGraph

/-- What the flags of a type say, as far as the helpers distinguish types (the flags tested are exclusive in typescript-go:
`TypeFlagsAny`, `Unknown`, `Union`, `Intersection`, `TypeParameter`, `Object` with a non-deferred reference). -/
inductive Shape (T : Type)
  | any
  | unknown
  | union (parts : List T)
  | intersection (parts : List T)
  /-- a type parameter with its base constraint (`nil` if unconstrained) -/
  | param (constraint : Option T)
  /-- `checker.IsNonDeferredTypeReference(t)`: `t.Target()` and `Checker_getTypeArguments` (`none` is nil) -/
  | ref (target : T) (args : Option (List T))
  | other

/-! ## Unsafe assignment (ts_eslint.go:282-397) -/

/-- The result of the check. -/
inductive Outcome (T : Type)
  | safe
  /-- the receiver and the sender returned -/
  | bad (receiver sender : T)
  /-- index out of range in `receiverTypeArguments[i]` -/
  | panic

/-- `map[*checker.Type]*Set[*checker.Type]` -/
abbrev Visited (T : Type) := T → Option (List T)

variable {T : Type} [DecidableEq T]

/-- The loop over the type arguments (ts_eslint.go:379-388); `none` for out of fuel. -/
def argsLoop (f : Visited T → T → T → Option (Outcome T × Visited T)) (t receiver : T) :
    List T → List T → Visited T → Option (Outcome T × Visited T)
  | [], _, v => some (.safe, v)
  | _ :: _, [], v => some (.panic, v)
  | a :: as, r :: rs, v => match f v a r with
    | none => none
    | some (.safe, v) => argsLoop f t receiver as rs v
    | some (.bad _ _, v) => some (.bad receiver t, v)
    | some (.panic, v) => some (.panic, v)

/-- ts_eslint.go:308-317: the exits before the visited map is looked at. -/
def earlyExit (shape : T → Shape T) (t receiver : T) : Option (Outcome T) :=
  match shape t, shape receiver with
  | .any, .unknown => some .safe
  | .any, .any => none
  | .any, _ => some (.bad receiver t)
  | _, _ => none

/-- ts_eslint.go:319-322: `visited[t]` has the receiver. -/
def isSeen (v : Visited T) (t receiver : T) : Bool :=
  match v t with
  | some l => l.contains receiver
  | none => false

/-- ts_eslint.go:325-328: add the receiver to `visited[t]`. -/
def addSeen (v : Visited T) (t receiver : T) : Visited T := fun x => if x = t then some (match v t with
  | some l => l ++ [receiver]
  | none => [receiver]) else v x

/-- ts_eslint.go:301-397 `isUnsafeAssignmentWorker`; `newMap` is the test of lines 362-367 for the sender node `new Map()`. -/
def unsafeWorker (shape : T → Shape T) (newMap : Bool) : Nat → Visited T → T → T → Option (Outcome T × Visited T)
  | 0, _, _, _ => none
  | n + 1, visited, t, receiver =>
    match earlyExit shape t receiver with
    | some o => some (o, visited)
    | none =>
      -- 319-328
      if isSeen visited t receiver then some (.safe, visited)
      else
        let visited := addSeen visited t receiver
        -- 330-396
        match shape t, shape receiver with
        | .ref target args, .ref target' args' =>
          if target ≠ target' then some (.safe, visited)
          else if newMap then some (.safe, visited)
          else match args, args' with
            | some as, some rs => argsLoop (unsafeWorker shape newMap n) t receiver as rs visited
            | _, _ => some (.safe, visited)
        | _, _ => some (.safe, visited)

/-- ts_eslint.go:284-299 `IsUnsafeAssignment`. -/
def isUnsafeAssignment (shape : T → Shape T) (newMap : Bool) (fuel : Nat) (t receiver : T) : Option (Outcome T) :=
  (unsafeWorker shape newMap fuel (fun _ => none) t receiver).map (·.1)

/-! ## TypeRecurser (utils.go:48-60) -/

/-- The loop of `TypeRecurser` over the parts; the predicate may have a state `σ`. -/
def someLoop {σ : Type} (f : T → σ → Option (Bool × σ)) : List T → σ → Option (Bool × σ)
  | [], s => some (false, s)
  | p :: ps, s => match f p s with
    | none => none
    | some (true, s) => some (true, s)
    | some (false, s) => someLoop f ps s

/-- `Every` over the parts. -/
def everyLoop {σ : Type} (f : T → σ → Option (Bool × σ)) : List T → σ → Option (Bool × σ)
  | [], s => some (true, s)
  | p :: ps, s => match f p s with
    | none => none
    | some (false, s) => some (false, s)
    | some (true, s) => everyLoop f ps s

/-- utils.go:48-60 `TypeRecurser`. -/
def typeRecurser {σ : Type} (shape : T → Shape T) (predicate : T → σ → Option (Bool × σ)) : Nat → T → σ → Option (Bool × σ)
  | 0, _, _ => none
  | n + 1, t, s => match shape t with
    | .union ps => someLoop (typeRecurser shape predicate n) ps s
    | .intersection ps => someLoop (typeRecurser shape predicate n) ps s
    | _ => predicate t s

/-! ## Discriminating any (ts_eslint.go:498-548) -/

/-- ts_eslint.go:484-489 -/
inductive AnyClass | any | promiseAny | anyArray | safe
deriving DecidableEq, Repr

/-- What `discriminateAnyTypeWorker` asks the checker. -/
structure AnyEnv (T : Type) where
  shape : T → Shape T
  /-- `IsTypeAnyArrayType` (ts_eslint.go:262-268) -/
  isAnyArray : T → Bool
  /-- `IsThenableType` -/
  isThenable : T → Bool
  /-- `Checker_getAwaitedType` -/
  awaited : T → Option T

/-- ts_eslint.go:528-541: the predicate given to `TypeRecurser`; `worker` is the recursive call. -/
def awaitsAny (E : AnyEnv T) (worker : T → List T → Option (AnyClass × List T)) (t : T) (visited : List T) : Option (Bool × List T) :=
  if E.isThenable t = false then some (false, visited)
  else match E.awaited t with
    | none => some (false, visited)
    | some a => match worker a visited with
      | none => none
      | some (c, visited) => some (decide (c = .any), visited)

/-- ts_eslint.go:507-548 `discriminateAnyTypeWorker` with the set of visited types as its state. -/
def discriminateWorker (E : AnyEnv T) : Nat → T → List T → Option (AnyClass × List T)
  | 0, _, _ => none
  | n + 1, t, visited =>
    if visited.contains t then some (.safe, visited)
    else
      let visited := visited ++ [t]
      match E.shape t with
      | .any => some (.any, visited)
      | _ =>
        if E.isAnyArray t then some (.anyArray, visited)
        else
          match typeRecurser E.shape (awaitsAny E (discriminateWorker E n)) n t visited with
          | none => none
          | some (true, visited) => some (.promiseAny, visited)
          | some (false, visited) => some (.safe, visited)

/-- ts_eslint.go:498-505 `DiscriminateAnyType`. -/
def discriminateAnyType (E : AnyEnv T) (fuel : Nat) (t : T) : Option AnyClass := (discriminateWorker E fuel t []).map (·.1)

/-! ## Builtin symbols (builtin_symbol_likes.go:152-267) -/

/-- builtin_symbol_likes.go:152-158 -/
inductive Matches | unknown | no | yes
deriving DecidableEq, Repr

/-- What the recursion reads: the base types of the declared type of a class or interface symbol (`none` if the type has no such
symbol), builtin_symbol_likes.go:256-258. -/
structure BaseEnv (T : Type) where
  shape : T → Shape T
  bases : T → Option (List T)

/-- builtin_symbol_likes.go:218-267 `IsBuiltinSymbolLikeRecurser`. -/
def builtinRecurser (E : BaseEnv T) (predicate : T → Matches) : Nat → T → Option Bool
  | 0, _ => none
  | n + 1, t =>
    let f := fun t (_ : Unit) => (builtinRecurser E predicate n t).map fun b => (b, ())
    match E.shape t with
    | .intersection ps => (someLoop f ps ()).map (·.1)
    | .union ps => (everyLoop f ps ()).map (·.1)
    | .param (some c) => builtinRecurser E predicate n c
    | .param none => some false
    | _ => match predicate t with
      | .yes => some true
      | .no => some false
      | .unknown => match E.bases t with
        | some bs => (someLoop f bs ()).map (·.1)
        | none => some false

/-- A symbol as far as the predicates look at it. -/
structure Symbol where
  name : String
  /-- `IsSymbolFromDefaultLibrary` (builtin_symbol_likes.go:53-70): for each declaration, whether its file is a default library -/
  inLib : List Bool
deriving DecidableEq

/-- builtin_symbol_likes.go:53-70 `IsSymbolFromDefaultLibrary`. -/
def Symbol.fromLib (s : Symbol) : Bool := s.inLib.any id

/-- builtin_symbol_likes.go:186-198: the predicate of `IsBuiltinSymbolLike`. -/
def symbolPredicate (symbol : T → Option Symbol) (names : List String) (t : T) : Matches :=
  match symbol t with
  | none => .no
  | some s => if names.any (fun n => s.name == n) && s.fromLib then .yes else .unknown

/-- builtin_symbol_likes.go:206-216: the predicate of `IsAnyBuiltinSymbolLike`. -/
def anySymbolPredicate (symbol : T → Option Symbol) (t : T) : Matches :=
  match symbol t with
  | none => .no
  | some s => if s.fromLib then .yes else .unknown

/-- builtin_symbol_likes.go:180-199 `IsBuiltinSymbolLike`. -/
def isBuiltinSymbolLike (E : BaseEnv T) (symbol : T → Option Symbol) (names : List String) (fuel : Nat) (t : T) : Option Bool :=
  builtinRecurser E (symbolPredicate symbol names) fuel t

/-- builtin_symbol_likes.go:201-217 `IsAnyBuiltinSymbolLike`. -/
def isAnyBuiltinSymbolLike (E : BaseEnv T) (symbol : T → Option Symbol) (fuel : Nat) (t : T) : Option Bool :=
  builtinRecurser E (anySymbolPredicate symbol) fuel t

/-- base_type_utils.go:7-30 `MatchesTypeOrBaseType`; `bases t` are the base types of the target if `t` is an object type whose target is
a class or interface, else none. -/
def matchesTypeOrBase (bases : T → List T) (predicate : T → Bool) : Nat → T → Option Bool
  | 0, _ => none
  | n + 1, t =>
    if predicate t then some true
    else (someLoop (fun t (_ : Unit) => (matchesTypeOrBase bases predicate n t).map fun b => (b, ())) (bases t) ()).map (·.1)

/-! ## Names and signatures -/

/-- What `GetTypeName` asks. -/
structure NameEnv (T : Type) where
  shape : T → Shape T
  /-- `TypeFlagsStringLike` -/
  stringLike : T → Bool
  /-- the type of the constraint node of the first declaration of a type parameter (ts_eslint.go:113-125) -/
  declaredConstraint : T → Option T
  toString : T → String

/-- ts_eslint.go:97-146 `GetTypeName`. -/
def getTypeName (E : NameEnv T) : Nat → T → Option String
  | 0, _ => none
  | n + 1, t =>
    let isStr := fun t (_ : Unit) => (getTypeName E n t).map fun s => (decide (s = "string"), ())
    if E.stringLike t then some "string"
    else match E.shape t with
      | .param _ => match E.declaredConstraint t with
        | some c => getTypeName E n c
        | none => some (E.toString t)
      | .union ps => (everyLoop isStr ps ()).map fun r => if r.1 then "string" else E.toString t
      | .intersection ps => (someLoop isStr ps ()).map fun r => if r.1 then "string" else E.toString t
      | _ => some (E.toString t)

/-- ts_api_utils.go:88-116, the loop for intersections: `found` is `signatures` (`none`: nil). -/
def intersectionSignatures {S : Type} (sigs : T → List S) : List T → Option (List S) → List S
  | [], found => found.getD []
  | p :: ps, found =>
    if (sigs p).length ≠ 0 then match found with
      | some _ => []
      | none => intersectionSignatures sigs ps (some (sigs p))
    else intersectionSignatures sigs ps found

/-- ts_api_utils.go:88-116 `CollectAllCallSignatures`. -/
def collectSignatures {S : Type} (shape : T → Shape T) (sigs : T → List S) (t : T) : List S :=
  match shape t with
  | .union ps => ps.foldl (fun acc p => acc ++ sigs p) []
  | .intersection ps => intersectionSignatures sigs ps none
  | _ => sigs t

/-! ## Thenables and awaiting -/

/-- ts_api_utils.go:11-16 `UnionTypeParts`. -/
def unionParts (shape : T → Shape T) (t : T) : List T :=
  match shape t with
  | .union ps => ps
  | _ => [t]

/-- What the thenable check asks. -/
structure ThenEnv (T : Type) where
  shape : T → Shape T
  /-- `getApparentType` -/
  apparent : T → T
  /-- the type of the property "then", if there is one -/
  thenOf : T → Option T
  /-- the call signatures: the (apparent) type of the first parameter if there is one; for a rest parameter its number index type
  (`none` if that is nil), ts_api_utils.go:126-133 -/
  calls : T → List (Option (Option T))

/-- ts_api_utils.go:121-143 `IsCallback`, given the type found in 126-133. -/
def isCallback (E : ThenEnv T) (param : Option T) : Bool :=
  match param with
  | none => false
  | some t => (unionParts E.shape t).any fun s => decide ((E.calls s).length ≠ 0)

/-- ts_api_utils.go:146-171 `IsThenableType`. -/
def isThenable (E : ThenEnv T) (t : T) : Bool :=
  (unionParts E.shape (E.apparent t)).any fun part => match E.thenOf part with
    | none => false
    | some then_ => (unionParts E.shape then_).any fun sub => (E.calls sub).any fun sig => match sig with
      | none => false
      | some p => isCallback E p

/-- ts_eslint.go:48-54 -/
inductive Awaitable | always | never | may
deriving DecidableEq, Repr

/-- ts_eslint.go:56-82 `NeedsToBeAwaited` with `GetConstraintInfo` (38-46).  `thenable none` is what `IsThenableType` says for the type at
the node (its `nil` case); it cannot occur. -/
def needsToBeAwaited (shape : T → Shape T) (thenable : T → Bool) (t : T) : Awaitable :=
  let check := fun c => match shape c with
    | .any => Awaitable.may
    | .unknown => .may
    | _ => if thenable c then .always else .never
  match shape t with
  | .param none => .may
  | .param (some c) => check c
  | _ => check t

end Tsgolint.TypeGraph
