import Verif.Model.OptionalFix

/-!
# prefer-optional-chain: what the rule remembers about nodes

Models the four caches of `chainProcessor` (`internal/rules/prefer_optional_chain/prefer_optional_chain.go` lines 716-736) and the functions that read and fill them:
`getTypeInfo` (747-806), `extractCallSignatures` (808-841), `flattenForFix` (1203-1319) and `containsOptionalChain` (1374-1423), with the writes of
`generateAndChainFixAndReport` to a slice that is in the cache (3039, 3132-3135, 3177, 3182-3187).

Nodes are addresses (`N`); `expr` gives the expression at an address and `kid` the addresses of its parts. Simplifications: a Go map that is nil is an empty
one; what the type checker says of a node (`types`) is a function of the node; a write replaces one part of a cached slice by an arbitrary one.
-/

namespace Tsgolint.OptionalMemo

open OptionalChain OptionalChain.Expr

/-- addresses of nodes: the expression there and the addresses of its first and second part -/
structure Nodes (N : Type) where
  expr : N → Expr
  kid : N → Nat → N

/-- the addresses of parts are those of the parts (the pointers of the syntax tree) -/
structure Nodes.Linked {N : Type} (T : Nodes N) : Prop where
  paren : ∀ n e, T.expr n = .paren e → T.expr (T.kid n 0) = e
  prop : ∀ n e o x, T.expr n = .prop e o x → T.expr (T.kid n 0) = e
  elem : ∀ n e o x, T.expr n = .elem e o x → T.expr (T.kid n 0) = e
  call : ∀ n e o ts xs, T.expr n = .call e o ts xs → T.expr (T.kid n 0) = e
  left : ∀ n l o t r, T.expr n = .binary l o t r → T.expr (T.kid n 0) = l
  right : ∀ n l o t r, T.expr n = .binary l o t r → T.expr (T.kid n 1) = r

/-- a cache (prefer_optional_chain.go 721-724) -/
abbrev Cache (N V : Type) := N → Option V

/-- `cache[n] = v` -/
def Cache.set {N V : Type} [DecidableEq N] (c : Cache N V) (n : N) (v : V) : Cache N V := fun m => if m = n then some v else c m

/-- the caches of `chainProcessor` (prefer_optional_chain.go 721-724) -/
structure Caches (N I : Type) where
  types : Cache N I
  flat : Cache N (List Link)
  calls : Cache N (List (Text × Text))
  optional : Cache N Bool

/-- `newChainProcessor` (prefer_optional_chain.go 727-736): nothing is remembered -/
def Caches.empty {N I : Type} : Caches N I := ⟨fun _ => none, fun _ => none, fun _ => none, fun _ => none⟩

variable {N I : Type} [DecidableEq N]

/-- `containsOptionalChain` around its second half (prefer_optional_chain.go 1374-1390): the cache is asked first, the answer is kept -/
def ask (n : N) (raw : Cache N Bool → Bool × Cache N Bool) (c : Cache N Bool) : Bool × Cache N Bool :=
  match c n with
  | some b => (b, c)
  | none =>
    let r := raw c
    (r.1, r.2.set n r.1)

/-- `containsOptionalChainUncached` (prefer_optional_chain.go 1392-1421) of the expression `e` at `n`; parentheses are skipped without asking the cache -/
def raw (T : Nodes N) : Expr → N → Cache N Bool → Bool × Cache N Bool
  | .paren e, n, c => raw T e (T.kid n 0) c
  | .prop e o _, n, c => if o then (true, c) else ask (T.kid n 0) (raw T e (T.kid n 0)) c
  | .elem e o _, n, c => if o then (true, c) else ask (T.kid n 0) (raw T e (T.kid n 0)) c
  | .call e o _ _, n, c => if o then (true, c) else ask (T.kid n 0) (raw T e (T.kid n 0)) c
  | .binary l _ _ r, n, c =>
    let a := ask (T.kid n 0) (raw T l (T.kid n 0)) c
    if a.1 then a else ask (T.kid n 1) (raw T r (T.kid n 1)) a.2
  | _, _, c => (false, c)

/-- a question about a node, or a write to the parts remembered for it -/
inductive Step (N : Type)
  | types (n : N)
  | flat (n : N)
  | calls (n : N)
  | optional (n : N)
  /-- `parts[i] = p` where `parts` is the slice of the cache (prefer_optional_chain.go 3039, 3133-3134, 3177, 3183-3185) -/
  | write (n : N) (i : Nat) (p : Link)

/-- answers -/
inductive Answer (I : Type)
  | types (info : I)
  | flat (parts : List Link)
  | calls (sigs : List (Text × Text))
  | optional (b : Bool)
  | written

/-- one call (prefer_optional_chain.go 747-806, 808-841, 1203-1319, 1374-1390) or one write -/
def step (T : Nodes N) (info : N → I) (s : Caches N I) : Step N → Answer I × Caches N I
  | .types n =>
    match s.types n with
    | some v => (.types v, s)
    | none => (.types (info n), { s with types := s.types.set n (info n) })
  | .flat n =>
    match s.flat n with
    | some v => (.flat v, s)
    | none => (.flat (OptionalChain.flat false (T.expr n)), { s with flat := s.flat.set n (OptionalChain.flat false (T.expr n)) })
  | .calls n =>
    match s.calls n with
    | some v => (.calls v, s)
    | none => (.calls (signatures (T.expr n)), { s with calls := s.calls.set n (signatures (T.expr n)) })
  | .optional n =>
    let r := ask n (raw T (T.expr n) n) s.optional
    (.optional r.1, { s with optional := r.2 })
  | .write n i p =>
    match s.flat n with
    | some v => (.written, { s with flat := s.flat.set n (v.set i p) })
    | none => (.written, s)

/-- a history of the processor of one file -/
def history (T : Nodes N) (info : N → I) : Caches N I → List (Step N) → List (Answer I)
  | _, [] => []
  | s, x :: xs => let r := step T info s x; r.1 :: history T info r.2 xs

end Tsgolint.OptionalMemo
