import Verif.Model.MisusedPromises
import Verif.Spec.TypeGraph
/-! What no-misused-promises is about (independent of the functions of the model). -/
namespace Tsgolint.MisusedPromises
open Tsgolint.TypeGraph
variable {T : Type}

/-! ## Types -/

/-- Some call of some part of `t` returns a promise. -/
def ReturnsPromise (E : Env T) (t : T) : Prop := ∃ p, UnionPart E.then_.shape t p ∧ ∃ r ∈ E.returns p, Thenable E.then_ r

/-- Some call of `t` returns void, and none returns a promise. -/
def ReturnsVoid (E : Env T) (t : T) : Prop :=
  (∃ p, UnionPart E.then_.shape t p ∧ ∃ r ∈ E.returns p, E.isVoid r = true) ∧ ¬ ReturnsPromise E t

/-- `t` can be called. -/
def Callable (E : Env T) (t : T) : Prop := ∃ p, UnionPart E.then_.shape t p ∧ E.returns p ≠ []

/-- Every part of the type has a `then` which can be called with something callable as its first argument. -/
def AlwaysPromise (E : Env T) (t : T) : Prop :=
  ∀ p, UnionPart E.then_.shape (E.then_.apparent t) p → ∃ th, E.then_.thenOf p = some th ∧
    ∃ q, UnionPart E.then_.shape th q ∧ ∃ a, some (some a) ∈ E.firstParams q ∧ Callable E a

/-- A value of type `v` is wanted to be a `c`: a promise-returning function where a void-returning one is expected. -/
def Mismatch (E : Env T) (c v : T) : Prop := ReturnsVoid E c ∧ ReturnsPromise E (E.then_.apparent v)

/-- The annotations that may denote functions, by their syntax: not keywords, arrays, tuples, … and literals without call and construct
signatures — and, oddly, nothing in parentheses. -/
def Filtered : Annotation → Prop
  | .literal members => true ∈ members
  | .listed | .parenthesized _ | .unlisted => False
  | _ => True

/-! ## Conditions -/

/-- Without the parentheses around it. -/
def strip : Node → Node
  | .paren _ e => strip e
  | e => e

def IsAssignment : Node → Prop
  | .assign .. => True
  | _ => False

def IsLogical : Node → Prop
  | .logical .. => True
  | _ => False

def IsBinary : Node → Prop
  | .logical .. | .assign .. | .binary .. => True
  | _ => False

/-- The value of the node `x` decides about the truth of `e`: `x` is what `e` is after going through parentheses and the operands of
`&&`, `||`, `??` — all operands if `e` stands where its truth is tested, else only the left ones of `&&` and `||`.  Assignments without
parentheses are left alone. -/
inductive Judged (tested : Bool) : Node → Nat → Prop
  | self {e} : ¬ IsAssignment e → ¬ IsLogical (strip e) → Judged tested e (strip e).id
  | left {e i op l r x} : strip e = .logical i op l r → (op ≠ .coalesce ∨ tested = true) → Judged tested l x → Judged tested e x
  | right {e i op l r x} : strip e = .logical i op l r → tested = true → Judged tested r x → Judged tested e x

/-- `n` is `!c`, `c ? … : …`, `if (c)`, `while (c)`, `do … while (c)` or `for (…; c; …)`. -/
def Tests : Node → Node → Prop
  | .bang _ e, c => c = e
  | .test _ _ e _, c => c = e
  | _, _ => False

/-- The children of a node. -/
def kids : Node → List Node
  | .logical _ _ l r | .assign _ l r | .binary _ l r => [l, r]
  | .paren _ e | .bang _ e => [e]
  | .test _ before c after => before ++ c :: after
  | .other _ ks => ks

/-- `n` is `file` or somewhere in it. -/
inductive Occurs (file : Node) : Node → Prop
  | self : Occurs file file
  | kid {n k} : Occurs file n → k ∈ kids n → Occurs file k

/-- The truth of the node `x` is judged somewhere in the file. -/
def Decides (file : Node) (x : Nat) : Prop :=
  (∃ n c, Occurs file n ∧ Tests n c ∧ Judged true c x) ∨ (∃ n, Occurs file n ∧ IsBinary n ∧ Judged false n x)

mutual
/-- The identities of a tree. -/
def ids : Node → List Nat
  | .logical i _ l r => i :: (ids l ++ ids r)
  | .assign i l r => i :: (ids l ++ ids r)
  | .binary i l r => i :: (ids l ++ ids r)
  | .paren i e => i :: ids e
  | .bang i e => i :: ids e
  | .test i before c after => i :: (idsAll before ++ (ids c ++ idsAll after))
  | .other i ks => i :: idsAll ks
def idsAll : List Node → List Nat
  | [] => []
  | n :: rest => ids n ++ idsAll rest
end

/-! ## Arguments -/

section
variable [DecidableEq T]

/-- The types one parameter at position `k` offers to the argument at position `i` of `n`. -/
def offers (n i k : Nat) : Param T → List T
  | .plain t => if i = k then [t] else []
  | .restArray elem => if k ≤ i ∧ i < n then [elem] else []
  | .restTuple elems => if k ≤ i ∧ i < n then (elems[i - k]?).toList else []
  | .restOther => []

/-- The types under which an argument at position `i` is considered, in order: each type a parameter of a signature offers, each followed
by the type the checker expects at that position, if that is another one. -/
def considered (contextual : Nat → T) (n i : Nat) (signatures : List (List (Param T))) : List T :=
  signatures.flatMap fun sig => sig.zipIdx.flatMap fun pk => (offers n i pk.2 pk.1).flatMap fun t =>
    if contextual i ≠ t then [t, contextual i] else [t]
end

open Classical in
/-- How many of the types return promises. -/
noncomputable def promises (E : Env T) (ts : List T) : Nat := ts.countP fun t => decide (ReturnsPromise E t)

open Classical in
/-- How many of the types before the first that returns promises return void. -/
noncomputable def voidsBefore (E : Env T) (ts : List T) : Nat :=
  (ts.takeWhile fun t => decide (¬ ReturnsPromise E t)).countP fun t => decide (ReturnsVoid E t)

end Tsgolint.MisusedPromises
