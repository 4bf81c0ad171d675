import Verif.Model.Visit
/-! # What a traversal should be -/
namespace Tsgolint.Visit

/-- Children as `ForEachChild` gives them. -/
def Node.children : Node → List Node
  | .other _ _ cs => cs
  | .arr _ cs => cs
  | .obj _ cs => cs
  | .spread _ _ e => [e]
  | .prop _ ps e => ps ++ [e]
  | .assign _ ms l ty o r => ms ++ [l] ++ ty ++ [o, r]

/-- `m` is `n` or a descendant of `n`. -/
inductive Inside : Node → Node → Prop
  | self (n) : Inside n n
  | child {n c m} : c ∈ n.children → Inside c m → Inside n m

mutual
/-- Ids of a node and all its descendants, in document order. -/
def ids : Node → List Nat
  | .other _ i cs => i :: idss cs
  | .arr i cs => i :: idss cs
  | .obj i cs => i :: idss cs
  | .spread _ i e => i :: ids e
  | .prop i ps e => i :: (idss ps ++ ids e)
  | .assign i ms l ty o r => i :: (idss ms ++ ids l ++ idss ty ++ ids o ++ ids r)
/-- The same for a list of nodes. -/
def idss : List Node → List Nat
  | [] => []
  | n :: ns => ids n ++ idss ns
end

/-- Node `m` is reached from `n`; the flags say whether the node stands in an assignment pattern.
In a pattern, array and object literals, spreads and the values of property assignments pass the pattern on; the left side of an
assignment (outside patterns) starts one; the names of property assignments of a pattern and the JSDoc parts of an assignment are
not reached. -/
inductive Reach : Bool → Node → Bool → Node → Prop
  | self (p n) : Reach p n p n
  | arr {i cs c q m} : c ∈ cs → Reach true c q m → Reach true (.arr i cs) q m
  | obj {i cs c q m} : c ∈ cs → Reach true c q m → Reach true (.obj i cs) q m
  | spread {k i e q m} : Reach true e q m → Reach true (.spread k i e) q m
  | value {i ps e q m} : Reach true e q m → Reach true (.prop i ps e) q m
  | left {i ms l ty o r q m} : Reach true l q m → Reach false (.assign i ms l ty o r) q m
  | operator {i ms l ty o r q m} : Reach false o q m → Reach false (.assign i ms l ty o r) q m
  | right {i ms l ty o r q m} : Reach false r q m → Reach false (.assign i ms l ty o r) q m
  | inPatternOther {k i cs c q m} : c ∈ cs → Reach false c q m → Reach true (.other k i cs) q m
  | inPatternAssign {i ms l ty o r c q m} : c ∈ (Node.assign i ms l ty o r).children → Reach false c q m →
      Reach true (.assign i ms l ty o r) q m
  | plain {n c q m} : (∀ i ms l ty o r, n ≠ .assign i ms l ty o r) → c ∈ n.children → Reach false c q m → Reach false n q m

mutual
/-- The maximal subtrees the traversal leaves out: everything in a property assignment of a pattern except the initializer — its
name —, and JSDoc modifiers and types of an assignment. -/
def skipped : Bool → Node → List Node
  | true, .other _ _ cs => skippeds false cs
  | true, .arr _ cs => skippeds true cs
  | true, .obj _ cs => skippeds true cs
  | true, .spread _ _ e => skipped true e
  | true, .prop _ ps e => ps ++ skipped true e
  | true, .assign _ ms l ty o r => skippeds false ms ++ skipped false l ++ skippeds false ty ++ skipped false o ++ skipped false r
  | false, .other _ _ cs => skippeds false cs
  | false, .arr _ cs => skippeds false cs
  | false, .obj _ cs => skippeds false cs
  | false, .spread _ _ e => skipped false e
  | false, .prop _ ps e => skippeds false ps ++ skipped false e
  | false, .assign _ ms l ty o r => ms ++ skipped true l ++ ty ++ skipped false o ++ skipped false r
/-- The same for a list of nodes. -/
def skippeds : Bool → List Node → List Node
  | _, [] => []
  | p, n :: ns => skipped p n ++ skippeds p ns
end

/-- Properly nested event sequences: each opening event has its own exit event after it, and what lies between is properly nested. -/
inductive Nested : List Ev → Prop
  | nil : Nested []
  | append {a b} : Nested a → Nested b → Nested (a ++ b)
  | wrap {a} (k : Nat) (i : Nat) : Nested a → Nested ((k, i) :: (a ++ [(onExit k, i)]))

mutual
/-- All kinds in the tree are genuine syntax kinds. -/
def KindsOk : Node → Prop
  | .other k _ cs => k < 1000 ∧ KindsOks cs
  | .arr _ cs => KindsOks cs
  | .obj _ cs => KindsOks cs
  | .spread k _ e => k < 1000 ∧ KindsOk e
  | .prop _ ps e => KindsOks ps ∧ KindsOk e
  | .assign _ ms l ty o r => KindsOks ms ∧ KindsOk l ∧ KindsOks ty ∧ KindsOk o ∧ KindsOk r
/-- The same for a list of nodes. -/
def KindsOks : List Node → Prop
  | [] => True
  | n :: ns => KindsOk n ∧ KindsOks ns
end

/-- The tested kinds are syntax kinds. -/
structure Kinds.Ok (K : Kinds) : Prop where
  arr : K.arr < 1000
  obj : K.obj < 1000
  prop : K.prop < 1000
  assign : K.assign < 1000

/-- Array or object literal? -/
def Node.isLiteral : Node → Bool
  | .arr .. => true
  | .obj .. => true
  | _ => false

/-- All events a reached node should get, in order: enter and exit of its own kind; between them, in a pattern, enter and exit of
the allow-pattern kind, and outside patterns for array and object literals enter and exit of the not-allow-pattern kind. -/
def expected (K : Kinds) (inPattern : Bool) (n : Node) : List Ev :=
  let k := n.kind K
  if inPattern then [(k, n.id), (onAllowPattern k, n.id), (onExit (onAllowPattern k), n.id), (onExit k, n.id)]
  else if n.isLiteral then [(k, n.id), (onNotAllowPattern k, n.id), (onExit (onNotAllowPattern k), n.id), (onExit k, n.id)]
  else [(k, n.id), (onExit k, n.id)]

/-- Ids of the nodes entered, in order. -/
def entered (evs : List Ev) : List Nat := (evs.filter fun e => e.1 < 1000).map (·.2)

/-- Ids of the nodes left, in order. -/
def exited (evs : List Ev) : List Nat := (evs.filter fun e => 1000 ≤ e.1 ∧ e.1 < 2000).map (·.2)

end Tsgolint.Visit
