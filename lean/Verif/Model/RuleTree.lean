import Verif.Model.Visit
/-!
# What a rule sees: a tree of nodes, entered and left (/repo/internal/linter/linter.go:395-462, /repo/internal/rule/rule.go:11-31)

A rule is a set of callbacks sharing variables.  Its model is a transition function on the values of these variables; a callback may
report.  The nodes carry labels: what the rule reads from a node (its kind, its parts, what the checker says about it).
-/
namespace Tsgolint.RuleTree

/-- Syntax trees with labelled nodes. -/
inductive Tree (α : Type)
  | node (label : α) (children : List (Tree α))

/-- The callback for a kind is called on entry, the one for `ListenerOnExit(kind)` on exit (rule.go:20-22). -/
inductive Event (α : Type)
  | enter (a : α)
  | exit (a : α)

mutual
/-- linter.go:438-460 as a rule without pattern listeners sees it: enter, children in order, exit. -/
def events {α : Type} : Tree α → List (Event α)
  | .node a cs => .enter a :: (eventss cs ++ [.exit a])
/-- The children of a node, or the top-level nodes of a file. -/
def eventss {α : Type} : List (Tree α) → List (Event α)
  | [] => []
  | t :: ts => events t ++ eventss ts
end

/-- The callbacks are called one after the other; the reports are collected in order (linter.go:376-393 `runListeners`, rule.go:158-230
the `Report…` functions of the context). -/
def run {σ α ρ : Type} (step : σ → Event α → σ × List ρ) : σ → List (Event α) → σ × List ρ
  | s, [] => (s, [])
  | s, e :: es =>
    let (s, r) := step s e
    let (s, rs) := run step s es
    (s, r ++ rs)

/-! ## From the traversal of linter.go to these events -/

open Tsgolint.Visit (Node Kinds)

mutual
/-- The part of a syntax tree the traversal reaches (see Spec/Visit.lean for what it leaves out), labelled by kind and identity. -/
def reached {α : Type} (K : Kinds) (label : Nat → Nat → α) : Bool → Node → Tree α
  | _, .other k i cs => .node (label k i) (reacheds K label false cs)
  | p, .arr i cs => .node (label K.arr i) (reacheds K label p cs)
  | p, .obj i cs => .node (label K.obj i) (reacheds K label p cs)
  | p, .spread k i e => .node (label k i) [reached K label p e]
  | true, .prop i _ e => .node (label K.prop i) [reached K label true e]
  | false, .prop i ps e => .node (label K.prop i) (reacheds K label false ps ++ [reached K label false e])
  | true, .assign i ms l ty o r => .node (label K.assign i) (reacheds K label false ms ++ [reached K label false l] ++
      reacheds K label false ty ++ [reached K label false o, reached K label false r])
  | false, .assign i _ l _ o r => .node (label K.assign i) [reached K label true l, reached K label false o, reached K label false r]
/-- The same for a list of nodes. -/
def reacheds {α : Type} (K : Kinds) (label : Nat → Nat → α) : Bool → List Node → List (Tree α)
  | _, [] => []
  | p, n :: ns => reached K label p n :: reacheds K label p ns
end

/-- The call `runListeners(kind, node)` as an event: kinds below 1000 are entries, kinds from 1000 to 1999 exits, the rest are for
pattern listeners (rule.go:11-31). -/
def ofCall {α : Type} (label : Nat → Nat → α) (c : Nat × Nat) : Option (Event α) :=
  if c.1 < 1000 then some (.enter (label c.1 c.2)) else if c.1 < 2000 then some (.exit (label (c.1 - 1000) c.2)) else none

end Tsgolint.RuleTree
