/-!
# Model of `visitLintNodes` (/repo/internal/linter/linter.go:395-462) and of the listener kinds (/repo/internal/rule/rule.go:11-31)

An `ast.Kind` is a natural number.
-/
namespace Tsgolint.Visit


/-- rule.go:20-22 `ListenerOnExit` -/
def onExit (k : Nat) : Nat := k + 1000
/-- rule.go:25-27 `ListenerOnAllowPattern` (adds `lastOnExitTokenKind`, rule.go:13) -/
def onAllowPattern (k : Nat) : Nat := k + 2000
/-- rule.go:28-30 `ListenerOnNotAllowPattern` (adds `lastOnAllowPatternOnExitTokenKind`, rule.go:15) -/
def onNotAllowPattern (k : Nat) : Nat := k + 4000

/-- A syntax node as far as the traversal distinguishes them; `id` stands for the pointer.
`prop`: a property assignment, children in `ForEachChild` order: modifiers, name, postfix token, type, then the initializer.
`assign`: a binary expression for which `ast.IsAssignmentExpression(node, true)` holds, children in `ForEachChild` order: modifiers,
left, type, operator token, right (`mods` and `ty` come only from JSDoc). -/
inductive Node
  | other (kind : Nat) (id : Nat) (children : List Node)
  | arr (id : Nat) (elements : List Node)
  | obj (id : Nat) (properties : List Node)
  | spread (kind : Nat) (id : Nat) (expression : Node)
  | prop (id : Nat) (before : List Node) (initializer : Node)
  | assign (id : Nat) (mods : List Node) (left : Node) (ty : List Node) (op right : Node)

/-- The values of the kinds the traversal tests for; the spread kind is stored in the node (two kinds share the case). -/
structure Kinds where
  arr : Nat
  obj : Nat
  prop : Nat
  assign : Nat

def Node.kind (K : Kinds) : Node → Nat
  | .other k _ _ => k
  | .arr .. => K.arr
  | .obj .. => K.obj
  | .spread k _ _ => k
  | .prop .. => K.prop
  | .assign .. => K.assign

def Node.id : Node → Nat
  | .other _ i _ => i
  | .arr i _ => i
  | .obj i _ => i
  | .spread _ i _ => i
  | .prop i _ _ => i
  | .assign i .. => i

/-- A call `runListeners(kind, node)`. -/
abbrev Ev := Nat × Nat

mutual
/-- linter.go:412-437 (`patternVisitor`, first argument true) and linter.go:438-460 (`childVisitor`, false): the calls of
`runListeners` made for a node. -/
def visit (K : Kinds) : Bool → Node → List Ev
  -- patternVisitor: enter 413, allow-pattern 414-415, the switch 417-432, exits 434-435
  | true, .other k i cs => (k, i) :: (onAllowPattern k, i) :: (visits K false cs ++ [(onExit (onAllowPattern k), i), (onExit k, i)])
  | true, .arr i cs => (K.arr, i) :: (onAllowPattern K.arr, i) :: (visits K true cs ++
      [(onExit (onAllowPattern K.arr), i), (onExit K.arr, i)])
  | true, .obj i cs => (K.obj, i) :: (onAllowPattern K.obj, i) :: (visits K true cs ++
      [(onExit (onAllowPattern K.obj), i), (onExit K.obj, i)])
  | true, .spread k i e => (k, i) :: (onAllowPattern k, i) :: (visit K true e ++ [(onExit (onAllowPattern k), i), (onExit k, i)])
  | true, .prop i _ e => (K.prop, i) :: (onAllowPattern K.prop, i) :: (visit K true e ++
      [(onExit (onAllowPattern K.prop), i), (onExit K.prop, i)])
  | true, .assign i ms l ty o r => (K.assign, i) :: (onAllowPattern K.assign, i) ::
      (visits K false ms ++ visit K false l ++ visits K false ty ++ visit K false o ++ visit K false r ++
        [(onExit (onAllowPattern K.assign), i), (onExit K.assign, i)])
  -- childVisitor: enter 439, literals 442-446, assignments 448-452, others 453-455, exit 457
  | false, .other k i cs => (k, i) :: (visits K false cs ++ [(onExit k, i)])
  | false, .arr i cs => (K.arr, i) :: (onNotAllowPattern K.arr, i) :: (visits K false cs ++
      [(onExit (onNotAllowPattern K.arr), i), (onExit K.arr, i)])
  | false, .obj i cs => (K.obj, i) :: (onNotAllowPattern K.obj, i) :: (visits K false cs ++
      [(onExit (onNotAllowPattern K.obj), i), (onExit K.obj, i)])
  | false, .spread k i e => (k, i) :: (visit K false e ++ [(onExit k, i)])
  | false, .prop i ps e => (K.prop, i) :: (visits K false ps ++ visit K false e ++ [(onExit K.prop, i)])
  | false, .assign i _ l _ o r => (K.assign, i) :: (visit K true l ++ visit K false o ++ visit K false r ++ [(onExit K.assign, i)])
/-- The loops over children (linter.go:419-421, 423-425) and `ForEachChild` (431, 444, 454). -/
def visits (K : Kinds) : Bool → List Node → List Ev
  | _, [] => []
  | p, n :: ns => visit K p n ++ visits K p ns
end

/-- linter.go:461: the children of the source file node. -/
def visitFile (K : Kinds) (topLevel : List Node) : List Ev := visits K false topLevel

end Tsgolint.Visit
