/-!
# Model of the places no-duplicate-type-constituents looks at
(/repo/internal/rules/no_duplicate_type_constituents/no_duplicate_type_constituents.go)

The listeners (lines 273-306), `unwindedParentType` (lines 45-60) and which constituents a check reaches (lines 216-239, 241-271), if no constituent is a
duplicate or has no type (a group that is one is not taken apart; see `Verif.Model.Duplicates`).
-/
namespace Tsgolint.GroupPlaces

/-- Kinds of nodes: unions, intersections, types in parentheses (with one child), and all others. -/
inductive Kind
  | union | intersection | parens | other
deriving DecidableEq, Repr

inductive Node
  | mk (kind : Kind) (children : List Node)

/-- A place: the indices of the children on the way down. -/
abbrev Path := List Nat

/-- `unwindedParentType`, lines 45-60: is the group around a node, looking through parentheses, of this kind?  `above`: the kinds of the nodes above, the
parent first. -/
def unwinded (kind : Kind) : List Kind → Bool
  | [] => false
  | a :: above => if a = kind then true else if a ≠ .parens then false else unwinded kind above

mutual
/-- `checkDuplicateRecursively`, lines 216-238, below a constituent: those of a group of the same kind, through parentheses (`ast.SkipTypeParentheses`). -/
def nested (kind : Kind) : Node → List Path
  | .mk .parens [c] => (nested kind c).map (0 :: ·)
  | .mk k cs => if k = kind then examined kind 0 cs else []
/-- The loops over the constituents of a group, lines 226-238 and 262-270. -/
def examined (kind : Kind) : Nat → List Node → List Path
  | _, [] => []
  | i, c :: cs => [i] :: (nested kind c).map (i :: ·) ++ examined kind (i + 1) cs
end

/-- The listener, lines 276-281 and 285-290 (`checkDuplicate`): the constituents of a group that is not in a group of its kind. -/
def listener (kind : Kind) (above : List Kind) : Node → List Path
  | .mk k cs => if k = kind then (if unwinded kind above then [] else examined kind 0 cs) else []

mutual
/-- The visit of a node and those below it. -/
def walk (kind : Kind) (above : List Kind) : Node → List Path
  | .mk k cs => listener kind above (.mk k cs) ++ walkAll kind (k :: above) 0 cs
def walkAll (kind : Kind) (above : List Kind) : Nat → List Node → List Path
  | _, [] => []
  | i, c :: cs => (walk kind above c).map (i :: ·) ++ walkAll kind above (i + 1) cs
end

/-- The constituents of unions and of intersections examined in a file, lines 273-304. -/
def look (ignoreIntersections ignoreUnions : Bool) (file : Node) : List Path × List Path :=
  (if !ignoreIntersections then walk .intersection [] file else [], if !ignoreUnions then walk .union [] file else [])

end Tsgolint.GroupPlaces
