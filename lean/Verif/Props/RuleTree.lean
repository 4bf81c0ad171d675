import Verif.Proof.RuleTree
import Verif.Props.Visit
/-! # C53: what a rule sees of a file -/
namespace Tsgolint.RuleTree
open Tsgolint.Visit (Node Kinds visitFile)
variable {α : Type}

/-- C53.  A rule without pattern listeners gets, for every file, the entries and exits of the nodes the traversal reaches, nested as the
nodes are: each node is entered before its descendants and left after them, siblings follow each other in document order. -/
theorem C53_nested (K : Kinds) (label : Nat → Nat → α) (file : List Node) (h : smallKindss K file) :
    (visitFile K file).filterMap (ofCall label) = eventss (reacheds K label false file) :=
  visits_events K label false file h

/-- C53 (scopes).  A rule that keeps one scope per enclosing function reports, up to order, what it would report looking at each function
of the file in isolation; and no scope is left over at the end of the file, so none leaks into the next file. -/
theorem C53_functions_apart {S ρ : Type} {step : List S → Event α → List S × List ρ} {isFunc : α → Bool} {fresh : α → S}
    {handle : S → α → S × List ρ} {leave : S → α → List ρ} (h : Scoped step isFunc fresh handle leave)
    (K : Kinds) (label : Nat → Nat → α) (file : List Node) (hk : smallKindss K file) :
    (run step [] ((visitFile K file).filterMap (ofCall label))).1 = [] ∧
    ((run step [] ((visitFile K file).filterMap (ofCall label))).2).Perm
      ((funcss isFunc (reacheds K label false file)).flatMap (localReports fresh handle leave)) := by
  rw [C53_nested K label file hk]
  exact scoped_trees_top h _

/-- C53 (isolation).  What belongs to a function is what lies in it outside nested functions. -/
theorem C53_isolated (isFunc : α → Bool) (file : List (Tree α)) (f : α) (body : List α) :
    (f, body) ∈ funcss isFunc file ↔
      ∃ t ∈ file, ∃ cs, Occurs t (.node f cs) ∧ isFunc f = true ∧ body = owns isFunc cs ∧
        ∀ x, x ∈ body ↔ ∃ c ∈ cs, OwnedBy isFunc c x := by
  rw [mem_funcss]
  constructor
  · rintro ⟨t, ht, cs, ho, hf, hb⟩
    refine ⟨t, ht, cs, ho, hf, hb, fun x => ?_⟩
    simp only at hb
    rw [hb, mem_owns]
  · rintro ⟨t, ht, cs, ho, hf, hb, _⟩
    exact ⟨t, ht, cs, ho, hf, hb⟩

/-- Two nested functions (kind 262) with an `await` (kind 223) each: every function owns its own one. -/
def nestedFile : List Node := [.other 262 1 [.other 223 2 [], .other 262 3 [.other 223 4 []], .other 80 5 []]]

example : smallKindss Visit.exampleKinds Visit.exampleFile ∧ smallKindss Visit.exampleKinds nestedFile ∧
    funcss (fun l : Nat × Nat => l.1 == 262) (reacheds Visit.exampleKinds Prod.mk false nestedFile) =
      [((262, 1), [(223, 2), (80, 5)]), ((262, 3), [(223, 4)])] := by
  refine ⟨by simp [Visit.exampleKinds, Visit.exampleFile, smallKindss, smallKinds], by simp [nestedFile, smallKindss, smallKinds], by rfl⟩

end Tsgolint.RuleTree
