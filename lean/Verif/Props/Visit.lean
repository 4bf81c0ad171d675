import Verif.Proof.Visit
/-! # C22 (traversal) and C23 (listener kinds) -/
namespace Tsgolint.Visit

/-- C22: the events of the whole file are balanced and properly nested, for every tree. -/
theorem C22_nested (K : Kinds) (topLevel : List Node) : Nested (visitFile K topLevel) := by
  unfold visitFile
  rw [visits_eq]
  exact nested_flatMap _ _ fun a _ => nested_visit K a false

/-- C22: entering (and likewise leaving) happens once for each occurrence of each node outside the skipped subtrees and never for a
node in them: together with the ids of the skipped subtrees, the ids entered (left) are a permutation of all ids of the tree. -/
theorem C22_each_node_once (K : Kinds) (hK : K.Ok) (topLevel : List Node) (h : ∀ n ∈ topLevel, KindsOk n) :
    (entered (visitFile K topLevel) ++ idss (skippeds false topLevel)).Perm (idss topLevel) ∧
    (exited (visitFile K topLevel) ++ idss (skippeds false topLevel)).Perm (idss topLevel) := by
  unfold visitFile
  constructor
  all_goals
    rw [List.perm_iff_count]
    intro x
    rw [visits_eq, idss_eq, idss_eq, skippeds_eq, List.count_append, List.flatMap_assoc]
  · rw [entered_flatMap]
    exact count_flatMap_congr _ _ _ _ _ fun n hn => count_entered hK x n false (h n hn)
  · rw [exited_flatMap]
    exact count_flatMap_congr _ _ _ _ _ fun n hn => count_exited hK x n false (h n hn)

theorem file_segment (K : Kinds) {topLevel : List Node} (hd : (idss topLevel).Nodup) {t} (ht : t ∈ topLevel) {q m}
    (hr : Reach false t q m) :
    ∃ a b, visitFile K topLevel = a ++ visit K q m ++ b ∧ ∀ e ∈ a ++ b, e.2 ∉ ids m := by
  rw [idss_eq] at hd
  have hdt : (ids t).Nodup :=
    List.Sublist.nodup (List.sublist_flatten_of_mem (List.mem_map.2 ⟨_, ht, rfl⟩)) (by simpa [List.flatMap] using hd)
  obtain ⟨a, b, he, hab⟩ := segment K hdt hr
  obtain ⟨u, v, huv, hdis⟩ := nodup_flatMap_split hd ht
  refine ⟨u.flatMap (visit K false) ++ a, b ++ v.flatMap (visit K false), ?_, ?_⟩
  · unfold visitFile
    rw [visits_eq, huv, List.flatMap_append, List.flatMap_cons, he]; simp
  · intro e hh hi
    have hi' := hr.inside.ids _ hi
    have key : (∃ x ∈ u ++ v, e ∈ visit K false x) ∨ e ∈ a ++ b := by
      simp only [List.mem_append, List.mem_flatMap] at hh ⊢; grind
    rcases key with ⟨x, hx, h1⟩ | h1
    · exact hdis x hx _ (visit_ids K _ _ _ h1) hi'
    · exact hab e h1 hi

/-- C22: a reached node is entered with its own kind before, and left after, everything that happens to its descendants: outside its
enter and exit event no event of it or of any node inside it occurs. -/
theorem C22_parent_surrounds (K : Kinds) (topLevel : List Node) (hd : (idss topLevel).Nodup) (t) (ht : t ∈ topLevel) (q m)
    (hr : Reach false t q m) :
    ∃ before inner after,
      visitFile K topLevel = before ++ [(m.kind K, m.id)] ++ inner ++ [(onExit (m.kind K), m.id)] ++ after ∧
      ∀ d, Inside m d → ∀ e ∈ before ++ after, e.2 ≠ d.id := by
  obtain ⟨a, b, he, hab⟩ := file_segment K hd ht hr
  refine ⟨a, pre K q m ++ below K q m ++ post K q m, b, ?_, ?_⟩
  · rw [he, visit_eq]; simp
  · intro d hi e hh h
    exact hab e hh (hi.ids _ (h ▸ id_mem_ids d))

/-- C22: the events a reached node gets are exactly the expected ones: enter and exit of its kind, and in between the pattern events
its position calls for. -/
theorem C22_events_of_node (K : Kinds) (topLevel : List Node) (hd : (idss topLevel).Nodup) (t) (ht : t ∈ topLevel) (q m)
    (hr : Reach false t q m) :
    (visitFile K topLevel).filter (fun e => e.2 == m.id) = expected K q m := by
  obtain ⟨a, b, he, hab⟩ := file_segment K hd ht hr
  have hdt : (ids t).Nodup := by
    rw [idss_eq] at hd
    exact List.Sublist.nodup (List.sublist_flatten_of_mem (List.mem_map.2 ⟨_, ht, rfl⟩)) (by simpa [List.flatMap] using hd)
  have ha : ∀ l : List Ev, (∀ e ∈ l, e.2 ∉ ids m) → l.filter (fun e => e.2 == m.id) = [] := by
    intro l hl
    rw [List.filter_eq_nil_iff]
    intro e hh h
    exact hl e hh (beq_iff_eq.1 h ▸ id_mem_ids m)
  rw [he, List.filter_append, List.filter_append, ha a (fun e h => hab e (by simp [h])), ha b (fun e h => hab e (by simp [h])),
    filter_visit K q (hr.inside.nodup hdt)]
  simp

/-- C22: every event belongs to a reached node, and every node of the file is either reached or lies in a skipped subtree. -/
theorem C22_reached_or_skipped (K : Kinds) (topLevel : List Node) :
    (∀ e ∈ visitFile K topLevel, ∃ t ∈ topLevel, ∃ q m, Reach false t q m ∧ e ∈ expected K q m) ∧
    (∀ t ∈ topLevel, ∀ m, Inside t m → (∃ q, Reach false t q m) ∨ ∃ s ∈ skippeds false topLevel, Inside s m) := by
  refine ⟨?_, ?_⟩
  · intro e he
    unfold visitFile at he
    rw [visits_eq, List.mem_flatMap] at he
    obtain ⟨t, ht, he⟩ := he
    exact ⟨t, ht, event_reached K t false e he⟩
  · intro t ht m hm
    rcases reach_or_skipped hm false with h | ⟨s, hs, h⟩
    · exact .inl h
    · exact .inr ⟨s, by rw [skippeds_eq, List.mem_flatMap]; exact ⟨t, ht, hs⟩, h⟩

/-- Non-vacuity: `({ [a]: b, ...c } = [d]);` with the computed name `[a]` (nodes 5, 6) skipped. -/
def exampleKinds : Kinds := ⟨209, 210, 303, 226⟩
def exampleFile : List Node :=
  [.other 244 1 [.assign 2 []
    (.obj 3 [.prop 4 [.other 167 5 [.other 80 6 []]] (.other 80 7 []), .spread 305 8 (.other 80 9 [])])
    [] (.other 64 10 []) (.arr 11 [.other 80 12 []])]]

example : exampleKinds.Ok ∧ (idss exampleFile).Nodup ∧ (∀ n ∈ exampleFile, KindsOk n) ∧
    idss (skippeds false exampleFile) = [5, 6] ∧
    entered (visitFile exampleKinds exampleFile) = [1, 2, 3, 4, 7, 8, 9, 10, 11, 12] ∧
    (visitFile exampleKinds exampleFile).filter (fun e => e.2 == 3) = [(210, 3), (2210, 3), (3210, 3), (1210, 3)] ∧
    (visitFile exampleKinds exampleFile).filter (fun e => e.2 == 11) = [(209, 11), (4209, 11), (5209, 11), (1209, 11)] := by
  refine ⟨⟨by decide, by decide, by decide, by decide⟩, by decide, ?_, by rfl, by rfl, by rfl, by rfl⟩
  intro n hn
  simp only [exampleFile, List.mem_singleton] at hn
  subst hn
  simp [KindsOk, KindsOks]

/-- The ways to derive a listener key from a syntax kind: plain, on exit, in patterns, outside patterns, and on exit of those. -/
inductive Flavour | plain | exit | allow | allowExit | notAllow | notAllowExit
deriving DecidableEq

/-- The key a rule registers for. -/
def key : Flavour → Nat → Nat
  | .plain, k => k
  | .exit, k => onExit k
  | .allow, k => onAllowPattern k
  | .allowExit, k => onExit (onAllowPattern k)
  | .notAllow, k => onNotAllowPattern k
  | .notAllowExit, k => onExit (onNotAllowPattern k)

/-- C23: for syntax kinds (all below 1000) the listener keys of all flavours are pairwise distinct, so no listener can be called for
an event it did not ask for. -/
theorem C23_no_collision (f g : Flavour) (k l : Nat) (hk : k < 1000) (hl : l < 1000) (h : key f k = key g l) : f = g ∧ k = l := by
  cases f <;> cases g <;> simp only [key, onExit, onAllowPattern, onNotAllowPattern] at h <;>
    first | exact ⟨rfl, by omega⟩ | (exfalso; omega)

/-- C23: the bound cannot be dropped: a kind of 1000 would collide. -/
theorem C23_bound_needed : key .plain 1000 = key .exit 0 := rfl

/-- Non-vacuity of C23. -/
example : key .allowExit 303 = 3303 ∧ key .notAllow 303 = 4303 := ⟨rfl, rfl⟩

end Tsgolint.Visit
