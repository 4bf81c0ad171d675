import Verif.Spec.Visit
namespace Tsgolint.Visit

theorem Node.ind {P : Node → Prop} (h : ∀ n, (∀ c ∈ n.children, P c) → P n) (n : Node) : P n := by
  apply h
  intro c hc
  have : sizeOf c < sizeOf n := by
    cases n <;> simp [Node.children] at hc ⊢
    case other => have := List.sizeOf_lt_of_mem hc; omega
    case arr => have := List.sizeOf_lt_of_mem hc; omega
    case obj => have := List.sizeOf_lt_of_mem hc; omega
    case spread => subst hc; omega
    case prop => rcases hc with hc | rfl; (have := List.sizeOf_lt_of_mem hc; omega); omega
    case assign =>
      rcases hc with hc | rfl | hc | rfl | rfl
      · have := List.sizeOf_lt_of_mem hc; omega
      · omega
      · have := List.sizeOf_lt_of_mem hc; omega
      · omega
      · omega
  exact Node.ind h c
termination_by sizeOf n

/-- Children visited, with their mode. -/
def goes : Bool → Node → List (Bool × Node)
  | true, .arr _ cs => cs.map (true, ·)
  | true, .obj _ cs => cs.map (true, ·)
  | true, .spread _ _ e => [(true, e)]
  | true, .prop _ _ e => [(true, e)]
  | false, .assign _ _ l _ o r => [(true, l), (false, o), (false, r)]
  | _, n => n.children.map (false, ·)

theorem goes_children {p n q c} (h : (q, c) ∈ goes p n) : c ∈ n.children := by
  cases p <;> cases n <;> simp [goes, Node.children] at h ⊢ <;> grind

theorem Reach.step {p n q c r m} (h : (q, c) ∈ goes p n) (h2 : Reach q c r m) : Reach p n r m := by
  cases p
  · cases n
    case assign =>
      simp [goes] at h
      rcases h with ⟨rfl, rfl⟩ | ⟨rfl, rfl⟩ | ⟨rfl, rfl⟩
      · exact .left h2
      · exact .operator h2
      · exact .right h2
    all_goals
      simp only [goes, List.mem_map] at h
      obtain ⟨a, ha, h⟩ := h
      cases h
      exact .plain (by intros; simp) ha h2
  · cases n
    case other => simp [goes, Node.children] at h; rcases h with ⟨h, rfl⟩; exact .inPatternOther h h2
    case arr => simp [goes] at h; rcases h with ⟨h, rfl⟩; exact .arr h h2
    case obj => simp [goes] at h; rcases h with ⟨h, rfl⟩; exact .obj h h2
    case spread => simp [goes] at h; rcases h with ⟨rfl, rfl⟩; exact .spread h2
    case prop => simp [goes] at h; rcases h with ⟨rfl, rfl⟩; exact .value h2
    case assign =>
      simp only [goes, List.mem_map] at h
      obtain ⟨a, ha, h⟩ := h
      cases h; exact .inPatternAssign ha h2

theorem Reach.cases' {p n r m} (h : Reach p n r m) :
    (p = r ∧ n = m) ∨ ∃ q c, (q, c) ∈ goes p n ∧ Reach q c r m := by
  cases h with
  | self => exact .inl ⟨rfl, rfl⟩
  | arr h h2 => exact .inr ⟨_, _, by simp [goes]; exact h, h2⟩
  | obj h h2 => exact .inr ⟨_, _, by simp [goes]; exact h, h2⟩
  | spread h2 => exact .inr ⟨_, _, by simp [goes], h2⟩
  | value h2 => exact .inr ⟨_, _, by simp [goes], h2⟩
  | left h2 => exact .inr ⟨true, _, by simp [goes], h2⟩
  | operator h2 => exact .inr ⟨false, _, by simp [goes], h2⟩
  | right h2 => exact .inr ⟨false, _, by simp [goes], h2⟩
  | inPatternOther h h2 => exact .inr ⟨_, _, by simp [goes, Node.children]; exact h, h2⟩
  | inPatternAssign h h2 => exact .inr ⟨false, _, by simp only [goes, List.mem_map]; exact ⟨_, h, rfl⟩, h2⟩
  | plain hn h h2 =>
    refine .inr ⟨false, _, ?_, h2⟩
    cases n
    case assign => exact absurd rfl (hn _ _ _ _ _ _)
    all_goals simp only [goes, List.mem_map]; exact ⟨_, h, rfl⟩

theorem visits_eq (K p) (l : List Node) : visits K p l = l.flatMap (visit K p) := by
  induction l with
  | nil => simp [visits]
  | cons a l ih => simp [visits, ih]

theorem idss_eq (l : List Node) : idss l = l.flatMap ids := by
  induction l with
  | nil => simp [idss]
  | cons a l ih => simp [idss, ih]

theorem ids_eq (n : Node) : ids n = n.id :: n.children.flatMap ids := by
  cases n <;> simp [ids, Node.children, Node.id, idss_eq, List.append_assoc]

theorem skippeds_eq (p) (l : List Node) : skippeds p l = l.flatMap (skipped p) := by
  induction l with
  | nil => simp [skippeds]
  | cons a l ih => simp [skippeds, ih]

def pre (K : Kinds) (p : Bool) (n : Node) : List Ev :=
  if p then [(onAllowPattern (n.kind K), n.id)] else if n.isLiteral then [(onNotAllowPattern (n.kind K), n.id)] else []
def post (K : Kinds) (p : Bool) (n : Node) : List Ev :=
  if p then [(onExit (onAllowPattern (n.kind K)), n.id)]
  else if n.isLiteral then [(onExit (onNotAllowPattern (n.kind K)), n.id)] else []

def below (K : Kinds) (p : Bool) (n : Node) : List Ev := (goes p n).flatMap fun x => visit K x.1 x.2

theorem visit_eq (K p) (n : Node) : visit K p n =
    (n.kind K, n.id) :: ((pre K p n ++ below K p n ++ post K p n) ++ [(onExit (n.kind K), n.id)]) := by
  cases p <;> cases n <;>
    simp [visit, visits_eq, Node.kind, Node.id, pre, post, below, goes, Node.children, Node.isLiteral, List.flatMap_map]

theorem expected_eq (K p) (n : Node) : expected K p n =
    (n.kind K, n.id) :: ((pre K p n ++ post K p n) ++ [(onExit (n.kind K), n.id)]) := by
  unfold expected pre post; grind

theorem nested_flatMap {α} (l : List α) (f : α → List Ev) (h : ∀ a ∈ l, Nested (f a)) : Nested (l.flatMap f) := by
  induction l with
  | nil => exact .nil
  | cons a l ih => exact .append (h a (by simp)) (ih fun b hb => h b (by simp [hb]))

theorem nested_visit (K) (n : Node) : ∀ p, Nested (visit K p n) := by
  induction n using Node.ind with
  | h n ih =>
    intro p
    have hb : Nested (below K p n) := nested_flatMap _ _ fun a ha => ih a.2 (goes_children ha) a.1
    rw [visit_eq]
    apply Nested.wrap
    unfold pre post
    split
    · exact .wrap _ _ hb
    · split
      · exact .wrap _ _ hb
      · simpa using hb

theorem id_mem_ids (n : Node) : n.id ∈ ids n := by rw [ids_eq]; simp

theorem ids_child {n c : Node} (h : c ∈ n.children) {i} (hi : i ∈ ids c) : i ∈ ids n := by
  rw [ids_eq]; exact List.mem_cons_of_mem _ (List.mem_flatMap.2 ⟨c, h, hi⟩)

theorem visit_ids (K) (n : Node) : ∀ p, ∀ e ∈ visit K p n, e.2 ∈ ids n := by
  induction n using Node.ind with
  | h n ih =>
    intro p e he
    rw [visit_eq] at he
    have hid := id_mem_ids n
    simp only [List.mem_cons, List.mem_append, pre, post, below, List.mem_flatMap, List.not_mem_nil, or_false] at he
    rcases he with rfl | ((he | ⟨x, hx, he⟩) | he) | rfl
    · exact hid
    · grind
    · exact ids_child (goes_children hx) (ih x.2 (goes_children hx) x.1 e he)
    · grind
    · exact hid

theorem Inside.ids {n m} (h : Inside n m) : ∀ i ∈ ids m, i ∈ Visit.ids n := by
  induction h with
  | self => exact fun _ h => h
  | child hc _ ih => exact fun i hi => ids_child hc (ih i hi)

theorem Reach.inside {n : Node} : ∀ {p q m}, Reach p n q m → Inside n m := by
  induction n using Node.ind with
  | h n ih =>
    intro p q m h
    rcases h.cases' with ⟨rfl, rfl⟩ | ⟨q', c, hc, h⟩
    · exact .self _
    · exact .child (goes_children hc) (ih c (goes_children hc) h)

/-- Splitting a list at an element when images are pairwise disjoint. -/
theorem nodup_flatMap_split {α} {f : α → List Nat} {l : List α} (h : (l.flatMap f).Nodup) {c} (hc : c ∈ l) :
    ∃ a b, l = a ++ c :: b ∧ (∀ x ∈ a ++ b, ∀ i ∈ f x, i ∉ f c) := by
  obtain ⟨a, b, rfl⟩ := List.append_of_mem hc
  refine ⟨a, b, rfl, ?_⟩
  intro x hx i hi hic
  rw [List.flatMap_append, List.flatMap_cons] at h
  rw [List.nodup_append, List.nodup_append] at h
  rcases List.mem_append.1 hx with hx | hx
  · exact h.2.2 i (List.mem_flatMap.2 ⟨x, hx, hi⟩) i (List.mem_append_left _ hic) rfl
  · exact h.2.1.2.2 i hic i (List.mem_flatMap.2 ⟨x, hx, hi⟩) rfl

/-- `goes` is a sublist of the children. -/
theorem goes_sublist (p n) : ((goes p n).map (·.2)).Sublist n.children := by
  have hm : ∀ (b : Bool) (l : List Node), (l.map (b, ·)).map (·.2) = l := by
    intro b l; simp [Function.comp_def]
  cases p <;> cases n <;> simp only [goes, hm, Node.children, List.Sublist.refl]
  · simp only [List.map_cons, List.map_nil, List.append_assoc]
    refine List.Sublist.trans ?_ (List.sublist_append_right _ _)
    simp only [List.cons_append, List.nil_append]
    exact (List.sublist_append_right _ _).cons_cons _
  · simp
  · simp

theorem sublist_flatMap {α β} {f : α → List β} {a b : List α} (h : a.Sublist b) : (a.flatMap f).Sublist (b.flatMap f) := by
  induction h with
  | slnil => exact .refl _
  | cons a _ ih => rw [List.flatMap_cons]; exact ih.trans (List.sublist_append_right _ _)
  | cons_cons a _ ih => simp only [List.flatMap_cons]; exact ih.append_left _

theorem goes_nodup {n} (h : (ids n).Nodup) (p) : ((goes p n).flatMap fun x => ids x.2).Nodup := by
  rw [ids_eq, List.nodup_cons] at h
  have := (sublist_flatMap (f := ids) (goes_sublist p n)).nodup h.2
  rwa [List.flatMap_map] at this

/-- The events of a reached node and everything below it form one segment, and nothing about it occurs elsewhere. -/
theorem segment (K) {n : Node} : ∀ {p q m}, (ids n).Nodup → Reach p n q m →
    ∃ a b, visit K p n = a ++ visit K q m ++ b ∧ ∀ e ∈ a ++ b, e.2 ∉ ids m := by
  induction n using Node.ind with
  | h n ih =>
    intro p q m hd h
    rcases h.cases' with ⟨rfl, rfl⟩ | ⟨q', c, hc, h⟩
    · exact ⟨[], [], by simp, by simp⟩
    · have hcc := goes_children hc
      have hdc : (ids c).Nodup := by
        rw [ids_eq, List.nodup_cons] at hd
        exact (List.Sublist.nodup (List.sublist_flatten_of_mem (List.mem_map.2 ⟨c, hcc, rfl⟩)) (by simpa [List.flatMap] using hd.2))
      obtain ⟨a, b, he, hab⟩ := ih c hcc hdc h
      obtain ⟨u, v, huv, hdis⟩ := nodup_flatMap_split (goes_nodup hd p) hc
      have hm : ∀ i ∈ ids m, i ∈ ids c := h.inside.ids
      have hn : n.id ∉ ids c := by
        rw [ids_eq, List.nodup_cons] at hd
        exact fun hh => hd.1 (List.mem_flatMap.2 ⟨c, hcc, hh⟩)
      refine ⟨(n.kind K, n.id) :: (pre K p n ++ (u.flatMap fun x => visit K x.1 x.2) ++ a),
        b ++ (v.flatMap fun x => visit K x.1 x.2) ++ post K p n ++ [(onExit (n.kind K), n.id)], ?_, ?_⟩
      · rw [visit_eq, below, huv, List.flatMap_append, List.flatMap_cons, he]; simp
      · intro e hh hi
        have hi' := hm _ hi
        have key : e.2 = n.id ∨ (∃ x ∈ u ++ v, e ∈ visit K x.1 x.2) ∨ e ∈ a ++ b := by
          simp only [pre, post] at hh
          simp only [List.mem_append, List.mem_cons, List.mem_flatMap, List.not_mem_nil] at hh ⊢
          grind
        rcases key with h1 | ⟨x, hx, h1⟩ | h1
        · exact hn (h1 ▸ hi')
        · exact hdis x hx _ (visit_ids K _ _ _ h1) hi'
        · exact hab e h1 hi

theorem filter_visit (K p) {n : Node} (hd : (ids n).Nodup) :
    (visit K p n).filter (fun e => e.2 == n.id) = expected K p n := by
  rw [visit_eq, expected_eq]
  have hb : (below K p n).filter (fun e => e.2 == n.id) = [] := by
    rw [List.filter_eq_nil_iff]
    intro e he hh
    simp only [below, List.mem_flatMap] at he
    obtain ⟨x, hx, he⟩ := he
    have := visit_ids K _ _ _ he
    rw [ids_eq, List.nodup_cons] at hd
    exact hd.1 (List.mem_flatMap.2 ⟨x.2, goes_children hx, by simpa using (beq_iff_eq.1 hh) ▸ this⟩)
  have h1 : (pre K p n).filter (fun e => e.2 == n.id) = pre K p n := by unfold pre; grind
  have h2 : (post K p n).filter (fun e => e.2 == n.id) = post K p n := by unfold post; grind
  simp [hb, h1, h2]

theorem Inside.nodup {n m} (h : Inside n m) : (Visit.ids n).Nodup → (Visit.ids m).Nodup := by
  induction h with
  | self => exact id
  | child hc _ ih =>
    intro hd
    rw [ids_eq, List.nodup_cons] at hd
    exact ih (List.Sublist.nodup (List.sublist_flatten_of_mem (List.mem_map.2 ⟨_, hc, rfl⟩)) (by simpa [List.flatMap] using hd.2))

/-- An event belongs to a reached node. -/
theorem event_reached (K) (n : Node) : ∀ p, ∀ e ∈ visit K p n, ∃ q m, Reach p n q m ∧ e ∈ expected K q m := by
  induction n using Node.ind with
  | h n ih =>
    intro p e he
    rw [visit_eq] at he
    by_cases hb : e ∈ below K p n
    · simp only [below, List.mem_flatMap] at hb
      obtain ⟨x, hx, hb⟩ := hb
      obtain ⟨q, m, h1, h2⟩ := ih x.2 (goes_children hx) x.1 e hb
      exact ⟨q, m, h1.step hx, h2⟩
    · refine ⟨p, n, .self _ _, ?_⟩
      rw [expected_eq]
      simp only [List.mem_cons, List.mem_append] at he ⊢
      grind

theorem expected_id {K p n e} (h : e ∈ expected K p n) : e.2 = n.id := by unfold expected at h; grind

/-- Reaching or lying in a skipped subtree. -/
theorem reach_or_skipped {n m} (h : Inside n m) : ∀ p, (∃ q, Reach p n q m) ∨ ∃ s ∈ skipped p n, Inside s m := by
  induction h with
  | self n => exact fun p => .inl ⟨p, .self _ _⟩
  | @child n c m hc hi ih =>
    intro p
    by_cases hg : ∃ q, (q, c) ∈ goes p n
    · obtain ⟨q, hq⟩ := hg
      rcases ih q with ⟨r, hr⟩ | ⟨s, hs, hsm⟩
      · exact .inl ⟨r, hr.step hq⟩
      · refine .inr ⟨s, ?_, hsm⟩
        cases p <;> cases n <;> simp [goes, skipped, skippeds_eq, Node.children] at hq ⊢ <;> grind
    · refine .inr ⟨c, ?_, hi⟩
      cases p <;> cases n <;> simp [goes, skipped, Node.children] at hg hc ⊢ <;> grind

theorem skipped_eq (p n) (x : Nat) : ∃ c, (n.children.flatMap ids).count x = c + ((goes p n).flatMap fun y => ids y.2).count x ∧
    ((skipped p n).flatMap ids).count x = c + ((goes p n).flatMap fun y => (skipped y.1 y.2).flatMap ids).count x := by
  cases p <;> cases n
  case true.prop i ps e => exact ⟨(ps.flatMap ids).count x, by simp [goes, Node.children], by simp [goes, skipped]⟩
  case false.assign i ms l ty o r =>
    refine ⟨((ms ++ ty).flatMap ids).count x, ?_, ?_⟩
    · simp [goes, Node.children]; omega
    · simp [goes, skipped]; omega
  all_goals exact ⟨0, by simp [goes, Node.children, List.flatMap_map],
    by simp [goes, skipped, skippeds_eq, Node.children, List.flatMap_map, List.flatMap_assoc]⟩

theorem entered_append (a b) : entered (a ++ b) = entered a ++ entered b := by simp [entered]
theorem exited_append (a b) : exited (a ++ b) = exited a ++ exited b := by simp [exited]
theorem entered_cons (a b) : entered (a :: b) = entered [a] ++ entered b := entered_append [a] b
theorem exited_cons (a b) : exited (a :: b) = exited [a] ++ exited b := exited_append [a] b
theorem entered_flatMap {α} (l : List α) (f) : entered (l.flatMap f) = l.flatMap fun a => entered (f a) := by
  induction l with
  | nil => rfl
  | cons a l ih => simp only [List.flatMap_cons, entered_append, ih]
theorem exited_flatMap {α} (l : List α) (f) : exited (l.flatMap f) = l.flatMap fun a => exited (f a) := by
  induction l with
  | nil => rfl
  | cons a l ih => simp only [List.flatMap_cons, exited_append, ih]

theorem kindsOks_iff (l : List Node) : KindsOks l ↔ ∀ n ∈ l, KindsOk n := by
  induction l with
  | nil => simp [KindsOks]
  | cons a l ih => simp [KindsOks, ih]

theorem KindsOk.kind {K n} (hK : K.Ok) (h : KindsOk n) : n.kind K < 1000 := by
  have := hK.arr; have := hK.obj; have := hK.prop; have := hK.assign
  cases n <;> simp [KindsOk, Node.kind] at h ⊢ <;> omega

theorem KindsOk.children {n} (h : KindsOk n) : ∀ c ∈ n.children, KindsOk c := by
  cases n <;> simp [KindsOk, kindsOks_iff, Node.children] at h ⊢ <;> grind

theorem entered_visit {K : Kinds} (hK : K.Ok) {n} (h : KindsOk n) (p) :
    entered (visit K p n) = n.id :: (goes p n).flatMap fun x => entered (visit K x.1 x.2) := by
  have := KindsOk.kind hK h
  rw [visit_eq, entered_cons, entered_append, entered_append, entered_append, below, entered_flatMap]
  have h1 : entered (pre K p n) = [] := by
    unfold pre entered onAllowPattern onNotAllowPattern
    rcases p <;> cases n.isLiteral <;> simp
  have h2 : entered (post K p n) = [] := by
    unfold post entered onAllowPattern onNotAllowPattern onExit
    rcases p <;> cases n.isLiteral <;> simp
  rw [h1, h2]
  simp [entered, onExit, this]

theorem exited_visit {K : Kinds} (hK : K.Ok) {n} (h : KindsOk n) (p) :
    exited (visit K p n) = ((goes p n).flatMap fun x => exited (visit K x.1 x.2)) ++ [n.id] := by
  have := KindsOk.kind hK h
  rw [visit_eq, exited_cons, exited_append, exited_append, exited_append, below, exited_flatMap]
  have h1 : exited (pre K p n) = [] := by
    unfold pre exited onAllowPattern onNotAllowPattern
    rcases p <;> cases n.isLiteral <;> simp <;> omega
  have h2 : exited (post K p n) = [] := by
    unfold post exited onAllowPattern onNotAllowPattern onExit
    rcases p <;> cases n.isLiteral <;> simp <;> omega
  rw [h1, h2]
  have h3 : ¬ (1000 ≤ n.kind K) := by omega
  have h4 : n.kind K + 1000 < 2000 := by omega
  simp [exited, onExit, h3, h4]

theorem count_flatMap_congr {α} (l : List α) (f g h : α → List Nat) (x : Nat)
    (e : ∀ a ∈ l, (f a).count x + (g a).count x = (h a).count x) :
    (l.flatMap f).count x + (l.flatMap g).count x = (l.flatMap h).count x := by
  induction l with
  | nil => simp
  | cons a l ih =>
    have := ih fun b hb => e b (by simp [hb])
    have := e a (by simp)
    simp only [List.flatMap_cons, List.count_append]; omega

theorem count_entered {K : Kinds} (hK : K.Ok) (x : Nat) (n : Node) : ∀ p, KindsOk n →
    (entered (visit K p n)).count x + ((skipped p n).flatMap ids).count x = (ids n).count x := by
  induction n using Node.ind with
  | h n ih =>
    intro p h
    obtain ⟨c, h1, h2⟩ := skipped_eq p n x
    have := count_flatMap_congr (goes p n) (fun y => entered (visit K y.1 y.2)) (fun y => (skipped y.1 y.2).flatMap ids)
      (fun y => ids y.2) x fun a ha => ih a.2 (goes_children ha) a.1 (h.children _ (goes_children ha))
    rw [entered_visit hK h, ids_eq, List.count_cons, List.count_cons]
    omega

theorem count_exited {K : Kinds} (hK : K.Ok) (x : Nat) (n : Node) : ∀ p, KindsOk n →
    (exited (visit K p n)).count x + ((skipped p n).flatMap ids).count x = (ids n).count x := by
  induction n using Node.ind with
  | h n ih =>
    intro p h
    obtain ⟨c, h1, h2⟩ := skipped_eq p n x
    have := count_flatMap_congr (goes p n) (fun y => exited (visit K y.1 y.2)) (fun y => (skipped y.1 y.2).flatMap ids)
      (fun y => ids y.2) x fun a ha => ih a.2 (goes_children ha) a.1 (h.children _ (goes_children ha))
    rw [exited_visit hK h, ids_eq, List.count_cons, List.count_append, List.count_cons, List.count_nil]
    omega

end Tsgolint.Visit
