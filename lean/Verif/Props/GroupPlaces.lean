import Verif.Spec.GroupPlaces
/-!
# C135: no-duplicate-type-constituents examines every constituent once
-/
namespace Tsgolint.GroupPlaces

mutual
/-- All constituents, in document order. -/
def all (kind : Kind) : Node → List Path
  | .mk k cs => allFrom kind (k == kind) 0 cs
def allFrom (kind : Kind) (group : Bool) : Nat → List Node → List Path
  | _, [] => []
  | i, c :: cs => (if group then [[i]] else []) ++ (all kind c).map (i :: ·) ++ allFrom kind group (i + 1) cs
end

mutual
theorem all_mem (kind : Kind) : ∀ (n : Node) (p : Path), p ∈ all kind n ↔ Constituent kind n p
  | .mk k cs, p => by
    rw [show all kind (.mk k cs) = allFrom kind (k == kind) 0 cs from rfl, allFrom_mem kind cs (k == kind) 0 p]
    constructor
    · rintro ⟨i, c, q, rfl, hc, ⟨hg, rfl⟩ | h⟩
      · exact ⟨[], 0 + i, cs, c, rfl, by rw [eq_of_beq hg]; exact .here _, by simpa using hc⟩
      · obtain ⟨r, j, ds, d, rfl, ho, hd⟩ := h
        exact ⟨(0 + i) :: r, j, ds, d, rfl, .inside (by simpa using hc) ho, hd⟩
    · rintro ⟨q, i, ds, d, rfl, ho, hd⟩
      cases ho with
      | here => exact ⟨i, d, [], by simp, hd, .inl ⟨by simp, rfl⟩⟩
      | @inside _ _ j c r _ hc ho => exact ⟨j, c, r ++ [i], by simp, hc, .inr ⟨r, i, ds, d, rfl, ho, hd⟩⟩
theorem allFrom_mem (kind : Kind) : ∀ (cs : List Node) (group : Bool) (k : Nat) (p : Path),
    p ∈ allFrom kind group k cs ↔ ∃ i c q, p = (k + i) :: q ∧ cs[i]? = some c ∧ ((group = true ∧ q = []) ∨ Constituent kind c q)
  | [], group, k, p => by simp [allFrom]
  | c :: cs, group, k, p => by
    rw [show allFrom kind group k (c :: cs) = (if group then [[k]] else []) ++ (all kind c).map (k :: ·) ++ allFrom kind group (k + 1) cs from rfl,
      List.mem_append, List.mem_append, List.mem_map, allFrom_mem kind cs group (k + 1) p]
    constructor
    · rintro ((h | ⟨q, h, rfl⟩) | ⟨i, d, q, rfl, hc, h⟩)
      · cases group with
        | true =>
          simp at h
          exact ⟨0, c, [], by simp [h], rfl, .inl ⟨rfl, rfl⟩⟩
        | false => simp at h
      · exact ⟨0, c, q, rfl, rfl, .inr ((all_mem kind c q).1 h)⟩
      · exact ⟨i + 1, d, q, by rw [Nat.add_assoc, Nat.add_comm 1], by simpa using hc, h⟩
    · rintro ⟨i, d, q, rfl, hc, h⟩
      cases i with
      | zero =>
        simp at hc; subst hc
        rcases h with ⟨rfl, rfl⟩ | h
        · exact .inl (.inl (by simp))
        · exact .inl (.inr ⟨q, (all_mem kind c q).2 h, rfl⟩)
      | succ i => exact .inr ⟨i, d, q, by rw [Nat.add_assoc, Nat.add_comm 1], by simpa using hc, h⟩
end

theorem not_nil {kind : Kind} {n : Node} : ¬ Constituent kind n [] := by
  rintro ⟨q, i, _, _, h, _⟩
  simp at h

mutual
theorem all_nodup (kind : Kind) : ∀ n : Node, (all kind n).Nodup
  | .mk k cs => allFrom_nodup kind cs (k == kind) 0
theorem allFrom_nodup (kind : Kind) : ∀ (cs : List Node) (group : Bool) (k : Nat), (allFrom kind group k cs).Nodup
  | [], group, k => by simp [allFrom]
  | c :: cs, group, k => by
    rw [show allFrom kind group k (c :: cs) = (if group then [[k]] else []) ++ (all kind c).map (k :: ·) ++ allFrom kind group (k + 1) cs from rfl,
      List.nodup_append, List.nodup_append]
    refine ⟨⟨by cases group <;> simp, ?_, ?_⟩, allFrom_nodup kind cs group (k + 1), ?_⟩
    · unfold List.Nodup
      rw [List.pairwise_map]
      exact (all_nodup kind c).imp (by intro a b h e; exact h (List.cons.inj e).2)
    · intro a ha b hb e
      subst e
      cases group with
      | false => simp at ha
      | true =>
        simp at ha; subst ha
        obtain ⟨q, hq, e⟩ := List.mem_map.1 hb
        obtain ⟨-, rfl⟩ := List.cons.inj e
        exact not_nil ((all_mem kind c []).1 hq)
    · intro a ha b hb e
      subst e
      obtain ⟨i, d, q, rfl, -⟩ := (allFrom_mem kind cs group (k + 1) a).1 hb
      rcases List.mem_append.1 ha with h | h
      · cases group with
        | false => simp at h
        | true => simp at h; omega
      · obtain ⟨r, -, e⟩ := List.mem_map.1 h
        have := (List.cons.inj e).1
        omega
end

/-- Walking below a group, together with what the group reaches, gives all constituents. -/
theorem shuffle {α} {a b c d : List α} : (a ++ b ++ (c ++ d)).Perm ((a ++ c) ++ (b ++ d)) := by
  rw [List.append_assoc, List.append_assoc]
  refine List.Perm.append_left a ?_
  rw [← List.append_assoc, ← List.append_assoc]
  exact List.Perm.append_right d List.perm_append_comm

mutual
theorem walk_perm (kind : Kind) (hk : kind ≠ .parens) (hp : kind = .union ∨ kind = .intersection) :
    ∀ (n : Node) (above : List Kind), Proper n →
      ((if unwinded kind above then nested kind n else []) ++ walk kind above n).Perm (all kind n)
  | .mk k cs, above, hn => by
    rw [show walk kind above (.mk k cs) = listener kind above (.mk k cs) ++ walkAll kind (k :: above) 0 cs from rfl,
      show all kind (.mk k cs) = allFrom kind (k == kind) 0 cs from rfl]
    by_cases h : k = kind
    · subst h
      have hu : unwinded k (k :: above) = true := by simp [unwinded]
      have hl : listener k above (.mk k cs) = if unwinded k above then [] else examined k 0 cs := by simp [listener]
      have hne : nested k (.mk k cs) = examined k 0 cs := by
        rcases hp with rfl | rfl <;> simp [nested]
      have key := walkAll_group k hk hp cs (k :: above) 0 hu hn.2
      rw [hl, hne]
      simp only [BEq.rfl]
      cases unwinded k above with
      | true => simpa using key
      | false => simpa using key
    · have hl : listener kind above (.mk k cs) = [] := by simp [listener, h]
      have hb : (k == kind) = false := by simpa using h
      rw [hl, hb, List.nil_append]
      by_cases hpar : k = .parens
      · subst hpar
        obtain ⟨c, rfl⟩ := List.length_eq_one_iff.1 (hn.1 rfl)
        have hu : unwinded kind (.parens :: above) = unwinded kind above := by
          conv => lhs; unfold unwinded
          rw [if_neg h]; simp
        have ih := walk_perm kind hk hp c (.parens :: above) hn.2.1
        rw [hu] at ih
        have ih := ih.map (0 :: ·)
        rw [List.map_append] at ih
        rw [show nested kind (.mk .parens [c]) = (nested kind c).map (0 :: ·) by simp [nested]]
        simp only [walkAll, allFrom, List.append_nil]
        cases hu' : unwinded kind above with
        | true => rw [hu'] at ih; simpa using ih
        | false => rw [hu'] at ih; simpa using ih
      · have hu : unwinded kind (k :: above) = false := by
          unfold unwinded
          rw [if_neg h, if_pos hpar]
        have hne : nested kind (.mk k cs) = [] := by
          cases k with
          | parens => exact absurd rfl hpar
          | _ => simp [nested, h]
        rw [hne]
        have := walkAll_plain kind hk hp cs (k :: above) 0 hu hn.2
        simpa using this
theorem walkAll_group (kind : Kind) (hk : kind ≠ .parens) (hp : kind = .union ∨ kind = .intersection) :
    ∀ (cs : List Node) (above : List Kind) (i : Nat), unwinded kind above = true → ProperAll cs →
      (examined kind i cs ++ walkAll kind above i cs).Perm (allFrom kind true i cs)
  | [], above, i, _, _ => by simp [examined, walkAll, allFrom]
  | c :: cs, above, i, hu, hn => by
    have ih1 := walk_perm kind hk hp c above hn.1
    rw [hu] at ih1
    simp only [if_true] at ih1
    have ih1 := ih1.map (i :: ·)
    rw [List.map_append] at ih1
    have ih2 := walkAll_group kind hk hp cs above (i + 1) hu hn.2
    simp only [examined, walkAll, allFrom, if_true]
    rw [show ([i] :: (nested kind c).map (i :: ·) ++ examined kind (i + 1) cs) = ([[i]] ++ (nested kind c).map (i :: ·)) ++ examined kind (i + 1) cs from rfl]
    refine shuffle.trans ?_
    refine List.Perm.append ?_ ih2
    rw [List.append_assoc]
    exact List.Perm.append_left _ ih1
theorem walkAll_plain (kind : Kind) (hk : kind ≠ .parens) (hp : kind = .union ∨ kind = .intersection) :
    ∀ (cs : List Node) (above : List Kind) (i : Nat), unwinded kind above = false → ProperAll cs →
      (walkAll kind above i cs).Perm (allFrom kind false i cs)
  | [], above, i, _, _ => by simp [walkAll, allFrom]
  | c :: cs, above, i, hu, hn => by
    have ih1 := walk_perm kind hk hp c above hn.1
    rw [hu] at ih1
    have ih1 := ih1.map (i :: ·)
    have ih2 := walkAll_plain kind hk hp cs above (i + 1) hu hn.2
    simp only [walkAll, allFrom]
    refine List.Perm.append ?_ ih2
    simpa using ih1
end

/-- C135.  Unless unions (or intersections) are ignored, exactly the constituents of unions (intersections) are examined, each exactly once, however they
are nested and parenthesised. -/
theorem C135_examined (ignoreIntersections ignoreUnions : Bool) (file : Node) (h : Proper file) :
    ((look ignoreIntersections ignoreUnions file).1.Nodup ∧ (look ignoreIntersections ignoreUnions file).2.Nodup) ∧
    (∀ p, p ∈ (look ignoreIntersections ignoreUnions file).1 ↔ ignoreIntersections = false ∧ Constituent .intersection file p) ∧
    (∀ p, p ∈ (look ignoreIntersections ignoreUnions file).2 ↔ ignoreUnions = false ∧ Constituent .union file p) := by
  have k1 : (walk .intersection [] file).Perm (all .intersection file) := by
    have := walk_perm .intersection (by decide) (.inr rfl) file [] h
    simpa [unwinded] using this
  have k2 : (walk .union [] file).Perm (all .union file) := by
    have := walk_perm .union (by decide) (.inl rfl) file [] h
    simpa [unwinded] using this
  unfold look
  refine ⟨⟨?_, ?_⟩, fun p => ?_, fun p => ?_⟩
  · cases ignoreIntersections with
    | true => exact .nil
    | false => exact k1.symm.nodup (all_nodup _ _)
  · cases ignoreUnions with
    | true => exact .nil
    | false => exact k2.symm.nodup (all_nodup _ _)
  · cases ignoreIntersections with
    | true => simp
    | false => simp [k1.mem_iff, all_mem]
  · cases ignoreUnions with
    | true => simp
    | false => simp [k2.mem_iff, all_mem]

/-! ## Examples -/

def name : Node := .mk .other []

/-- `A | (B | C) | F<(D | E & G)>` -/
def sample : Node := .mk .union [name, .mk .parens [.mk .union [name, name]], .mk .other [.mk .parens [.mk .union [name, .mk .intersection [name, name]]]]]

example : look false false sample = ([[2, 0, 0, 1, 0], [2, 0, 0, 1, 1]], [[0], [1], [1, 0, 0], [1, 0, 1], [2], [2, 0, 0, 0], [2, 0, 0, 1]]) := by decide
example : look true true sample = ([], []) := by decide
example : Proper sample := by simp [sample, name, Proper, ProperAll]

end Tsgolint.GroupPlaces
