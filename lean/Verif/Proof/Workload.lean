import Verif.Spec.Workload
namespace Tsgolint.Workload
open Tsgolint.Payload (Config Rule)

def addReq (acc : Acc) (r : String × List Rule) : Acc :=
  { files := acc.files ++ [r.1], configs := fun k => if k = r.1 then some r.2 else acc.configs k }

theorem collect_eq (configs : List Config) : collect configs = (requests configs).foldl addReq ⟨[], fun _ => none⟩ := by
  unfold collect requests
  generalize (⟨[], fun _ => none⟩ : Acc) = a
  induction configs generalizing a with
  | nil => rfl
  | cons c cs ih =>
    rw [List.foldl_cons, ih, List.flatMap_cons, List.foldl_append, List.foldl_map]
    rfl

theorem foldl_addReq (l : List (String × List Rule)) (a : Acc) :
    (l.foldl addReq a).files = a.files ++ l.map (·.1) ∧
    ∀ k, (l.foldl addReq a).configs k = (((l.reverse.find? (fun r => r.1 = k)).map (·.2)).or (a.configs k)) := by
  induction l generalizing a with
  | nil => simp
  | cons r l ih =>
    obtain ⟨h1, h2⟩ := ih (addReq a r)
    refine ⟨by rw [List.foldl_cons, h1]; simp [addReq], fun k => ?_⟩
    rw [List.foldl_cons, h2 k, List.reverse_cons, List.find?_append]
    cases hf : l.reverse.find? (fun r => r.1 = k) with
    | some x => simp
    | none => by_cases h : k = r.1 <;> simp [addReq, h, eq_comm]

theorem assign_programs (t : String → String) (order : List String) (k : String) :
    (assign t order).programs k = if k = "" then [] else order.filter (fun f => t f = k) := by
  suffices h : ∀ (w : Workload), (order.foldl (fun w file =>
      if t file = "" then { w with unmatched := w.unmatched ++ [file] }
      else { w with programs := fun k => if k = t file then w.programs (t file) ++ [file] else w.programs k }) w).programs k
      = w.programs k ++ if k = "" then [] else order.filter (fun f => t f = k) by
    have := h ⟨fun _ => [], []⟩
    rw [List.nil_append] at this
    exact this
  intro w
  induction order generalizing w with
  | nil => simp
  | cons f fs ih =>
    rw [List.foldl_cons, ih]
    by_cases he : t f = ""
    · by_cases hk : k = ""
      · simp [he, hk]
      · simp [he, hk, Ne.symm hk]
    · by_cases hk : k = t f
      · subst hk; simp [he]
      · simp [he, hk, Ne.symm hk]

theorem assign_unmatched (t : String → String) (order : List String) :
    (assign t order).unmatched = order.filter (fun f => t f = "") := by
  suffices h : ∀ (w : Workload), (order.foldl (fun w file =>
      if t file = "" then { w with unmatched := w.unmatched ++ [file] }
      else { w with programs := fun k => if k = t file then w.programs (t file) ++ [file] else w.programs k }) w).unmatched
      = w.unmatched ++ order.filter (fun f => t f = "") by
    have := h ⟨fun _ => [], []⟩
    rw [List.nil_append] at this
    exact this
  intro w
  induction order generalizing w with
  | nil => simp
  | cons f fs ih =>
    rw [List.foldl_cons, ih]
    by_cases he : t f = "" <;> simp [he]

theorem byName_eq {Run : Type} (all : List (Registered Run)) (k : String) :
    byName all k = all.reverse.find? (fun r => r.name = k) := by
  unfold byName
  suffices h : ∀ m : String → Option (Registered Run),
      all.foldl (fun m r k => if k = r.name then some r else m k) m k = (all.reverse.find? (fun r => r.name = k)).or (m k) by
    simpa using h (fun _ => none)
  intro m
  induction all generalizing m with
  | nil => simp
  | cons r rs ih =>
    rw [List.foldl_cons, ih, List.reverse_cons, List.find?_append]
    cases rs.reverse.find? (fun r => r.name = k) with
    | some x => simp
    | none => by_cases h : k = r.name <;> simp [h, eq_comm]

theorem byName_spec {Run : Type} (all : List (Registered Run)) (hall : (all.map (·.name)).Nodup) (k : String)
    (r : Registered Run) : byName all k = some r ↔ r ∈ all ∧ r.name = k := by
  rw [byName_eq]
  have hrev : ((all.reverse).map (·.name)).Nodup := by
    rw [List.map_reverse]; exact (List.reverse_perm _).nodup_iff.2 hall
  have hmem : r ∈ all ↔ r ∈ all.reverse := by simp
  rw [hmem]
  generalize all.reverse = l at *
  clear hmem hall
  induction l with
  | nil => simp
  | cons x l ih =>
    simp only [List.map_cons, List.nodup_cons] at hrev
    by_cases h : x.name = k
    · simp only [List.find?_cons, h, decide_true, Option.some.injEq, List.mem_cons]
      constructor
      · rintro rfl; exact ⟨Or.inl rfl, h⟩
      · rintro ⟨hr | hr, hk⟩
        · exact hr.symm
        · exact absurd (List.mem_map.2 ⟨r, hr, hk.trans h.symm⟩) hrev.1
    · simp only [List.find?_cons, h, decide_false, ih hrev.2, List.mem_cons]
      constructor
      · rintro ⟨h1, h2⟩; exact ⟨Or.inr h1, h2⟩
      · rintro ⟨rfl | h1, h2⟩
        · exact absurd h2 h
        · exact ⟨h1, h2⟩

theorem count_one {l : List String} {f : String} (hn : l.Nodup) (hf : f ∈ l) : l.count f = 1 := by
  have h1 := List.nodup_iff_count.1 hn f
  have h2 := List.count_pos_iff.2 hf
  omega

end Tsgolint.Workload
