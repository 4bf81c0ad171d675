import Verif.Proof.Workload
/-! # C11, C12: the workload -/
namespace Tsgolint.Workload
open Tsgolint.Payload (Config Rule)

/-- C11.  The rules in force for a path are those of the last request naming it (within a config or across configs); a path that
was not requested has no configuration. -/
theorem C11_last_config_wins (configs : List Config) (path : String) :
    (collect configs).configs path = lastRequest configs path := by
  rw [collect_eq, (foldl_addReq _ _).2]; simp [lastRequest]

/-- C11.  `lastRequest` in words: the requests split at an occurrence of the path after which it is never requested again. -/
theorem C11_last_request_spec (configs : List Config) (path : String) (rules : List Rule) :
    lastRequest configs path = some rules ↔
      ∃ before after, requests configs = before ++ (path, rules) :: after ∧ ∀ r ∈ after, r.1 ≠ path := by
  unfold lastRequest
  generalize requests configs = l
  induction l with
  | nil => simp
  | cons r l ih =>
    rw [List.reverse_cons, List.find?_append]
    cases hf : l.reverse.find? (fun r => r.1 = path) with
    | some x =>
      rw [hf] at ih
      simp only [Option.map_some, Option.some_or] at ih ⊢
      rw [ih]
      constructor
      · rintro ⟨b, a, h, ha⟩; exact ⟨r :: b, a, by simp [h], ha⟩
      · rintro ⟨b, a, h, ha⟩
        cases b with
        | nil =>
          simp only [List.nil_append, List.cons.injEq] at h
          have hx := List.mem_of_find?_eq_some hf
          have hp := List.find?_some hf
          simp only [List.mem_reverse] at hx
          exact absurd (by simpa using hp) (ha x (h.2 ▸ hx))
        | cons y b => simp only [List.cons_append, List.cons.injEq] at h; exact ⟨b, a, h.2, ha⟩
    | none =>
      have hnone : ∀ x ∈ l, x.1 ≠ path := by
        intro x hx; simpa using (List.find?_eq_none.1 hf) x (by simpa using hx)
      simp only [Option.none_or]
      constructor
      · intro h
        by_cases hr : r.1 = path
        · simp [hr] at h
          refine ⟨[], l, ?_, hnone⟩
          rw [← h, ← hr]; rfl
        · simp [hr] at h
      · rintro ⟨b, a, h, ha⟩
        cases b with
        | nil => simp only [List.nil_append, List.cons.injEq] at h; simp [h.1]
        | cons y b =>
          simp only [List.cons_append, List.cons.injEq] at h
          exact absurd rfl (hnone (path, rules) (by simp [h.2]))

/-- The files handed to the tsconfig lookup are exactly the requested paths. -/
theorem C11_requested_files (configs : List Config) : (collect configs).files = (requests configs).map (·.1) := by
  rw [collect_eq, (foldl_addReq _ _).1]; rfl

/-- C12.  Where each file goes: a file is in the program of tsconfig `c` iff it was requested and its lookup gave `c`; it is
unmatched iff it was requested and the lookup gave nothing.  In particular no file is lost, added or put in two buckets. -/
theorem C12_buckets (S : Sorter byLength) (t : String → String) (files order : List String) (ho : KeysOf order files)
    (f c : String) :
    (f ∈ (build S t order).programs c ↔ f ∈ files ∧ t f = c ∧ c ≠ "") ∧
    (f ∈ (build S t order).unmatched ↔ f ∈ files ∧ t f = "") := by
  constructor
  · simp only [build, sortPrograms, (S.perm _).mem_iff, assign_programs]
    by_cases h : c = "" <;> simp [h, ho.2]
  · simp [build, sortPrograms, assign_unmatched, ho.2]

/-- C11/C12.  Each requested file occurs exactly once in the whole workload, however often it was requested: it has exactly one
occurrence in the bucket its lookup designates (and none elsewhere, by `C12_buckets`). -/
theorem C12_exactly_once (S : Sorter byLength) (t : String → String) (files order : List String) (ho : KeysOf order files)
    (f : String) (hf : f ∈ files) :
    (t f ≠ "" → ((build S t order).programs (t f)).count f = 1 ∧ (build S t order).unmatched.count f = 0 ∧
      ∀ c, c ≠ t f → ((build S t order).programs c).count f = 0) ∧
    (t f = "" → (build S t order).unmatched.count f = 1 ∧ ∀ c, ((build S t order).programs c).count f = 0) := by
  have hb := C12_buckets S t files order ho f
  have hn1 : ∀ c, ((build S t order).programs c).Nodup := by
    intro c
    simp only [build, sortPrograms, (S.perm _).nodup_iff, assign_programs]
    split
    · simp
    · exact ho.1.filter _
  have hn2 : (build S t order).unmatched.Nodup := by
    simp only [build, sortPrograms, assign_unmatched]; exact ho.1.filter _
  refine ⟨fun h => ⟨?_, ?_, fun c hc => ?_⟩, fun h => ⟨?_, fun c => ?_⟩⟩
  · exact count_one (hn1 _) ((hb _).1.2 ⟨hf, rfl, h⟩)
  · exact List.count_eq_zero.2 (fun hm => h ((hb "").2.1 hm).2)
  · exact List.count_eq_zero.2 (fun hm => hc ((hb c).1.1 hm).2.1.symm)
  · exact count_one hn2 ((hb "").2.2 ⟨hf, h⟩)
  · exact List.count_eq_zero.2 (fun hm => ((hb c).1.1 hm).2.2 (((hb c).1.1 hm).2.1.symm.trans h))

/-- C12.  Every program is sorted by decreasing path length. -/
theorem C12_longest_first (S : Sorter byLength) (t : String → String) (order : List String) (c : String) :
    ((build S t order).programs c).Pairwise (fun a b => b.utf8ByteSize ≤ a.utf8ByteSize) :=
  (S.sorted _).imp (by intro a b h; simp only [byLength] at h; omega)

/-- C12.  Go's map enumeration order does not matter: two orders (and two sorting algorithms) give buckets with the same files and
the same sequence of path lengths. -/
theorem C12_order_independent (S S' : Sorter byLength) (t : String → String) (files o o' : List String)
    (ho : KeysOf o files) (ho' : KeysOf o' files) (c : String) :
    ((build S t o).programs c).Perm ((build S' t o').programs c) ∧
    (build S t o).unmatched.Perm (build S' t o').unmatched ∧
    ((build S t o).programs c).map String.utf8ByteSize = ((build S' t o').programs c).map String.utf8ByteSize := by
  have hp : o.Perm o' := (List.perm_ext_iff_of_nodup ho.1 ho'.1).2 (fun a => by rw [ho.2, ho'.2])
  have h1 : ((build S t o).programs c).Perm ((build S' t o').programs c) := by
    simp only [build, sortPrograms]
    refine ((S.perm _).trans ?_).trans (S'.perm _).symm
    rw [assign_programs, assign_programs]
    split
    · exact .nil
    · exact hp.filter _
  refine ⟨h1, ?_, ?_⟩
  · simp only [build, sortPrograms, assign_unmatched]; exact hp.filter _
  · refine List.Perm.eq_of_pairwise (le := fun a b => b ≤ a) ?_ ?_ ?_ (h1.map _)
    · intro a b _ _ h h'; omega
    · exact List.pairwise_map.2 (C12_longest_first S t o c)
    · exact List.pairwise_map.2 (C12_longest_first S' t o' c)

/-- C11 (from payload to workload).  A path requested any number of times in any configs appears once in the workload and is linted
with the rules of its last request. -/
theorem C11_end_to_end (S : Sorter byLength) (t : String → String) (configs : List Config) (order : List String)
    (ho : KeysOf order (collect configs).files) (path : String) (rules : List Rule)
    (hlast : lastRequest configs path = some rules) :
    (collect configs).configs path = some rules ∧
    (if t path = "" then (build S t order).unmatched else (build S t order).programs (t path)).count path = 1 := by
  refine ⟨by rw [C11_last_config_wins, hlast], ?_⟩
  have hm : path ∈ (collect configs).files := by
    obtain ⟨b, a, h, _⟩ := (C11_last_request_spec configs path rules).1 hlast
    rw [C11_requested_files, h]; simp
  have := C12_exactly_once S t _ order ho path hm
  split
  · rename_i h; exact (this.2 h).1
  · rename_i h; exact (this.1 h).1

/-- C11.  Slash normalisation: the requested path and its backslash spelling are the same request, and a normalised path has no
backslash. -/
theorem C11_slashes (s : String) :
    normalizeSlashes (normalizeSlashes s) = normalizeSlashes s ∧ '\\' ∉ (normalizeSlashes s).toList ∧
    (normalizeSlashes s).toList.length = s.toList.length := by
  refine ⟨?_, ?_, by simp [normalizeSlashes]⟩
  · simp only [normalizeSlashes, String.toList_ofList, List.map_map]
    congr 1
    apply List.map_congr_left
    intro c _
    simp only [Function.comp]
    split
    · decide
    · rfl
  · simp only [normalizeSlashes, String.toList_ofList, List.mem_map, not_exists, not_and]
    intro c _ h
    split at h
    · exact absurd h (by decide)
    · exact absurd h ‹_›

/-- C11 (rule lookup).  With distinct registered names, the rules run for a file are the configured ones, in the configured order,
each with its own options; the process panics iff some configured name is not registered. -/
theorem C11_rules_for_file {Run : Type} (all : List (Registered Run)) (hall : (all.map (·.name)).Nodup)
    (configs : String → Option (List Rule)) (fileName : String) :
    (∀ out, getRules all configs fileName = some out ↔
      out.length = ((configs fileName).getD []).length ∧
      ∀ p ∈ ((configs fileName).getD []).zip out, ∃ r ∈ all, r.name = p.1.name ∧ p.2 = (p.1.name, r.run p.1.options)) ∧
    (getRules all configs fileName = none ↔ ∃ hr ∈ (configs fileName).getD [], ∀ r ∈ all, r.name ≠ hr.name) := by
  have key := byName_spec all hall
  have keyN : ∀ k, byName all k = none ↔ ∀ r ∈ all, r.name ≠ k := by
    intro k
    cases h : byName all k with
    | none =>
      simp only [true_iff]
      intro r hr hk
      rw [(key k r).2 ⟨hr, hk⟩] at h; cases h
    | some r =>
      simp only [reduceCtorEq, false_iff]
      intro hn
      exact hn r ((key k r).1 h).1 ((key k r).1 h).2
  unfold getRules
  generalize (configs fileName).getD [] = cfg
  induction cfg with
  | nil =>
    refine ⟨fun out => ?_, by simp [Payload.allSome]⟩
    cases out <;> simp [Payload.allSome]
  | cons hr cfg ih =>
    obtain ⟨ih1, ih2⟩ := ih
    cases hb : byName all hr.name with
    | none =>
      have hn := (keyN _).1 hb
      refine ⟨fun out => ?_, ?_⟩
      · constructor
        · intro h; simp [Payload.allSome, configured, hb] at h
        · rintro ⟨hl, hz⟩
          cases out with
          | nil => simp at hl
          | cons o os =>
            obtain ⟨r, hr', he, _⟩ := hz (hr, o) (by simp)
            exact absurd he (hn r hr')
      · simp only [Payload.allSome, configured, hb]
        exact ⟨fun _ => ⟨hr, by simp, hn⟩, fun _ => trivial⟩
    | some r =>
      obtain ⟨hr1, hr2⟩ := (key _ _).1 hb
      have hsome : ∃ r ∈ all, r.name = hr.name := ⟨r, hr1, hr2⟩
      cases hm : Payload.allSome (configured all) cfg with
      | none =>
        rw [hm] at ih1 ih2
        refine ⟨fun out => ?_, ?_⟩
        · simp only [Payload.allSome, configured, hb, hm]
          constructor
          · intro h; cases h
          · rintro ⟨hl, hz⟩
            cases out with
            | nil => simp at hl
            | cons o os =>
              have := (ih1 os).2 ⟨by simpa using hl, fun p hp => hz p (by simp [hp])⟩
              cases this
        · simp only [Payload.allSome, configured, hb, hm]
          refine ⟨fun _ => ?_, fun _ => trivial⟩
          obtain ⟨x, hx, hx'⟩ := ih2.1 rfl
          exact ⟨x, by simp [hx], hx'⟩
      | some os' =>
        rw [hm] at ih1 ih2
        refine ⟨fun out => ?_, ?_⟩
        · simp only [Payload.allSome, configured, hb, hm]
          constructor
          · intro h
            injection h with h; subst h
            obtain ⟨hl, hz⟩ := (ih1 os').1 rfl
            refine ⟨by simp [hl], ?_⟩
            intro p hp
            simp only [List.zip_cons_cons, List.mem_cons] at hp
            rcases hp with rfl | hp
            · exact ⟨r, hr1, hr2, by simp [hr2]⟩
            · exact hz p hp
          · rintro ⟨hl, hz⟩
            cases out with
            | nil => simp at hl
            | cons o os =>
              have := (ih1 os).2 ⟨by simpa using hl, fun p hp => hz p (by simp [hp])⟩
              injection this with this
              obtain ⟨r', h1, h2, h3⟩ := hz (hr, o) (by simp)
              have : r' = r := by
                have := (key hr.name r').2 ⟨h1, h2⟩
                rw [hb] at this; injection this with this; exact this.symm
              subst this
              simp_all
        · simp only [Payload.allSome, configured, hb, hm]
          constructor
          · intro h; cases h
          · rintro ⟨x, hx, hx'⟩
            rcases List.mem_cons.1 hx with rfl | hx
            · exact absurd hr2 (hx' r hr1)
            · have := ih2.2 ⟨x, hx, hx'⟩; cases this

/-- Non-vacuity: two configs, a file named three times (once with backslashes), one enumeration order. -/
example : lastRequest [⟨["a\\b.ts", "c.ts"], [⟨"r1", none⟩]⟩, ⟨["a/b.ts"], [⟨"r2", none⟩]⟩] "a/b.ts" = some [⟨"r2", none⟩] ∧
    KeysOf ["c.ts", "a/b.ts"] (collect [⟨["a\\b.ts", "c.ts"], [⟨"r1", none⟩]⟩, ⟨["a/b.ts"], [⟨"r2", none⟩]⟩]).files := by
  constructor
  · rfl
  · refine ⟨by decide, ?_⟩
    intro f
    have : (collect [⟨["a\\b.ts", "c.ts"], [⟨"r1", none⟩]⟩, ⟨["a/b.ts"], [⟨"r2", none⟩]⟩]).files =
        ["a/b.ts", "c.ts", "a/b.ts"] := by decide
    rw [this]; simp; grind

end Tsgolint.Workload
