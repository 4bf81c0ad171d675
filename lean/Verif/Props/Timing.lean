import Verif.Spec.Timing
import Verif.Props.Worker
/-! # C25: timing totals -/
namespace Tsgolint.Timing
open Tsgolint.Worker (Stat)

theorem Stat.ext' {a b : Stat} (h1 : a.duration = b.duration) (h2 : a.calls = b.calls) : a = b := by
  cases a; cases b; simp_all

theorem foldl_mergeOne (order : List (String × Stat)) (hn : (order.map (·.1)).Nodup) (store : Map) (k : String) :
    (order.foldl (fun m e => mergeOne m e.1 e.2) store) k =
      match order.find? (fun e => e.1 = k) with
      | some e => some (((store k).getD ⟨0, 0⟩).add e.2)
      | none => store k := by
  induction order generalizing store with
  | nil => rfl
  | cons e l ih =>
    simp only [List.map_cons, List.nodup_cons] at hn
    rw [List.foldl_cons, ih hn.2, List.find?_cons]
    by_cases h : e.1 = k
    · subst h
      have hno : l.find? (fun x => decide (x.1 = e.1)) = none := by
        rw [List.find?_eq_none]; intro x hx hh
        exact hn.1 (List.mem_map.2 ⟨x, hx, by simpa using hh⟩)
      simp [hno, mergeOne]
    · have h' : ¬ k = e.1 := fun hh => h hh.symm
      simp only [h, decide_false, mergeOne, h', if_false]

theorem merge_eq {order : List (String × Stat)} {m : Map} (h : Enumerates order m) (store : Map) (k : String) :
    merge store order k = match m k with
      | some s => some (((store k).getD ⟨0, 0⟩).add s)
      | none => store k := by
  have hfold := foldl_mergeOne order h.1 store k
  have hmerge : merge store order k = (order.foldl (fun m e => mergeOne m e.1 e.2) store) k := by
    unfold merge; split
    · rename_i h0; rw [List.length_eq_zero_iff.1 h0]; rfl
    · rfl
  rw [hmerge, hfold]
  cases hm : m k with
  | none =>
    have hno : order.find? (fun x => decide (x.1 = k)) = none := by
      rw [List.find?_eq_none]; intro x hx hh
      have hh : x.1 = k := by simpa using hh
      have := (h.2 x.1 x.2).1 hx
      rw [hh, hm] at this; cases this
    rw [hno]
  | some s =>
    cases hf : order.find? (fun x => decide (x.1 = k)) with
    | none =>
      rw [List.find?_eq_none] at hf
      have := hf (k, s) ((h.2 k s).2 hm)
      simp at this
    | some e =>
      have h1 : e.1 = k := by simpa using List.find?_some hf
      have h2 := (h.2 e.1 e.2).1 (List.mem_of_find?_eq_some hf)
      rw [h1, hm] at h2; cases h2; rfl

theorem merges_eq (orders : List (List (String × Stat))) (ms : List Map) (h : List.Forall₂ Enumerates orders ms) (k : String) :
    ∀ store : Map, ((orders.foldl merge store k).isSome = ((store k).isSome || ms.any fun m => (m k).isSome)) ∧
      ((orders.foldl merge store k).getD ⟨0, 0⟩).duration = ((store k).getD ⟨0, 0⟩).duration + sumDuration ms k ∧
      ((orders.foldl merge store k).getD ⟨0, 0⟩).calls = ((store k).getD ⟨0, 0⟩).calls + sumCalls ms k := by
  induction h with
  | nil => intro store; simp [sumDuration, sumCalls]
  | @cons o m os ms' h1 _ ih =>
    intro store
    obtain ⟨i1, i2, i3⟩ := ih (merge store o)
    have hm := merge_eq h1 store k
    rw [List.foldl_cons, i1, i2, i3, hm]
    cases hmk : m k with
    | none => simp [sumDuration, sumCalls, hmk]
    | some s => simp [sumDuration, sumCalls, hmk, Stat.add, Worker.Stat.add]; omega

theorem less_irrefl_total {a b : Record} (h1 : cmp a b ≤ 0) (h2 : cmp b a ≤ 0) : a.duration = b.duration ∧ a.ruleName = b.ruleName := by
  unfold cmp less at h1 h2
  by_cases hd : a.duration = b.duration
  · refine ⟨hd, ?_⟩
    simp only [hd, ne_eq, not_true_eq_false, if_false] at h1 h2
    by_cases h3 : a.ruleName < b.ruleName
    · have h4 : ¬ b.ruleName < a.ruleName := fun h => String.lt_asymm h3 h
      simp [h3, h4] at h2
    · by_cases h4 : b.ruleName < a.ruleName
      · simp [h3, h4] at h1
      · exact String.le_antisymm h4 h3
  · exfalso
    have hd' : ¬ b.duration = a.duration := fun h => hd h.symm
    simp only [hd, hd', ne_eq, not_false_eq_true, if_true] at h1 h2
    by_cases h3 : a.duration > b.duration
    · have : ¬ b.duration > a.duration := by omega
      simp [h3, this] at h2
    · have : b.duration > a.duration := by omega
      simp [h3, this] at h1

theorem cmp_le {a b : Record} (h : cmp a b ≤ 0) :
    a.duration > b.duration ∨ (a.duration = b.duration ∧ a.ruleName ≤ b.ruleName) := by
  unfold cmp less at h
  by_cases hd : a.duration = b.duration
  · refine .inr ⟨hd, ?_⟩
    simp only [hd, ne_eq, not_true_eq_false, if_false] at h
    by_cases h3 : b.ruleName < a.ruleName
    · have h4 : ¬ a.ruleName < b.ruleName := fun h => String.lt_asymm h3 h
      simp [h3, h4] at h
    · exact h3
  · refine .inl ?_
    have hd' : ¬ b.duration = a.duration := fun h => hd h.symm
    simp only [hd, hd', ne_eq, not_false_eq_true, if_true] at h
    by_cases h3 : a.duration > b.duration
    · exact h3
    · have : b.duration > a.duration := by omega
      simp [h3, this] at h

/-- C25: whatever the orders of merging and enumeration and the sorting algorithm, the records are exactly one per rule name that
some worker recorded, each carrying the sums over all workers, in decreasing order of duration and, among equal durations,
increasing order of name. -/
theorem C25_records (ms : List Map) (records : List Record) (h : Collected ms records) :
    (records.map (·.ruleName)).Nodup ∧
    (∀ r, r ∈ records ↔ (∃ m ∈ ms, (m r.ruleName).isSome) ∧ r.duration = sumDuration ms r.ruleName ∧ r.calls = sumCalls ms r.ruleName) ∧
    records.Pairwise (fun a b => a.duration > b.duration ∨ (a.duration = b.duration ∧ a.ruleName ≤ b.ruleName)) := by
  obtain ⟨orders, ms', order, S, hp, hf, he, rfl⟩ := h
  have hperm := S.perm (order.map fun e => (⟨e.1, e.2.duration, e.2.calls⟩ : Record))
  refine ⟨?_, ?_, ?_⟩
  · refine (hperm.map (·.ruleName)).symm.nodup ?_
    simpa [Function.comp_def] using he.1
  · intro r
    obtain ⟨i1, i2, i3⟩ := merges_eq orders ms' hf r.ruleName (fun _ => none)
    have hsd : sumDuration ms' r.ruleName = sumDuration ms r.ruleName := by
      have : ∀ {a b : List Map}, a.Perm b → sumDuration a r.ruleName = sumDuration b r.ruleName := by
        intro a b h; induction h <;> simp_all [sumDuration]; omega
      exact this hp
    have hsc : sumCalls ms' r.ruleName = sumCalls ms r.ruleName := by
      have : ∀ {a b : List Map}, a.Perm b → sumCalls a r.ruleName = sumCalls b r.ruleName := by
        intro a b h; induction h <;> simp_all [sumCalls]; omega
      exact this hp
    have hany : (ms'.any fun m => (m r.ruleName).isSome) = true ↔ ∃ m ∈ ms, (m r.ruleName).isSome := by
      rw [List.any_eq_true]; exact ⟨fun ⟨m, hm, h⟩ => ⟨m, hp.mem_iff.1 hm, h⟩, fun ⟨m, hm, h⟩ => ⟨m, hp.mem_iff.2 hm, h⟩⟩
    simp only [Option.isSome_none, Bool.false_or, Option.getD_none] at i1 i2 i3
    unfold collect
    rw [hperm.mem_iff, List.mem_map, ← hany, ← i1, ← hsd, ← hsc]
    constructor
    · rintro ⟨e, hm, rfl⟩
      have := (he.2 e.1 e.2).1 hm
      simp only [this, Option.getD_some, Option.isSome_some] at i2 i3 ⊢
      exact ⟨trivial, by omega, by omega⟩
    · rintro ⟨h1, h2, h3⟩
      obtain ⟨s, hs⟩ := Option.isSome_iff_exists.1 h1
      refine ⟨(r.ruleName, s), (he.2 _ _).2 hs, ?_⟩
      simp only [hs, Option.getD_some] at i2 i3
      cases r; simp_all
  · exact (S.sorted _).imp fun h => cmp_le h

theorem names_inj (l : List Record) (hn : (l.map (·.ruleName)).Nodup) :
    ∀ a ∈ l, ∀ b ∈ l, a.ruleName = b.ruleName → a = b := by
  induction l with
  | nil => intro a ha; cases ha
  | cons x l ih =>
    intro a ha b hb h
    simp only [List.map_cons, List.nodup_cons] at hn
    rcases List.mem_cons.1 ha with rfl | ha'
    · rcases List.mem_cons.1 hb with rfl | hb'
      · rfl
      · exact absurd (List.mem_map.2 ⟨b, hb', h.symm⟩) hn.1
    · rcases List.mem_cons.1 hb with rfl | hb'
      · exact absurd (List.mem_map.2 ⟨a, ha', h⟩) hn.1
      · exact ih hn.2 a ha' b hb' h

theorem eq_of_pairwise_perm {l₁ l₂ : List Record} (hp : l₁.Perm l₂) (hn : (l₁.map (·.ruleName)).Nodup)
    (h1 : l₁.Pairwise (fun a b => cmp a b ≤ 0)) (h2 : l₂.Pairwise (fun a b => cmp a b ≤ 0)) : l₁ = l₂ := by
  have inj : ∀ a ∈ l₁, ∀ b ∈ l₁, a.ruleName = b.ruleName → a = b := names_inj l₁ hn
  refine List.Perm.eq_of_pairwise ?_ h1 h2 hp
  intro a b ha hb hab hba
  exact inj a ha b (hp.mem_iff.2 hb) (less_irrefl_total hab hba).2

/-- C25: the whole record list is the same for every order of merging, every enumeration and every sorting algorithm. -/
theorem C25_schedule_independent (ms : List Map) (r₁ r₂ : List Record) (h₁ : Collected ms r₁) (h₂ : Collected ms r₂) : r₁ = r₂ := by
  have a := C25_records ms r₁ h₁
  have b := C25_records ms r₂ h₂
  have nd : ∀ l : List Record, (l.map (·.ruleName)).Nodup → l.Nodup := fun l h => (List.pairwise_map.1 h).imp fun h e => h (congrArg _ e)
  have hp : r₁.Perm r₂ := by
    rw [List.perm_ext_iff_of_nodup (nd _ a.1) (nd _ b.1)]
    intro r; rw [a.2.1, b.2.1]
  obtain ⟨_, _, _, S₁, _, _, _, e₁⟩ := h₁
  obtain ⟨_, _, _, S₂, _, _, _, e₂⟩ := h₂
  exact eq_of_pairwise_perm hp a.1 (e₁ ▸ S₁.sorted _) (e₂ ▸ S₂.sorted _)

open Tsgolint.Worker in
/-- C25 end to end: if the files are shared out among workers in any way (`shares`), the number of calls in the timing message is, for
each rule, the number of its calls over all files — the same for every way of sharing them out. -/
theorem C25_total_calls {File Node Range : Type} (P : Params File Node Range) (hs : ShuffleOk P) (hk : KeysOk P)
    (durs : List (Nat → Int)) (shares : List (List File)) (hl : durs.length = shares.length) (records : List Record)
    (h : Collected ((durs.zip shares).map fun x => (tWork P x.1 x.2).localTimings) records)
    (files : List File) (hf : shares.flatten.Perm files) (name : String) (n : Nat) :
    (∃ d, ⟨name, d, n⟩ ∈ records) ↔ 0 < n ∧ n = (files.flatMap (fileCalls P)).count name := by
  have hr := (C25_records _ _ h).2.1
  have hc : ∀ (durs : List (Nat → Int)) (shares : List (List File)), durs.length = shares.length →
      sumCalls ((durs.zip shares).map fun x => (tWork P x.1 x.2).localTimings) name =
        (shares.flatten.flatMap (fileCalls P)).count name := by
    intro durs
    induction durs with
    | nil => intro shares hl; cases shares <;> simp_all [sumCalls]
    | cons d ds ih =>
      intro shares hl
      cases shares with
      | nil => simp at hl
      | cons sh shs =>
        have := ih shs (by simpa using hl)
        simp only [sumCalls, List.zip_cons_cons, List.map_cons, List.sum_cons, List.flatten_cons, List.flatMap_append,
          List.count_append] at this ⊢
        rw [this, C24_call_counts P hs hk]
        split
        · rfl
        · rename_i hno; simp [List.count_eq_zero.2 hno]
  have hcount : (shares.flatten.flatMap (fileCalls P)).count name = (files.flatMap (fileCalls P)).count name :=
    (List.Perm.flatMap_right _ hf).count_eq _
  have hsum := (hc durs shares hl).trans hcount
  constructor
  · rintro ⟨d, hm⟩
    obtain ⟨⟨m, hm, hs1⟩, _, h3⟩ := (hr _).1 hm
    have h3 : n = (files.flatMap (fileCalls P)).count name := by rw [← hsum]; exact h3
    refine ⟨?_, h3⟩
    rw [h3, ← hcount]
    obtain ⟨x, hx, rfl⟩ := List.mem_map.1 hm
    have hxs : x.2 ∈ shares := (List.of_mem_zip hx).2
    rw [C24_call_counts P hs hk] at hs1
    have hin : name ∈ x.2.flatMap (fileCalls P) := by
      by_cases hh : name ∈ x.2.flatMap (fileCalls P)
      · exact hh
      · simp [hh] at hs1
    rw [List.count_pos_iff, List.mem_flatMap]
    obtain ⟨f, hf1, hf2⟩ := List.mem_flatMap.1 hin
    exact ⟨f, List.mem_flatten.2 ⟨_, hxs, hf1⟩, hf2⟩
  · rintro ⟨hpos, rfl⟩
    rw [← hcount, List.count_pos_iff, List.mem_flatMap] at hpos
    obtain ⟨f, hf1, hf2⟩ := hpos
    obtain ⟨sh, hsh, hf1⟩ := List.mem_flatten.1 hf1
    obtain ⟨i, hi, rfl⟩ := List.mem_iff_getElem.1 hsh
    refine ⟨sumDuration _ name, (hr _).2 ⟨⟨(tWork P (durs[i]) (shares[i])).localTimings, ?_, ?_⟩, rfl, hsum.symm⟩⟩
    · refine List.mem_map.2 ⟨(durs[i], shares[i]), ?_, rfl⟩
      rw [List.mem_iff_getElem]
      exact ⟨i, by simp; omega, by simp⟩
    · rw [C24_call_counts P hs hk, if_pos (List.mem_flatMap.2 ⟨f, hf1, hf2⟩)]; rfl

/-- C25: nothing is lost in the message: names, durations (never negative, being sums of clock differences) and calls. -/
theorem C25_message (records : List Record) (h : ∀ r ∈ records, 0 ≤ r.duration) :
    (payload records).map (fun w => (⟨w.ruleName, w.duration, w.calls⟩ : Record)) = records := by
  induction records with
  | nil => rfl
  | cons r l ih =>
    have h0 := h r (by simp)
    simp only [payload, List.map_cons, List.map_map] at ih ⊢
    rw [ih fun x hx => h x (by simp [hx])]
    congr 1
    rcases r with ⟨a, b, c⟩
    simp only [Record.mk.injEq, and_true, true_and]
    simp only at h0
    omega

/-- Non-vacuity: two workers, two merge orders, and a sorter. -/
def exampleMaps : List Map :=
  [fun k => if k = "a" then some ⟨5, 2⟩ else none, fun k => if k = "b" then some ⟨9, 1⟩ else if k = "a" then some ⟨4, 1⟩ else none]

theorem cmp_trans (a b c : Record) (h1 : cmp a b ≤ 0) (h2 : cmp b c ≤ 0) : cmp a c ≤ 0 := by
  have key : ∀ {a b : Record}, (a.duration > b.duration ∨ (a.duration = b.duration ∧ a.ruleName ≤ b.ruleName)) → cmp a b ≤ 0 := by
    intro a b h
    unfold cmp less
    rcases h with h | ⟨h, h'⟩
    · have : a.duration ≠ b.duration := by omega
      simp [this, h]
    · have h4 : ¬ b.ruleName < a.ruleName := h'
      simp [h, h4]; split <;> omega
  apply key
  rcases cmp_le h1 with h1 | ⟨h1, h1'⟩ <;> rcases cmp_le h2 with h2 | ⟨h2, h2'⟩
  · left; omega
  · left; omega
  · left; omega
  · exact .inr ⟨by omega, String.le_trans h1' h2'⟩

theorem cmp_total (a b : Record) : cmp a b ≤ 0 ∨ cmp b a ≤ 0 := by
  unfold cmp; by_cases h : less a b
  · left; simp [h]
  · right; simp [h]; split <;> simp

example : ∃ r, Collected exampleMaps r ∧ r = [⟨"a", 9, 3⟩, ⟨"b", 9, 1⟩] := by
  refine ⟨_, ⟨[[("b", ⟨9, 1⟩), ("a", ⟨4, 1⟩)], [("a", ⟨5, 2⟩)]], exampleMaps.reverse, [("b", ⟨9, 1⟩), ("a", ⟨9, 3⟩)],
    Sorter.ofMergeSort cmp cmp_trans cmp_total, List.reverse_perm _, ?_, ?_, rfl⟩, ?_⟩
  rotate_left 2
  · refine eq_of_pairwise_perm ((Sorter.perm _ _).trans (.swap _ _ _)) ?_ (Sorter.sorted _ _) (by decide)
    exact ((Sorter.perm _ _).map _).symm.nodup (by decide)
  · refine .cons ⟨by decide, ?_⟩ (.cons ⟨by decide, ?_⟩ .nil)
    · intro k s; simp only [List.mem_cons, List.not_mem_nil, or_false, Prod.mk.injEq]; grind
    · intro k s; simp only [List.mem_cons, List.not_mem_nil, or_false, Prod.mk.injEq]; grind
  · refine ⟨by decide, ?_⟩
    intro k s
    simp only [List.foldl, merge, mergeOne, List.length_cons, List.length_nil, List.mem_cons, List.not_mem_nil, or_false, Prod.mk.injEq]
    by_cases h1 : k = "b" <;> by_cases h2 : k = "a" <;> simp_all [Worker.Stat.add, mergeOne] <;> grind

end Tsgolint.Timing
