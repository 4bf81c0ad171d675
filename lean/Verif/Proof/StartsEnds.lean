import Verif.Spec.StartsEnds
/-! # Lemmas about string methods and simple patterns -/
namespace Tsgolint.StartsEnds

theorem indexOf_zero (s x : Str) : indexOf s x = 0 ↔ x <+: s := by
  unfold indexOf
  rw [List.range_succ_eq_map]
  simp only [List.find?_cons, List.drop_zero]
  cases h : x.isPrefixOf s with
  | true => simpa using h
  | false =>
    simp only
    have h' : ¬ x <+: s := by rw [← List.isPrefixOf_iff_prefix]; simp [h]
    simp only [h', iff_false]
    cases h2 : ((List.range s.length).map Nat.succ).find? (fun k => x.isPrefixOf (s.drop k)) with
    | none => simp
    | some k =>
      have := List.mem_of_find?_eq_some h2
      simp only [List.mem_map] at this
      obtain ⟨a, -, rfl⟩ := this
      simp only [Nat.succ_eq_add_one]; omega

theorem prefix_drop_le {s x : Str} {k : Nat} (h : x <+: s.drop k) : x.length + k ≤ s.length ∨ x = [] := by
  have := h.length_le
  simp only [List.length_drop] at this
  cases x with
  | nil => right; rfl
  | cons a x => left; simp only [List.length_cons] at this ⊢; omega

theorem suffix_iff_drop (s x : Str) (h : x.length ≤ s.length) : x <:+ s ↔ s.drop (s.length - x.length) = x := by
  constructor
  · rintro ⟨t, rfl⟩
    simp
  · intro e
    rw [← e]
    exact List.drop_suffix _ _

theorem find_reverse_range (n k : Nat) (p : Nat → Bool) (hk : k ≤ n) (hp : p k = true) (hgt : ∀ j, k < j → j ≤ n → p j = false) :
    (List.range (n + 1)).reverse.find? p = some k := by
  induction n with
  | zero =>
    obtain rfl : k = 0 := by omega
    simp [hp]
  | succ n ih =>
    rw [List.range_succ, List.reverse_append]
    simp only [List.reverse_cons, List.reverse_nil, List.nil_append, List.cons_append, List.find?_cons]
    by_cases h : k = n + 1
    · subst h; simp [hp]
    · rw [hgt (n + 1) (by omega) (Nat.le_refl _)]
      exact ih (by omega) (fun j h1 h2 => hgt j h1 (by omega))

theorem lastIndexOf_end (s x : Str) (h : s.length + 1 ≠ x.length) :
    lastIndexOf s x = (s.length : Int) - x.length ↔ x <:+ s := by
  unfold lastIndexOf
  constructor
  · intro e
    split at e
    · next k hk =>
      have hp : x.isPrefixOf (s.drop k) = true := (List.find?_eq_some_iff_append.1 hk).1
      rw [List.isPrefixOf_iff_prefix] at hp
      have hle : x.length ≤ s.length := by omega
      rw [suffix_iff_drop _ _ hle]
      have hkk : k = s.length - x.length := by omega
      subst hkk
      obtain ⟨t, ht⟩ := hp
      have := congrArg List.length ht
      simp only [List.length_append, List.length_drop] at this
      have : t = [] := List.length_eq_zero_iff.1 (by omega)
      subst this
      simpa using ht.symm
    · omega
  · intro e
    have hle := e.length_le
    have hd := (suffix_iff_drop _ _ hle).1 e
    have := find_reverse_range s.length (s.length - x.length) (fun k => x.isPrefixOf (s.drop k)) (by omega)
      (by rw [List.isPrefixOf_iff_prefix, hd]; exact List.prefix_refl _)
      (by
        intro j h1 h2
        cases hx : x.isPrefixOf (s.drop j) with
        | false => rfl
        | true =>
          rw [List.isPrefixOf_iff_prefix] at hx
          have := hx.length_le
          simp only [List.length_drop] at this
          omega)
    rw [this]
    exact Int.ofNat_sub hle

theorem take_min (s : Str) (k : Nat) : s.take (min k s.length) = s.take k := by
  rcases Nat.le_total k s.length with h | h
  · rw [Nat.min_eq_left h]
  · rw [Nat.min_eq_right h, List.take_length, List.take_of_length_le h]

theorem slice_from (s : Str) (n : Int) (stop : Option Int) (hstop : stop = none ∨ stop = some (s.length : Int)) :
    slice s n stop = s.drop (relative s.length n) := by
  rcases hstop with rfl | rfl
  · simp [slice]
  · have h : ¬((s.length : Int) < 0) := by omega
    simp [slice, relative, h]

theorem substring_from (s : Str) (n : Int) (stop : Option Int) (hstop : stop = none ∨ stop = some (s.length : Int)) :
    substring s n stop = s.drop (min n.toNat s.length) := by
  have h1 : max (min n.toNat s.length) s.length = s.length := by omega
  have h2 : min (min n.toNat s.length) s.length = min n.toNat s.length := by omega
  rcases hstop with rfl | rfl <;> simp only [substring, Int.toNat_natCast, Nat.min_self, h1, h2, List.take_length]

theorem take_eq_iff (s x : Str) : s.take x.length = x ↔ x <+: s := by
  constructor
  · intro h; rw [← h]; exact List.take_prefix _ _
  · rintro ⟨t, rfl⟩; simp

theorem slice_start (s x : Str) : slice s 0 (some x.length) = x ↔ x <+: s := by
  rw [← take_eq_iff]
  simp only [slice, relative]
  have : ¬((x.length : Int) < 0) := by omega
  simp only [this, if_false, Int.toNat_natCast]
  simp [take_min]

theorem substring_start (s x : Str) : substring s 0 (some x.length) = x ↔ x <+: s := by
  rw [← take_eq_iff]
  simp only [substring]
  simp [take_min]

theorem drop_ne {s x : Str} {k : Nat} (h : s.length < x.length) : (s.drop k = x ↔ x <:+ s) := by
  constructor
  · intro e
    have := congrArg List.length e
    simp only [List.length_drop] at this; omega
  · intro e; have := e.length_le; omega

theorem slice_neg (s x : Str) (stop : Option Int) (hstop : stop = none ∨ stop = some (s.length : Int)) (hx : x ≠ []) :
    slice s (-(x.length : Int)) stop = x ↔ x <:+ s := by
  have hpos : 0 < x.length := List.length_pos_iff.2 hx
  have : (-(x.length : Int)) < 0 := by omega
  simp only [slice_from s _ stop hstop, relative, this, if_true]
  by_cases hle : x.length ≤ s.length
  · rw [suffix_iff_drop _ _ hle]
    have : ((s.length : Int) + -(x.length : Int)).toNat = s.length - x.length := by omega
    rw [this]
  · exact drop_ne (Nat.lt_of_not_le hle)

theorem slice_sub (s x : Str) (stop : Option Int) (hstop : stop = none ∨ stop = some (s.length : Int)) :
    slice s ((s.length : Int) - x.length) stop = x ↔ x <:+ s := by
  rw [slice_from s _ stop hstop]
  by_cases hle : x.length ≤ s.length
  · rw [suffix_iff_drop _ _ hle]
    have h1 : ¬((s.length : Int) - x.length < 0) := by omega
    simp only [relative, h1, if_false]
    have : min ((s.length : Int) - x.length).toNat s.length = s.length - x.length := by omega
    rw [this]
  · exact drop_ne (Nat.lt_of_not_le hle)

theorem substring_sub (s x : Str) (stop : Option Int) (hstop : stop = none ∨ stop = some (s.length : Int)) :
    substring s ((s.length : Int) - x.length) stop = x ↔ x <:+ s := by
  rw [substring_from s _ stop hstop]
  by_cases hle : x.length ≤ s.length
  · rw [suffix_iff_drop _ _ hle]
    have : min ((s.length : Int) - x.length).toNat s.length = s.length - x.length := by omega
    rw [this]
  · exact drop_ne (Nat.lt_of_not_le hle)

theorem element_start (s : Str) (u : Nat) : elementAt s 0 = .str [u] ↔ [u] <+: s := by
  cases s with
  | nil => simp [elementAt]
  | cons a s => simp [elementAt, List.cons_prefix_cons]; exact eq_comm

theorem charAt_start (s : Str) (u : Nat) : charAt s 0 = [u] ↔ [u] <+: s := by
  cases s with
  | nil => simp [charAt]
  | cons a s => simp [charAt, List.cons_prefix_cons]; exact eq_comm

theorem last_suffix (s : Str) (u : Nat) : [u] <:+ s ↔ s.getLast? = some u := by
  constructor
  · rintro ⟨t, rfl⟩; simp
  · intro h
    rw [List.getLast?_eq_some_iff] at h
    obtain ⟨t, rfl⟩ := h
    exact ⟨t, rfl⟩

theorem element_end (s : Str) (u : Nat) : elementAt s ((s.length : Int) - 1) = .str [u] ↔ [u] <:+ s := by
  rw [last_suffix, List.getLast?_eq_getElem?]
  cases s with
  | nil => simp [elementAt]
  | cons a s =>
    have h1 : ¬(((a :: s).length : Int) - 1 < 0) := by simp only [List.length_cons]; omega
    have h2 : (((a :: s).length : Int) - 1).toNat = (a :: s).length - 1 := by omega
    simp only [elementAt, h1, if_false, h2]
    cases (a :: s)[(a :: s).length - 1]? with
    | none => simp
    | some v => simp

theorem charAt_end (s : Str) (u : Nat) : charAt s ((s.length : Int) - 1) = [u] ↔ [u] <:+ s := by
  rw [last_suffix, List.getLast?_eq_getElem?]
  cases s with
  | nil => simp [charAt]
  | cons a s =>
    have h1 : ¬(((a :: s).length : Int) - 1 < 0) := by simp only [List.length_cons]; omega
    have h2 : (((a :: s).length : Int) - 1).toNat = (a :: s).length - 1 := by omega
    simp only [charAt, h1, if_false, h2]
    cases (a :: s)[(a :: s).length - 1]? with
    | none => simp
    | some v => simp

section
variable {same : Expr → Expr → Bool} {ev : Expr → Value} (hc : Coherent same ev)
include hc

theorem staticNumber_ev {e : Expr} {n : Int} (h : staticNumber e = some n) : ev e = .num n := by
  induction e generalizing n with
  | number m => simp only [staticNumber, Option.some.injEq] at h; subst h; exact hc.number m
  | neg e ih =>
    simp only [staticNumber, Option.map_eq_some_iff] at h
    obtain ⟨m, hm, rfl⟩ := h
    exact hc.neg _ _ (ih hm)
  | _ => simp [staticNumber] at h

theorem staticString_ev {e : Expr} {t : Str} (h : staticString e = some t) : ev e = .str t := by
  induction e generalizing t with
  | str u => simp only [staticString, Option.some.injEq] at h; subst h; exact hc.str u
  | var x i ih => simp only [staticString] at h; rw [hc.var]; exact ih h
  | _ => simp [staticString] at h

theorem isLength_ev {e x : Expr} {s : Str} (h : isLengthExpression same e x = true) (hx : ev x = .str s) : ev e = .num s.length := by
  simp only [isLengthExpression, Bool.or_eq_true] at h
  rcases h with h | h
  · split at h
    · next obj =>
      refine hc.length _ _ ?_
      rw [hc.same _ _ h]; exact hx
    · cases h
  · split at h
    · next n t hn ht =>
      have h1 := staticString_ev hc ht
      rw [hx] at h1
      cases h1
      rw [staticNumber_ev hc hn]
      simp only [beq_iff_eq] at h
      rw [h]
    · cases h
end

end Tsgolint.StartsEnds
