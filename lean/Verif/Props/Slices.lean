import Verif.Spec.Slices
/-! # C35: the collection helpers meet their specification and do not modify their inputs -/
namespace Tsgolint.Slices

section Filter
variable {α σ : Type} (spare : Nat → Nat) (zero : α)

/-- All arrays of `h` are still there, unchanged, in `h'`. -/
def Untouched (h h' : Heap α) : Prop := ∀ a, a < h.length → h'[a]? = h[a]?

theorem Untouched.refl (h : Heap α) : Untouched h h := fun _ _ => rfl

theorem Untouched.contents {h h' : Heap α} (u : Untouched h h') {s : Slice} (v : Valid h s) : contents h' s = contents h s := by
  rcases v with ⟨v1, v2 | ⟨v2, _⟩⟩
  · have : s.len = 0 := by omega
    simp [Slices.contents, this]
  · simp [Slices.contents, array, u s.arr v2]

theorem Untouched.length_le {h h' : Heap α} (u : Untouched h h') : h.length ≤ h'.length := by
  cases hl : h.length with
  | zero => omega
  | succ n =>
    have h1 := u n (by omega)
    rw [show h[n]? = some h[n] from List.getElem?_eq_getElem (by omega)] at h1
    have := (List.getElem?_eq_some_iff.1 h1).1
    omega

/-- A slice that cannot be used to write to the arrays of `h`: it is in a newer array, or has no capacity. -/
def Fresh (h : Heap α) (s : Slice) : Prop := s.cap = 0 ∨ h.length ≤ s.arr

theorem contents_alloc (h : Heap α) (l : List α) : contents (alloc spare zero h l).1 (alloc spare zero h l).2 = l := by
  simp [alloc, contents, array]

theorem alloc_spec (h0 h : Heap α) (u : Untouched h0 h) (l : List α) :
    Untouched h0 (alloc spare zero h l).1 ∧ Valid (alloc spare zero h l).1 (alloc spare zero h l).2 ∧
    Fresh h0 (alloc spare zero h l).2 ∧ contents (alloc spare zero h l).1 (alloc spare zero h l).2 = l := by
  have hle := u.length_le
  refine ⟨?_, ?_, ?_, contents_alloc spare zero h l⟩
  · intro a ha
    rw [← u a ha]
    simp only [alloc]
    rw [List.getElem?_append_left (by omega)]
  · refine ⟨by simp [alloc], Or.inr ⟨by simp [alloc], ?_⟩⟩
    simp [alloc, array]
  · right; simp only [alloc]; exact hle

theorem append_spec (h0 h : Heap α) (u : Untouched h0 h) (s : Slice) (v : Valid h s) (hf : Fresh h0 s) (xs : List α) :
    Untouched h0 (append spare zero h s xs).1 ∧ Valid (append spare zero h s xs).1 (append spare zero h s xs).2 ∧
    Fresh h0 (append spare zero h s xs).2 ∧ contents (append spare zero h s xs).1 (append spare zero h s xs).2 = contents h s ++ xs := by
  unfold append
  split
  · rename_i hle
    simp only
    by_cases hc : s.cap = 0
    · have h1 : s.len = 0 := by omega
      have h2 : xs = [] := by cases xs with | nil => rfl | cons => simp at hle; omega
      subst h2
      have hm : (h.modify s.arr fun a => a.take (s.off + s.len) ++ [] ++ a.drop (s.off + s.len + ([] : List α).length)) = h := by
        simp
        exact List.modify_id _ _
      rw [hm]
      refine ⟨u, ?_, Or.inl hc, ?_⟩
      · simpa using v
      · simp [contents]
    · obtain ⟨v1, v2 | ⟨v2, v3⟩⟩ := v
      · exact absurd v2 hc
      have hge : h0.length ≤ s.arr := by rcases hf with hf | hf; exact absurd hf hc; exact hf
      have harr : array (h.modify s.arr fun a => a.take (s.off + s.len) ++ xs ++ a.drop (s.off + s.len + xs.length))
          { s with len := s.len + xs.length } =
          (array h s).take (s.off + s.len) ++ xs ++ (array h s).drop (s.off + s.len + xs.length) := by
        simp [array, List.getElem?_modify, v2]
      have hlen : ((array h s).take (s.off + s.len) ++ xs ++ (array h s).drop (s.off + s.len + xs.length)).length =
          (array h s).length := by
        simp; omega
      refine ⟨?_, ⟨?_, Or.inr ⟨?_, ?_⟩⟩, Or.inr hge, ?_⟩
      · intro a ha
        rw [List.getElem?_modify]
        have : s.arr ≠ a := by omega
        simp [this, u a ha]
      · simpa using hle
      · simpa using v2
      · rw [harr, hlen]; exact v3
      · unfold contents
        rw [harr]
        simp only
        have hl1 : (List.take (s.off + s.len) (array h s)).length = s.off + s.len := by simp; omega
        rw [List.append_assoc, List.drop_append_of_le_length (by omega), List.drop_take,
          show s.off + s.len - s.off = s.len by omega]
        have hl2 : (List.take s.len (List.drop s.off (array h s))).length = s.len := by simp; omega
        rw [List.take_append, hl2, List.take_of_length_le (by omega), show s.len + xs.length - s.len = xs.length by omega,
          List.take_append_of_le_length (by omega), List.take_length]
  · exact alloc_spec spare zero h0 h u _

theorem clone_spec (h0 h : Heap α) (u : Untouched h0 h) (s : Slice) :
    Untouched h0 (clone spare zero h s).1 ∧ Valid (clone spare zero h s).1 (clone spare zero h s).2 ∧
    Fresh h0 (clone spare zero h s).2 ∧ contents (clone spare zero h s).1 (clone spare zero h s).2 = contents h s := by
  have := append_spec spare zero h0 h u { s with len := 0, cap := 0 } ⟨Nat.le_refl _, Or.inl rfl⟩ (Or.inl rfl) (contents h s)
  refine ⟨this.1, this.2.1, this.2.2.1, ?_⟩
  have h4 := this.2.2.2
  simpa [contents, clone] using h4

theorem drop_step {l : List α} {i : Nat} {x : α} (h : l[i]? = some x) : l.drop i = x :: l.drop (i + 1) := by
  obtain ⟨hi, h⟩ := List.getElem?_eq_some_iff.1 h
  rw [List.drop_eq_getElem_cons hi, h]

theorem filterRest_spec (f : σ → Nat → α → Bool × σ) (slice : Slice) (h0 : Heap α) (v : Valid h0 slice) (n : Nat) :
    ∀ (i : Nat) (h : Heap α) (st : σ) (result : Slice), Untouched h0 h → Valid h result → Fresh h0 result →
      i + n = (contents h0 slice).length →
      let out := filterRest spare zero f slice n i h st result
      let calls := callEach f i st ((contents h0 slice).drop i)
      Untouched h0 out.1 ∧ Valid out.1 out.2.2 ∧ Fresh h0 out.2.2 ∧ out.2.1 = calls.2 ∧
        contents out.1 out.2.2 = contents h result ++ kept ((contents h0 slice).drop i) calls.1 := by
  induction n with
  | zero =>
    intro i h st result u vr fr hi
    have : (contents h0 slice).drop i = [] := List.drop_eq_nil_of_le (by omega)
    simp [filterRest, this, callEach, kept, u, vr, fr]
  | succ n ih =>
    intro i h st result u vr fr hi
    have hlt : i < (contents h0 slice).length := by omega
    have hx : (contents h slice)[i]? = some (contents h0 slice)[i] := by
      rw [u.contents v]; exact List.getElem?_eq_getElem hlt
    have hx' : (contents h0 slice)[i]? = some (contents h0 slice)[i] := List.getElem?_eq_getElem hlt
    simp only [filterRest, hx]
    rw [drop_step hx']
    simp only [callEach]
    cases hf : f st i (contents h0 slice)[i] with
    | mk b st' =>
      cases b with
      | false =>
        simp only [Bool.false_eq_true, ↓reduceIte, kept]
        exact ih (i + 1) h st' result u vr fr (by omega)
      | true =>
        simp only [↓reduceIte, kept]
        obtain ⟨a1, a2, a3, a4⟩ := append_spec spare zero h0 h u result vr fr [(contents h0 slice)[i]]
        have := ih (i + 1) _ st' _ a1 a2 a3 (by omega)
        simp only at this
        rw [a4] at this
        simpa using this

theorem kept_true_prefix (l : List α) (m : List α) (bs : List Bool) :
    kept (l ++ m) (List.replicate l.length true ++ bs) = l ++ kept m bs := by
  induction l with
  | nil => simp
  | cons x l ih => simp [List.replicate_succ, kept, ih]

theorem filterFrom_spec (f : σ → Nat → α → Bool × σ) (slice : Slice) (h : Heap α) (v : Valid h slice) (n : Nat) :
    ∀ (i : Nat) (st : σ), i + n = (contents h slice).length →
      let out := filterFrom spare zero f slice n i h st
      let calls := callEach f i st ((contents h slice).drop i)
      Untouched h out.1 ∧ Valid out.1 out.2.2 ∧ (out.2.2 = slice ∨ Fresh h out.2.2) ∧ out.2.1 = calls.2 ∧
        contents out.1 out.2.2 = (contents h slice).take i ++ kept ((contents h slice).drop i) calls.1 := by
  have hlen : (contents h slice).length = slice.len := by
    rcases v with ⟨v1, v2 | ⟨_, v3⟩⟩
    · simp [contents]; omega
    · simp [contents]; omega
  induction n with
  | zero =>
    intro i st hi
    have h1 : (contents h slice).drop i = [] := List.drop_eq_nil_of_le (by omega)
    have h2 : (contents h slice).take i = contents h slice := List.take_of_length_le (by omega)
    simp only [filterFrom, h1, h2, callEach, kept]
    exact ⟨.refl h, v, by simp, trivial, by simp⟩
  | succ n ih =>
    intro i st hi
    have hlt : i < (contents h slice).length := by omega
    have hx : (contents h slice)[i]? = some (contents h slice)[i] := List.getElem?_eq_getElem hlt
    have htake : (contents h slice).take (i + 1) = (contents h slice).take i ++ [(contents h slice)[i]] := by
      rw [List.take_succ_eq_append_getElem hlt]
    simp only [filterFrom, hx]
    rw [drop_step hx]
    simp only [callEach]
    cases hf : f st i (contents h slice)[i] with
    | mk b st' =>
      cases b with
      | true =>
        simp only [↓reduceIte, kept]
        obtain ⟨b1, b2, b3, b4, b5⟩ := ih (i + 1) st' (by omega)
        exact ⟨b1, b2, b3, b4, by rw [b5, htake, List.append_assoc]; rfl⟩
      | false =>
        simp only [Bool.false_eq_true, ↓reduceIte, kept]
        obtain ⟨a1, a2, a3, a4⟩ := clone_spec spare zero h h (.refl h) { slice with len := i }
        have a5 : contents h { slice with len := i } = (contents h slice).take i := by
          simp only [contents, array, List.take_take]
          rw [Nat.min_eq_left (by omega)]
        obtain ⟨b1, b2, b3, b4, b5⟩ := filterRest_spec spare zero f slice h v n (i + 1) _ st' _ a1 a2 a3 (by omega)
        exact ⟨b1, b2, Or.inr b3, b4, by rw [b5, a4, a5]⟩

end Filter

/-- C35 (`FilterIndex`).  The result lists exactly the elements for which the callback answers true, in order; the callback is called
exactly once per element, in order, with its index; every array that existed before is unchanged (in particular the input); and unless
nothing was dropped the result shares no writable memory with anything that existed before. -/
theorem C35_filterIndex {α σ : Type} (spare : Nat → Nat) (zero : α) (h : Heap α) (st : σ) (slice : Slice) (v : Valid h slice)
    (f : σ → Nat → α → Bool × σ) :
    let out := filterIndex spare zero h st slice f
    let calls := callEach f 0 st (contents h slice)
    contents out.1 out.2.2 = kept (contents h slice) calls.1 ∧ out.2.1 = calls.2 ∧
    (∀ a, a < h.length → out.1[a]? = h[a]?) ∧ contents out.1 slice = contents h slice ∧
    (out.2.2 = slice ∨ out.2.2.cap = 0 ∨ h.length ≤ out.2.2.arr) := by
  have hlen : (contents h slice).length = slice.len := by
    rcases v with ⟨v1, v2 | ⟨_, v3⟩⟩
    · simp [contents]; omega
    · simp [contents]; omega
  obtain ⟨a1, a2, a3, a4, a5⟩ := filterFrom_spec spare zero f slice h v slice.len 0 st (by omega)
  simp only [List.drop_zero, List.take_zero, List.nil_append] at a4 a5
  exact ⟨a5, a4, a1, a1.contents v, a3⟩

theorem kept_filter {α σ : Type} (p : α → Bool) (i : Nat) (st : σ) (l : List α) :
    kept l (callEach (fun st _ x => (p x, st)) i st l).1 = l.filter p := by
  induction l generalizing i with
  | nil => rfl
  | cons x l ih =>
    have := ih (i + 1)
    simp only [callEach, kept, List.filter_cons]
    split <;> simp_all

/-- C35 (`Filter`).  With a pure predicate the result is the usual filter; the input and everything else in memory is unchanged. -/
theorem C35_filter {α : Type} (spare : Nat → Nat) (zero : α) (h : Heap α) (slice : Slice) (v : Valid h slice) (p : α → Bool) :
    let out := filter spare zero h () slice (fun _ x => (p x, ()))
    contents out.1 out.2.2 = (contents h slice).filter p ∧ (∀ a, a < h.length → out.1[a]? = h[a]?) ∧
    contents out.1 slice = contents h slice := by
  have := C35_filterIndex spare zero h () slice v (fun _ _ x => (p x, ()))
  simp only at this ⊢
  have hk := kept_filter p 0 () (contents h slice)
  refine ⟨?_, this.2.2.1, this.2.2.2.1⟩
  rw [← hk]
  exact this.1

/-- C35 (`Filter`), the calls: whatever state the callback keeps, it is called exactly once per element, in order, and the elements
kept are those it answered true for. -/
theorem C35_filter_calls {α σ : Type} (spare : Nat → Nat) (zero : α) (h : Heap α) (st : σ) (slice : Slice) (v : Valid h slice)
    (f : σ → α → Bool × σ) :
    let out := filter spare zero h st slice f
    let calls := callEach (fun st _ x => f st x) 0 st (contents h slice)
    contents out.1 out.2.2 = kept (contents h slice) calls.1 ∧ out.2.1 = calls.2 := by
  have := C35_filterIndex spare zero h st slice v (fun st _ x => f st x)
  exact ⟨this.1, this.2.1⟩

/-- C35 (why the memory model matters).  When nothing is dropped the result *is* the input slice, so a caller that appends to it may
write into the input's spare capacity. -/
theorem C35_filter_may_alias {α σ : Type} (spare : Nat → Nat) (zero : α) (h : Heap α) (st : σ) (slice : Slice) (f : σ → α → Bool × σ)
    (v : Valid h slice) (hall : ∀ st x, (f st x).1 = true) : (filter spare zero h st slice f).2.2 = slice := by
  have key : ∀ n i st, (filterFrom spare zero (fun st _ x => f st x) slice n i h st).2.2 = slice := by
    intro n
    induction n with
    | zero => intros; rfl
    | succ n ih =>
      intro i st
      simp only [filterFrom]
      split
      · rfl
      · rename_i value _
        have := hall st value
        cases hf : f st value with
        | mk b st' =>
          rw [hf] at this
          simp only at this
          subst this
          simp only [↓reduceIte]
          exact ih _ _
  exact key _ _ _

theorem flattenLoop_spec {α : Type} (spare : Nat → Nat) (zero : α) (h0 : Heap α) (l : List Slice) (hv : ∀ s ∈ l, Valid h0 s) :
    ∀ (h : Heap α) (result : Slice), Untouched h0 h → Valid h result → Fresh h0 result →
      let out := flattenLoop spare zero l h result
      Untouched h0 out.1 ∧ Fresh h0 out.2 ∧ contents out.1 out.2 = contents h result ++ (l.map (contents h0)).flatten := by
  induction l with
  | nil => intro h result u v f; simp [flattenLoop, u, f]
  | cons s l ih =>
    intro h result u v f
    simp only [flattenLoop]
    obtain ⟨a1, a2, a3, a4⟩ := append_spec spare zero h0 h u result v f (contents h s)
    obtain ⟨b1, b2, b3⟩ := ih (fun s hs => hv s (List.mem_cons_of_mem _ hs)) _ _ a1 a2 a3
    refine ⟨b1, b2, ?_⟩
    rw [b3, a4, u.contents (hv s List.mem_cons_self)]
    simp

/-- C35 (`Flatten`).  The result is the concatenation; the inputs and everything else in memory are unchanged, and the result shares no
writable memory with them. -/
theorem C35_flatten {α : Type} (spare : Nat → Nat) (zero : α) (h : Heap α) (l : List Slice) (hv : ∀ s ∈ l, Valid h s) :
    let out := flatten spare zero h l
    contents out.1 out.2 = (l.map (contents h)).flatten ∧ (∀ a, a < h.length → out.1[a]? = h[a]?) ∧
    (out.2.cap = 0 ∨ h.length ≤ out.2.arr) := by
  have := flattenLoop_spec spare zero h l hv h nilSlice (.refl h) ⟨Nat.le_refl _, Or.inl rfl⟩ (Or.inl rfl)
  simp only at this
  refine ⟨?_, this.1, this.2.1⟩
  have h3 := this.2.2
  simpa [flatten, contents, nilSlice] using h3

theorem mapLoop_spec {α β σ : Type} (f : σ → α → β × σ) (l : List α) (st : σ) (done : List β) (i : Nat) :
    mapLoop f l st done = (done ++ (callEach (fun st _ x => f st x) i st l).1, (callEach (fun st _ x => f st x) i st l).2) := by
  induction l generalizing st done i with
  | nil => simp [mapLoop, callEach]
  | cons x l ih => simp only [mapLoop, callEach]; rw [ih _ _ (i + 1)]; simp

/-- C35 (`Map`).  The function is called exactly once per element, in order, and the results are listed in that order. -/
theorem C35_map {α β σ : Type} (f : σ → α → β × σ) (l : List α) (st : σ) :
    map f l st = callEach (fun st _ x => f st x) 0 st l := by
  unfold map
  cases l with
  | nil => rfl
  | cons x l => simp only [List.length_cons, Nat.add_one_ne_zero, ↓reduceIte]; rw [mapLoop_spec f _ _ _ 0]; simp

theorem C35_map_pure {α β : Type} (f : α → β) (l : List α) : (map (fun (_ : Unit) x => (f x, ())) l ()).1 = l.map f := by
  rw [C35_map]
  suffices ∀ i, (callEach (fun (_ : Unit) _ x => (f x, ())) i () l).1 = l.map f from this 0
  induction l with
  | nil => intro; rfl
  | cons x l ih => intro i; simp [callEach, ih]

/-- C35 (`TryMap`).  Either all calls succeed and the results are listed in order, or the first error is returned, after exactly the
elements up to it have been tried. -/
theorem C35_tryMap {α β ε σ : Type} (f : σ → α → Except ε β × σ) (l : List α) (st : σ) :
    (∃ (bs : List β) (st' : σ), callEach (fun st _ x => f st x) 0 st l = (bs.map .ok, st') ∧ tryMap f l st = (.ok bs, st')) ∨
    (∃ (pre : List α) (x : α) (post : List α) (bs : List β) (e : ε) (st1 st' : σ), l = pre ++ x :: post ∧ callEach (fun st _ x => f st x) 0 st pre = (bs.map .ok, st1) ∧
      f st1 x = (.error e, st') ∧ tryMap f l st = (.error e, st')) := by
  have key : ∀ (l : List α) (st : σ) (done : List β) (i : Nat),
      (∃ (bs : List β) (st' : σ), callEach (fun st _ x => f st x) i st l = (bs.map .ok, st') ∧ tryMapLoop f l st done = (.ok (done ++ bs), st')) ∨
      (∃ (pre : List α) (x : α) (post : List α) (bs : List β) (e : ε) (st1 st' : σ), l = pre ++ x :: post ∧ callEach (fun st _ x => f st x) i st pre = (bs.map .ok, st1) ∧
        f st1 x = (.error e, st') ∧ tryMapLoop f l st done = (.error e, st')) := by
    intro l
    induction l with
    | nil => intro st done i; exact Or.inl ⟨[], st, rfl, by simp [tryMapLoop]⟩
    | cons x l ih =>
      intro st done i
      cases hf : f st x with
      | mk r st' =>
        cases r with
        | error e => exact Or.inr ⟨[], x, l, [], e, st, st', rfl, rfl, hf, by simp [tryMapLoop, hf]⟩
        | ok b =>
          rcases ih st' (done ++ [b]) (i + 1) with ⟨bs, s2, h1, h2⟩ | ⟨pre, y, post, bs, e, s1, s2, h1, h2, h3, h4⟩
          · left; refine ⟨b :: bs, s2, ?_, ?_⟩
            · simp [callEach, hf, h1]
            · simp [tryMapLoop, hf, h2]
          · right; refine ⟨x :: pre, y, post, b :: bs, e, s1, s2, by simp [h1], ?_, h3, ?_⟩
            · simp [callEach, hf, h2]
            · simp [tryMapLoop, hf, h4]
  unfold tryMap
  cases l with
  | nil => exact Or.inl ⟨[], st, rfl, rfl⟩
  | cons x l => simpa using key (x :: l) st [] 0

/-- C35 (`Some`).  True iff the predicate holds of some element; elements after the first hit are not examined. -/
theorem C35_some {α : Type} (p : α → Bool) (l : List α) : (some' (fun (_ : Unit) x => (p x, ())) l ()).1 = true ↔ ∃ x ∈ l, p x = true := by
  induction l with
  | nil => simp [some']
  | cons x l ih => simp only [some']; cases hx : p x <;> simp [hx, ih]

theorem C35_some_calls {α : Type} (p : α → Bool) (pre post : List α) (x : α) (hpre : ∀ y ∈ pre, p y = false) (hx : p x = true) :
    some' (fun (seen : List α) x => (p x, seen ++ [x])) (pre ++ x :: post) [] = (true, pre ++ [x]) := by
  suffices ∀ seen, some' (fun (seen : List α) x => (p x, seen ++ [x])) (pre ++ x :: post) seen = (true, seen ++ pre ++ [x]) by
    simpa using this []
  induction pre with
  | nil => intro seen; simp [some', hx]
  | cons y pre ih =>
    intro seen
    simp only [List.cons_append, some', hpre y List.mem_cons_self]
    rw [ih (fun z hz => hpre z (List.mem_cons_of_mem _ hz))]; simp

/-- C35 (`Every`).  True iff the predicate holds of all elements; elements after the first failure are not examined. -/
theorem C35_every {α : Type} (p : α → Bool) (l : List α) : (every (fun (_ : Unit) x => (p x, ())) l ()).1 = true ↔ ∀ x ∈ l, p x = true := by
  induction l with
  | nil => simp [every]
  | cons x l ih => simp only [every]; cases hx : p x <;> simp [hx, ih]

theorem C35_every_calls {α : Type} (p : α → Bool) (pre post : List α) (x : α) (hpre : ∀ y ∈ pre, p y = true) (hx : p x = false) :
    every (fun (seen : List α) x => (p x, seen ++ [x])) (pre ++ x :: post) [] = (false, pre ++ [x]) := by
  suffices ∀ seen, every (fun (seen : List α) x => (p x, seen ++ [x])) (pre ++ x :: post) seen = (false, seen ++ pre ++ [x]) by
    simpa using this []
  induction pre with
  | nil => intro seen; simp [every, hx]
  | cons y pre ih =>
    intro seen
    simp only [List.cons_append, every, hpre y List.mem_cons_self]
    rw [ih (fun z hz => hpre z (List.mem_cons_of_mem _ hz))]; simp

section Sets
variable {α : Type} [DecidableEq α]

/-- A history of operations on a set, most recent first. -/
def runOps : List (SetOp α) → GoSet α
  | [] => none
  | .add x :: l => (runOps l).add x
  | .delete x :: l => (runOps l).delete x
  | .clear :: l => (runOps l).clear

theorem nodup_runOps (l : List (SetOp α)) : ((runOps l).getD []).Nodup := by
  induction l with
  | nil => simp [runOps]
  | cons o l ih =>
    cases o with
    | add x =>
      simp only [runOps, GoSet.add, Option.getD_some]
      split
      · exact ih
      · rename_i h
        rw [List.nodup_append]
        refine ⟨ih, by simp, ?_⟩
        intro a ha b hb
        simp only [List.mem_singleton] at hb
        subst hb
        rintro rfl
        simp at h; exact h ha
    | delete x =>
      simp only [runOps, GoSet.delete]
      cases h : runOps l with
      | none => simp
      | some m => rw [h] at ih; simp at ih ⊢; exact ih.erase x
    | clear => simp only [runOps, GoSet.clear]; cases runOps l <;> simp

theorem mem_runOps (l : List (SetOp α)) (x : α) : x ∈ (runOps l).getD [] ↔ member x l := by
  induction l with
  | nil => simp [runOps, member]
  | cons o l ih =>
    cases o with
    | add y =>
      simp only [runOps, GoSet.add, Option.getD_some, member]
      split
      · rename_i h
        rw [ih]
        simp only [List.contains_eq_mem, decide_eq_true_eq] at h
        constructor
        · exact Or.inr
        · rintro (rfl | h')
          · exact ih.1 h
          · exact h'
      · simp [ih, or_comm]
    | delete y =>
      have hn := nodup_runOps l
      simp only [runOps, GoSet.delete, member]
      cases h : runOps l with
      | none => rw [h] at ih; simp at ih ⊢; exact fun _ => ih
      | some m =>
        rw [h] at ih hn
        simp at ih hn ⊢
        rw [hn.mem_erase_iff, ih]
    | clear => simp only [runOps, GoSet.clear, member]; cases runOps l <;> simp

/-- C35 (`Set`).  After any history of additions, deletions and clearings, `Has` tells whether the element is in the set that the
history describes, and `Len` is the number of distinct elements. -/
theorem C35_set_has (l : List (SetOp α)) (x : α) : (runOps l).has x = true ↔ member x l := by
  unfold GoSet.has
  rw [← mem_runOps]; simp

theorem C35_set_len (l : List (SetOp α)) (elems : List α) (hn : elems.Nodup) (he : ∀ x, x ∈ elems ↔ member x l) :
    (runOps l).len = elems.length := by
  unfold GoSet.len
  have h1 := nodup_runOps l
  apply List.Perm.length_eq
  exact (List.perm_ext_iff_of_nodup h1 hn).2 fun x => by rw [mem_runOps, he]

theorem C35_set_fromItems (items : List α) (x : α) : (GoSet.fromItems items).has x = true ↔ x ∈ items := by
  have : GoSet.fromItems items = runOps (items.reverse.map .add) := by
    unfold GoSet.fromItems
    rw [← List.reverse_reverse items, List.foldl_reverse, List.reverse_reverse]
    induction items.reverse with
    | nil => rfl
    | cons y l ih => simp [runOps, ih]
  rw [this, C35_set_has]
  have : ∀ l : List α, member x (l.map .add) ↔ x ∈ l := by
    intro l
    induction l with
    | nil => simp [member]
    | cons y l ih => simp [member, ih]
  rw [this]; simp

end Sets

/-- Filtering the middle of an array with capacity to spare: the naive in-place version would overwrite the 9. -/
example : let h : Heap Nat := [[1, 2, 3, 4, 9]]
    let s : Slice := ⟨0, 0, 4, 5⟩
    Valid h s ∧ (let out := filter (fun n => n) 0 h () s (fun _ x => (x % 2 == 0, ()))
    contents out.1 out.2.2 = [2, 4] ∧ out.1[0]? = some [1, 2, 3, 4, 9]) := by
  refine ⟨⟨by decide, Or.inr ⟨by decide, by decide⟩⟩, by decide⟩

example : (runOps [.delete 1, .add 1, .add 2, .add 2, .clear, .add 7]).has 2 = true ∧
    (runOps [.delete 1, .add 1, .add 2, .add 2, .clear, .add 7]).has 7 = false := by decide

end Tsgolint.Slices
