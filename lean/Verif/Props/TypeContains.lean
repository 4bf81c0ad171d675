import Verif.Spec.TypeContains
/-!
# C97 What `containsAny` and `containsTypeVariable` find
-/
namespace Tsgolint.TypeContains
variable {T S : Type}

theorem origin_sound (E : Env T S) : ∀ n s o, origin E n s = some o → Origin E s o
  | 0, _, _, h => by simp [origin] at h
  | n + 1, s, o, h => by
    rw [origin] at h
    cases ht : E.target s with
    | none => rw [ht] at h; cases h; exact .self ht
    | some s' => rw [ht] at h; exact .next ht (origin_sound E n s' o h)

theorem origin_enough {E : Env T S} {s o} (h : Origin E s o) : ∃ K, ∀ n, K ≤ n → origin E n s = some o := by
  induction h with
  | self ht => exact ⟨1, fun n hn => by obtain ⟨m, rfl⟩ : ∃ m, n = m + 1 := ⟨n - 1, by omega⟩; simp [origin, ht]⟩
  | next ht _ ih =>
    obtain ⟨K, hK⟩ := ih
    exact ⟨K + 1, fun n hn => by obtain ⟨m, rfl⟩ : ∃ m, n = m + 1 := ⟨n - 1, by omega⟩; simp [origin, ht, hK m (by omega)]⟩

/-- What a call answering `false` leaves behind. -/
structure Explored (E : Env T S) (st st' : State T S) : Prop where
  grows : ∀ x ∈ st.seen, x ∈ st'.seen
  closed : ∀ x ∈ st'.seen, x ∈ st.seen ∨ (E.holds x = false ∧ ∀ y, Step E x y → y ∈ st'.seen)
  active : st'.active = st.active

theorem Explored.refl (E : Env T S) (st : State T S) : Explored E st st := ⟨fun _ h => h, fun _ h => .inl h, rfl⟩

theorem Explored.trans {E : Env T S} {a b c : State T S} (h : Explored E a b) (k : Explored E b c) : Explored E a c where
  grows x hx := k.grows x (h.grows x hx)
  closed x hx := (k.closed x hx).elim (fun hb => (h.closed x hb).imp id fun ⟨p, q⟩ => ⟨p, fun y hy => k.grows y (q y hy)⟩) .inr
  active := k.active.trans h.active

/-- What is shown of every call. -/
def Sound (E : Env T S) (f : Call T S) : Prop := ∀ t st st', f t st = some (false, st') → Explored E st st' ∧ t ∈ st'.seen

theorem each_sound (E : Env T S) (f : Call T S) (hf : Sound E f) : ∀ ts st st', each f ts st = some (false, st') →
    Explored E st st' ∧ ∀ t ∈ ts, t ∈ st'.seen
  | [], st, st', h => by simp only [each, Option.some.injEq, Prod.mk.injEq, true_and] at h; subst h; exact ⟨.refl E _, by simp⟩
  | t :: ts, st, st', h => by
    rw [each, Option.bind_eq_some_iff] at h
    obtain ⟨⟨b, s1⟩, h1, h2⟩ := h
    cases b with
    | true => simp at h2
    | false =>
      obtain ⟨e1, m1⟩ := hf t st s1 h1
      obtain ⟨e2, m2⟩ := each_sound E f hf ts s1 st' (by simpa using h2)
      exact ⟨e1.trans e2, List.forall_mem_cons.2 ⟨e2.grows _ m1, m2⟩⟩

variable [DecidableEq T] [DecidableEq S]

theorem filter_top (o : S) (l : List S) (h : o ∉ l) : (o :: l).filter (· ≠ o) = l := by
  rw [List.filter_cons_of_neg (by simp), List.filter_eq_self]
  intro x hx
  simp only [ne_eq, decide_not, Bool.not_eq_true', decide_eq_false_iff_not]
  rintro rfl; exact h hx

theorem signatures_sound (E : Env T S) (org : S → Option S) (f : Call T S) (hf : Sound E f) : ∀ ss st st',
    signatures E org f ss st = some (false, st') →
    Explored E st st' ∧ ∀ s ∈ ss, (∀ y ∈ E.params s, y ∈ st'.seen) ∧ E.result s ∈ st'.seen
  | [], st, st', h => by simp only [signatures, Option.some.injEq, Prod.mk.injEq, true_and] at h; subst h; exact ⟨.refl E _, by simp⟩
  | s :: ss, st, st', h => by
    rw [signatures, Option.bind_eq_some_iff] at h
    obtain ⟨o, ho, h⟩ := h
    split at h
    · simp at h
    · rename_i hno
      rw [Option.bind_eq_some_iff] at h
      obtain ⟨⟨b, s1⟩, h1, h⟩ := h
      cases b with
      | true => simp at h
      | false =>
        simp only [Bool.false_eq_true, if_false] at h
        rw [Option.bind_eq_some_iff] at h
        obtain ⟨⟨b, s2⟩, h2, h⟩ := h
        cases b with
        | true => simp at h
        | false =>
          simp only [Bool.false_eq_true, if_false] at h
          obtain ⟨e1, m1⟩ := each_sound E f hf _ _ _ h1
          obtain ⟨e2, m2⟩ := hf _ _ _ h2
          obtain ⟨e3, m3⟩ := signatures_sound E org f hf ss _ _ h
          have hact : s2.active.filter (· ≠ o) = st.active := by
            rw [e2.active, e1.active]
            exact filter_top o _ (by simpa using hno)
          refine ⟨⟨fun x hx => e3.grows x (e2.grows x (e1.grows x hx)), fun x hx => ?_, e3.active.trans hact⟩, ?_⟩
          · rcases e3.closed x hx with hx | hx
            · rcases (e1.trans e2).closed x hx with hx | ⟨p, q⟩
              · exact .inl hx
              · exact .inr ⟨p, fun y hy => e3.grows y (q y hy)⟩
            · exact .inr hx
          · refine List.forall_mem_cons.2 ⟨⟨fun y hy => e3.grows y (e2.grows y (m1 y hy)), e3.grows _ m2⟩, m3⟩

theorem contains_sound (E : Env T S) : ∀ n, Sound E (contains E n)
  | 0, _, _, _, h => by simp [contains] at h
  | n + 1, t, st, st', h => by
    have ih := contains_sound E n
    rw [contains] at h
    split at h
    · rename_i hs
      simp only [Option.some.injEq, Prod.mk.injEq, true_and] at h
      subst h
      exact ⟨.refl E _, by simpa using hs⟩
    · rename_i hs
      split at h
      · simp at h
      · rename_i hp
        rw [Option.bind_eq_some_iff] at h
        obtain ⟨⟨b, s1⟩, h1, h⟩ := h
        cases b with
        | true => simp at h
        | false =>
          simp only [Bool.false_eq_true, if_false] at h
          rw [Option.bind_eq_some_iff] at h
          obtain ⟨⟨b, s2⟩, h2, h⟩ := h
          cases b with
          | true => simp at h
          | false =>
            simp only [Bool.false_eq_true, if_false] at h
            rw [Option.bind_eq_some_iff] at h
            obtain ⟨⟨b, s3⟩, h3, h⟩ := h
            cases b with
            | true => simp at h
            | false =>
              simp only [Bool.false_eq_true, if_false] at h
              obtain ⟨e1, m1⟩ := each_sound E _ ih _ _ _ h1
              obtain ⟨e2, m2⟩ := each_sound E _ ih _ _ _ h2
              obtain ⟨e3, m3⟩ := each_sound E _ ih _ _ _ h3
              obtain ⟨e4, m4⟩ := signatures_sound E _ _ ih _ _ _ h
              have e := ((e1.trans e2).trans e3).trans e4
              have hself : t ∈ st'.seen := e.grows t (List.mem_cons_self ..)
              refine ⟨⟨fun x hx => e.grows x (List.mem_cons_of_mem _ hx), fun x hx => ?_, e.active⟩, hself⟩
              rcases e.closed x hx with hx | hx
              · rcases List.mem_cons.1 hx with rfl | hx
                · refine .inr ⟨by simpa using hp, fun y hy => ?_⟩
                  cases hy with
                  | union hy =>
                    by_cases hxy : y = x
                    · subst hxy; exact hself
                    · exact e4.grows _ (e3.grows _ (e2.grows _ (m1 y (List.mem_filter.2 ⟨hy, by simpa using hxy⟩))))
                  | intersection hy =>
                    by_cases hxy : y = x
                    · subst hxy; exact hself
                    · exact e4.grows _ (e3.grows _ (m2 y (List.mem_filter.2 ⟨hy, by simpa using hxy⟩)))
                  | argument hy => exact e4.grows _ (m3 y hy)
                  | param hs hy => exact (m4 _ hs).1 y hy
                  | result hs => exact (m4 _ hs).2
                · exact .inl hx
              · exact .inr hx

/-- C97 Where there is no type (no contextual type, for instance) nothing is found. -/
theorem C97_missing (E : Env T S) (fuel : Nat) : typeContains E fuel none = some false := rfl

/-- C97 The answer `false` is never wrong: nothing that can be reached is `any` (a type variable, …), however large, cyclic or infinite the type is. -/
theorem C97_false (E : Env T S) (fuel : Nat) (t : T) (h : typeContains E fuel (some t) = some false) : ¬ Occurs E t := by
  simp only [typeContains, Option.map_eq_some_iff] at h
  obtain ⟨⟨b, st⟩, h, hb⟩ := h
  simp only at hb; subst hb
  obtain ⟨e, m⟩ := contains_sound E fuel t _ _ h
  rintro ⟨x, hr, hx⟩
  have : x ∈ st.seen := by
    clear hx
    induction hr with
    | refl => exact m
    | step _ hs ih =>
      rcases e.closed _ ih with h | h
      · simp at h
      · exact h.2 _ hs
  rcases e.closed x this with h | h
  · simp at h
  · rw [h.1] at hx; cases hx

/-! ### The answer `true` -/

/-- What is shown of every call. -/
def Right (E : Env T S) (root : T) (f : Call T S) : Prop :=
  ∀ t st st', f t st = some (true, st') → Inside E root st.active t → (∃ y os, Inside E root os y ∧ E.holds y = true) ∨ Recursive E root

omit [DecidableEq T] [DecidableEq S] in
theorem each_right (E : Env T S) (root : T) (f : Call T S) (hs : Sound E f) (hf : Right E root f) : ∀ ts st st', each f ts st = some (true, st') →
    (∀ t ∈ ts, Inside E root st.active t) → (∃ y os, Inside E root os y ∧ E.holds y = true) ∨ Recursive E root
  | [], st, st', h, _ => by simp [each] at h
  | t :: ts, st, st', h, hi => by
    rw [each, Option.bind_eq_some_iff] at h
    obtain ⟨⟨b, s1⟩, h1, h2⟩ := h
    cases b with
    | true => exact hf t st s1 h1 (hi t (List.mem_cons_self ..))
    | false =>
      obtain ⟨e1, _⟩ := hs t st s1 h1
      exact each_right E root f hs hf ts s1 st' (by simpa using h2) fun x hx => by rw [e1.active]; exact hi x (List.mem_cons_of_mem _ hx)

theorem signatures_right (E : Env T S) (root : T) (n : Nat) (f : Call T S) (hs : Sound E f) (hf : Right E root f) (t : T) : ∀ ss st st',
    signatures E (origin E n) f ss st = some (true, st') → (∀ s ∈ ss, s ∈ E.callSignatures t) → Inside E root st.active t →
    (∃ y os, Inside E root os y ∧ E.holds y = true) ∨ Recursive E root
  | [], st, st', h, _, _ => by simp [signatures] at h
  | s :: ss, st, st', h, hm, hi => by
    rw [signatures, Option.bind_eq_some_iff] at h
    obtain ⟨o, ho, h⟩ := h
    have ho := origin_sound E _ _ _ ho
    have hst := hm s (List.mem_cons_self ..)
    split at h
    · rename_i hc
      exact .inr ⟨_, t, s, o, hi, hst, ho, by simpa using hc⟩
    · rename_i hno
      rw [Option.bind_eq_some_iff] at h
      obtain ⟨⟨b, s1⟩, h1, h⟩ := h
      cases b with
      | true => exact each_right E root f hs hf _ _ _ h1 fun y hy => .param hi hst ho hy
      | false =>
        simp only [Bool.false_eq_true, if_false] at h
        rw [Option.bind_eq_some_iff] at h
        obtain ⟨⟨b, s2⟩, h2, h⟩ := h
        obtain ⟨e1, _⟩ := each_sound E f hs _ _ _ h1
        cases b with
        | true => exact hf _ _ _ h2 (by rw [e1.active]; exact .result hi hst ho)
        | false =>
          simp only [Bool.false_eq_true, if_false] at h
          obtain ⟨e2, _⟩ := hs _ _ _ h2
          have hact : s2.active.filter (· ≠ o) = st.active := by
            rw [e2.active, e1.active]
            exact filter_top o _ (by simpa using hno)
          exact signatures_right E root n f hs hf t ss _ _ h (fun x hx => hm x (List.mem_cons_of_mem _ hx)) (by rw [hact]; exact hi)

theorem contains_right (E : Env T S) (root : T) : ∀ n, Right E root (contains E n)
  | 0, _, _, _, h => by simp [contains] at h
  | n + 1, t, st, st', h => by
    intro hi
    have ih := contains_right E root n
    have ihs := contains_sound E n
    rw [contains] at h
    split at h
    · simp at h
    · split at h
      · rename_i hp
        exact .inl ⟨t, _, hi, hp⟩
      · rw [Option.bind_eq_some_iff] at h
        obtain ⟨⟨b, s1⟩, h1, h⟩ := h
        cases b with
        | true => exact each_right E root _ ihs ih _ _ _ h1 fun y hy => .union hi (List.mem_filter.1 hy).1
        | false =>
          simp only [Bool.false_eq_true, if_false] at h
          rw [Option.bind_eq_some_iff] at h
          obtain ⟨⟨b, s2⟩, h2, h⟩ := h
          have a1 : s1.active = st.active := (each_sound E _ ihs _ _ _ h1).1.active
          cases b with
          | true => exact each_right E root _ ihs ih _ _ _ h2 fun y hy => by rw [a1]; exact .intersection hi (List.mem_filter.1 hy).1
          | false =>
            simp only [Bool.false_eq_true, if_false] at h
            rw [Option.bind_eq_some_iff] at h
            obtain ⟨⟨b, s3⟩, h3, h⟩ := h
            have a2 : s2.active = st.active := (each_sound E _ ihs _ _ _ h2).1.active.trans a1
            cases b with
            | true => exact each_right E root _ ihs ih _ _ _ h3 fun y hy => by rw [a2]; exact .argument hi hy
            | false =>
              simp only [Bool.false_eq_true, if_false] at h
              have a3 : s3.active = st.active := (each_sound E _ ihs _ _ _ h3).1.active.trans a2
              exact signatures_right E root n _ ihs ih t _ _ _ h (fun _ hs => hs) (by rw [a3]; exact hi)

omit [DecidableEq T] [DecidableEq S] in
theorem Inside.reach {E : Env T S} {root : T} {os t} (h : Inside E root os t) : Reach E root t := by
  induction h with
  | root => exact .refl
  | union _ h ih => exact .step ih (.union h)
  | intersection _ h ih => exact .step ih (.intersection h)
  | argument _ h ih => exact .step ih (.argument h)
  | param _ hs _ hy ih => exact .step ih (.param hs hy)
  | result _ hs _ ih => exact .step ih (.result hs)

/-- C97 The answer `true` means that the predicate holds of something in the type, or that the type is a recursive generic. -/
theorem C97_true (E : Env T S) (fuel : Nat) (t : T) (h : typeContains E fuel (some t) = some true) : Occurs E t ∨ Recursive E t := by
  simp only [typeContains, Option.map_eq_some_iff] at h
  obtain ⟨⟨b, st⟩, h, hb⟩ := h
  simp only at hb; subst hb
  exact (contains_right E t fuel t _ _ h .root).imp (fun ⟨y, _, hy, hp⟩ => ⟨y, hy.reach, hp⟩) id

/-- C97 Of types that are not recursive generics, the answer is exact. -/
theorem C97_exact (E : Env T S) (fuel : Nat) (t : T) (hr : ¬ Recursive E t) (b : Bool) (h : typeContains E fuel (some t) = some b) :
    b = true ↔ Occurs E t := by
  cases b with
  | true => exact ⟨fun _ => (C97_true E fuel t h).resolve_right hr, fun _ => rfl⟩
  | false => exact ⟨nofun, fun ho => absurd ho (C97_false E fuel t h)⟩

/-! ### There is an answer -/

theorem origin_mono (E : Env T S) : ∀ n m s o, n ≤ m → origin E n s = some o → origin E m s = some o
  | 0, _, _, _, _, h => by simp [origin] at h
  | n + 1, m, s, o, hm, h => by
    obtain ⟨m, rfl⟩ : ∃ k, m = k + 1 := ⟨m - 1, by omega⟩
    rw [origin] at h ⊢
    cases ht : E.target s with
    | none => rw [ht] at h; exact h
    | some s' => rw [ht] at h; exact origin_mono E n m s' o (by omega) h

/-- The second answers whenever the first does, in the same way. -/
def Extends (f g : Call T S) : Prop := ∀ t st r, f t st = some r → g t st = some r

theorem each_mono {f g : Call T S} (h : Extends f g) : ∀ ts st r, each f ts st = some r → each g ts st = some r
  | [], _, _, e => e
  | t :: ts, st, r, e => by
    rw [each, Option.bind_eq_some_iff] at e ⊢
    obtain ⟨⟨b, s1⟩, h1, h2⟩ := e
    refine ⟨(b, s1), h _ _ _ h1, ?_⟩
    cases b with
    | true => exact h2
    | false =>
      simp only [Bool.false_eq_true, if_false] at h2 ⊢
      exact each_mono h ts _ _ h2

theorem signatures_mono (E : Env T S) {p q : S → Option S} {f g : Call T S} (hp : ∀ s o, p s = some o → q s = some o) (h : Extends f g) :
    ∀ ss st r, signatures E p f ss st = some r → signatures E q g ss st = some r
  | [], _, _, e => e
  | s :: ss, st, r, e => by
    rw [signatures, Option.bind_eq_some_iff] at e ⊢
    obtain ⟨o, ho, e⟩ := e
    refine ⟨o, hp _ _ ho, ?_⟩
    split at e
    · rename_i hc
      rw [if_pos hc]; exact e
    · rename_i hc
      rw [if_neg hc]
      rw [Option.bind_eq_some_iff] at e ⊢
      obtain ⟨⟨b, s1⟩, h1, h2⟩ := e
      refine ⟨(b, s1), each_mono h _ _ _ h1, ?_⟩
      cases b with
      | true => exact h2
      | false =>
        simp only [Bool.false_eq_true, if_false] at h2 ⊢
        rw [Option.bind_eq_some_iff] at h2 ⊢
        obtain ⟨⟨b, s2⟩, h3, h4⟩ := h2
        refine ⟨(b, s2), h _ _ _ h3, ?_⟩
        cases b with
        | true => exact h4
        | false =>
          simp only [Bool.false_eq_true, if_false] at h4 ⊢
          exact signatures_mono E hp h ss _ _ h4

theorem contains_mono (E : Env T S) : ∀ n m, n ≤ m → Extends (contains E n) (contains E m)
  | 0, _, _, _, _, _, h => by simp [contains] at h
  | n + 1, m, hm, t, st, r, h => by
    obtain ⟨m, rfl⟩ : ∃ k, m = k + 1 := ⟨m - 1, by omega⟩
    have ih := contains_mono E n m (by omega)
    rw [contains] at h ⊢
    split at h
    · rename_i hc; rw [if_pos hc]; exact h
    · rename_i hc; rw [if_neg hc]
      split at h
      · rename_i hp; rw [if_pos hp]; exact h
      · rename_i hp; rw [if_neg hp]
        rw [Option.bind_eq_some_iff] at h ⊢
        obtain ⟨⟨b, s1⟩, h1, h2⟩ := h
        refine ⟨(b, s1), each_mono ih _ _ _ h1, ?_⟩
        cases b with
        | true => exact h2
        | false =>
          simp only [Bool.false_eq_true, if_false] at h2 ⊢
          rw [Option.bind_eq_some_iff] at h2 ⊢
          obtain ⟨⟨b, s2⟩, h3, h4⟩ := h2
          refine ⟨(b, s2), each_mono ih _ _ _ h3, ?_⟩
          cases b with
          | true => exact h4
          | false =>
            simp only [Bool.false_eq_true, if_false] at h4 ⊢
            rw [Option.bind_eq_some_iff] at h4 ⊢
            obtain ⟨⟨b, s3⟩, h5, h6⟩ := h4
            refine ⟨(b, s3), each_mono ih _ _ _ h5, ?_⟩
            cases b with
            | true => exact h6
            | false =>
              simp only [Bool.false_eq_true, if_false] at h6 ⊢
              exact signatures_mono E (fun s o => origin_mono E n m s o (by omega)) ih _ _ _ h6

/-- C97 More fuel never changes an answer. -/
theorem C97_stable (E : Env T S) (t : Option T) (n m : Nat) (b : Bool) (hm : n ≤ m) (h : typeContains E n t = some b) : typeContains E m t = some b := by
  cases t with
  | none => exact h
  | some t =>
    simp only [typeContains, Option.map_eq_some_iff] at h ⊢
    obtain ⟨r, h, hb⟩ := h
    exact ⟨r, contains_mono E n m hm _ _ _ h, hb⟩

/-- A loop answers if its calls do; a condition kept by calls that answer `false` may be used. -/
theorem each_answers (E : Env T S) (f : Call T S) (hs : Sound E f) (I : State T S → Prop) (hI : ∀ st st', I st → Explored E st st' → I st') :
    ∀ ts st, I st → (∀ t ∈ ts, ∀ st, I st → f t st ≠ none) → each f ts st ≠ none
  | [], _, _, _ => by simp [each]
  | t :: ts, st, hi, h => by
    rw [each]
    cases hr : f t st with
    | none => exact absurd hr (h t (List.mem_cons_self ..) st hi)
    | some r =>
      obtain ⟨b, s1⟩ := r
      cases b with
      | true => simp
      | false =>
        simp only [Option.bind_some, Bool.false_eq_true, if_false]
        exact each_answers E f hs I hI ts s1 (hI _ _ hi (hs _ _ _ hr).1) fun x hx => h x (List.mem_cons_of_mem _ hx)

/-- The same for signatures; the condition within a signature may depend on its origin. -/
theorem signatures_answers (E : Env T S) (org : S → Option S) (f : Call T S) (hs : Sound E f) (I : State T S → Prop) (J : S → State T S → Prop)
    (hI : ∀ st st', I st → Explored E st st' → I st') (hJ : ∀ o st st', J o st → Explored E st st' → J o st') :
    ∀ ss st, I st → (∀ s ∈ ss, ∃ o, org s = some o ∧ (∀ st, I st → o ∉ st.active → J o { st with active := o :: st.active }) ∧
      ∀ y ∈ E.result s :: E.params s, ∀ st, J o st → f y st ≠ none) → signatures E org f ss st ≠ none
  | [], _, _, _ => by simp [signatures]
  | s :: ss, st, hi, h => by
    rw [signatures]
    obtain ⟨o, ho, hJo, hy⟩ := h s (List.mem_cons_self ..)
    rw [ho, Option.bind_some]
    by_cases hc : st.active.contains o = true
    · rw [if_pos hc]; simp
    · rw [if_neg hc]
      have hno : o ∉ st.active := by simpa using hc
      have hj := hJo st hi hno
      have h1 := each_answers E f hs (J o) (hJ o) (E.params s) { st with active := o :: st.active } hj fun y hyp => hy y (List.mem_cons_of_mem _ hyp)
      cases hr : each f (E.params s) { st with active := o :: st.active } with
      | none => exact absurd hr h1
      | some r =>
        obtain ⟨b, s1⟩ := r
        cases b with
        | true => simp
        | false =>
          have e1 := (each_sound E f hs _ _ _ hr).1
          simp only [Option.bind_some, Bool.false_eq_true, if_false]
          cases hr2 : f (E.result s) s1 with
          | none => exact absurd hr2 (hy _ (List.mem_cons_self ..) _ (hJ _ _ _ hj e1))
          | some r =>
            obtain ⟨b, s2⟩ := r
            cases b with
            | true => simp
            | false =>
              have e2 := (hs _ _ _ hr2).1
              simp only [Option.bind_some, Bool.false_eq_true, if_false]
              have hact : s2.active.filter (· ≠ o) = st.active := by
                rw [e2.active, e1.active]; exact filter_top o _ hno
              refine signatures_answers E org f hs I J hI hJ ss _ (hI st _ hi ⟨fun x hx => e2.grows x (e1.grows x hx), fun x hx => ?_, hact⟩) fun x hx => h x (List.mem_cons_of_mem _ hx)
              exact (e1.trans e2).closed x hx

/-- The conditions under which the next call answers. -/
theorem contains_answers (E : Env T S) (n : Nat) (t : T) (st : State T S) (I : State T S → Prop) (J : S → State T S → Prop)
    (hI : ∀ st st', I st → Explored E st st' → I st') (hJ : ∀ o st st', J o st → Explored E st st' → J o st')
    (h0 : t ∉ st.seen → I { st with seen := t :: st.seen })
    (hd : t ∉ st.seen → ∀ y, (y ≠ t ∧ (y ∈ E.unionParts t ∨ y ∈ E.intersectionParts t)) ∨ y ∈ E.typeArguments t → ∀ st, I st → contains E n y st ≠ none)
    (hsig : t ∉ st.seen → ∀ s ∈ E.callSignatures t, ∃ o, origin E n s = some o ∧ (∀ st, I st → o ∉ st.active → J o { st with active := o :: st.active }) ∧
      ∀ y ∈ E.result s :: E.params s, ∀ st, J o st → contains E n y st ≠ none) : contains E (n + 1) t st ≠ none := by
  have hs := contains_sound E n
  rw [contains]
  by_cases hc : st.seen.contains t = true
  · rw [if_pos hc]; simp
  · rw [if_neg hc]
    have hno : t ∉ st.seen := by simpa using hc
    have i0 := h0 hno
    have hd := hd hno
    by_cases hp : E.holds t = true
    · rw [if_pos hp]; simp
    · rw [if_neg hp]
      cases h1 : each (contains E n) ((E.unionParts t).filter (· ≠ t)) { st with seen := t :: st.seen } with
      | none =>
        refine absurd h1 (each_answers E _ hs I hI _ _ i0 fun y hy => hd y (.inl ?_))
        have := List.mem_filter.1 hy
        exact ⟨by simpa using this.2, .inl this.1⟩
      | some r =>
        obtain ⟨b, s1⟩ := r
        cases b with
        | true => simp
        | false =>
          simp only [Option.bind_some, Bool.false_eq_true, if_false]
          have i1 := hI _ _ i0 (each_sound E _ hs _ _ _ h1).1
          cases h2 : each (contains E n) ((E.intersectionParts t).filter (· ≠ t)) s1 with
          | none =>
            refine absurd h2 (each_answers E _ hs I hI _ _ i1 fun y hy => hd y (.inl ?_))
            have := List.mem_filter.1 hy
            exact ⟨by simpa using this.2, .inr this.1⟩
          | some r =>
            obtain ⟨b, s2⟩ := r
            cases b with
            | true => simp
            | false =>
              simp only [Option.bind_some, Bool.false_eq_true, if_false]
              have i2 := hI _ _ i1 (each_sound E _ hs _ _ _ h2).1
              cases h3 : each (contains E n) (E.typeArguments t) s2 with
              | none => exact absurd h3 (each_answers E _ hs I hI _ _ i2 fun y hy => hd y (.inr hy))
              | some r =>
                obtain ⟨b, s3⟩ := r
                cases b with
                | true => simp
                | false =>
                  simp only [Option.bind_some, Bool.false_eq_true, if_false]
                  exact signatures_answers E _ _ hs I J hI hJ _ _ (hI _ _ i2 (each_sound E _ hs _ _ _ h3).1) (hsig hno)

/-- For finitely many things there is a bound that is large enough for all. -/
theorem common {A : Type} (P : A → Nat → Prop) (hm : ∀ a n m, n ≤ m → P a n → P a m) : ∀ l : List A, (∀ a ∈ l, ∃ n, P a n) → ∃ n, ∀ a ∈ l, P a n
  | [], _ => ⟨0, by simp⟩
  | a :: l, h => by
    obtain ⟨n, hn⟩ := h a (List.mem_cons_self ..)
    obtain ⟨m, hm'⟩ := common P hm l fun x hx => h x (List.mem_cons_of_mem _ hx)
    exact ⟨max n m, List.forall_mem_cons.2 ⟨hm _ _ _ (by omega) hn, fun x hx => hm _ _ _ (by omega) (hm' x hx)⟩⟩

theorem answers_mono (E : Env T S) {n m : Nat} (h : n ≤ m) {t st} (ha : contains E n t st ≠ none) : contains E m t st ≠ none := by
  cases hr : contains E n t st with
  | none => exact absurd hr ha
  | some r => rw [contains_mono E n m h _ _ _ hr]; simp

omit [DecidableEq T] [DecidableEq S] in
theorem countP_less (l : List T) (p q : T → Bool) (h : ∀ x ∈ l, q x = true → p x = true) (x : T) (hx : x ∈ l) (hp : p x = true) (hq : q x = false) : l.countP q < l.countP p := by
  induction l with
  | nil => simp at hx
  | cons a l ih =>
    have hle : ∀ l : List T, (∀ x ∈ l, q x = true → p x = true) → l.countP q ≤ l.countP p := fun l h => List.countP_mono_left h
    rw [List.countP_cons, List.countP_cons]
    rcases List.mem_cons.1 hx with rfl | hx
    · have := hle l fun y hy => h y (List.mem_cons_of_mem _ hy)
      rw [hp, hq]; simp; omega
    · have := ih (fun y hy => h y (List.mem_cons_of_mem _ hy)) hx
      have ha := h a (List.mem_cons_self ..)
      cases hqa : q a <;> cases hpa : p a <;> simp_all <;> omega

theorem finite_answers (E : Env T S) (univ : List T) (hstep : ∀ t ∈ univ, ∀ y, Step E t y → y ∈ univ)
    (horg : ∀ t ∈ univ, ∀ s ∈ E.callSignatures t, ∃ o, Origin E s o) :
    ∀ k, ∃ N, ∀ t ∈ univ, ∀ st : State T S, univ.countP (fun x => x ∉ st.seen) ≤ k → contains E N t st ≠ none := by
  obtain ⟨K, hK⟩ := common (fun t n => ∀ s ∈ E.callSignatures t, ∃ o, origin E n s = some o)
    (fun t n m hnm h s hs => by obtain ⟨o, ho⟩ := h s hs; exact ⟨o, origin_mono E n m s o hnm ho⟩) univ
    (fun t ht => common (fun s n => ∃ o, origin E n s = some o) (fun s n m hnm ⟨o, ho⟩ => ⟨o, origin_mono E n m s o hnm ho⟩) _
      fun s hs => by obtain ⟨o, ho⟩ := horg t ht s hs; obtain ⟨n, hn⟩ := origin_enough ho; exact ⟨n, o, hn n (by omega)⟩)
  intro k
  induction k with
  | zero =>
    refine ⟨1, fun t ht st hk => ?_⟩
    have : t ∈ st.seen := by
      have h0 : univ.countP (fun x => x ∉ st.seen) = 0 := by omega
      rw [List.countP_eq_zero] at h0
      simpa using h0 t ht
    rw [contains, if_pos (by simpa using this)]; simp
  | succ k ih =>
    obtain ⟨N, hN⟩ := ih
    refine ⟨max N K + 1, fun t ht st hk => ?_⟩
    let I : State T S → Prop := fun st => univ.countP (fun x => x ∉ st.seen) ≤ k
    have hI : ∀ st st' : State T S, I st → Explored E st st' → I st' := fun a b ha hab =>
      Nat.le_trans (List.countP_mono_left (fun x _ hx => by simp only [decide_eq_true_eq] at hx ⊢; exact fun h => hx (hab.grows x h))) ha
    refine contains_answers E (max N K) t st I (fun _ => I) hI (fun _ => hI) (fun hno => ?_) (fun _ y hy s hs => answers_mono E (Nat.le_max_left ..) (hN y ?_ s hs)) fun _ s hs => ?_
    · have := countP_less univ (fun x => x ∉ st.seen) (fun x => x ∉ t :: st.seen)
        (fun x _ hx => by simp only [decide_eq_true_eq, List.mem_cons, not_or] at hx ⊢; exact hx.2) t ht (by simpa using hno) (by simp)
      exact Nat.le_of_lt_succ (Nat.lt_of_lt_of_le this hk)
    · exact hstep t ht y (hy.elim (fun h => h.2.elim .union .intersection) .argument)
    · obtain ⟨o, ho⟩ := hK t ht s hs
      refine ⟨o, origin_mono E _ _ _ _ (Nat.le_max_right ..) ho, fun st h _ => h, fun y hy st hst => answers_mono E (Nat.le_max_left ..) (hN y ?_ st hst)⟩
      rcases List.mem_cons.1 hy with rfl | hy
      · exact hstep t ht _ (.result hs)
      · exact hstep t ht _ (.param hs hy)

/-- C97 If finitely many types can be reached, however they refer to each other, there is an answer. -/
theorem C97_answers_finite (E : Env T S) (t : T) (univ : List T) (hfin : ∀ y, Reach E t y → y ∈ univ)
    (horg : ∀ y, Reach E t y → ∀ s ∈ E.callSignatures y, ∃ o, Origin E s o) : ∃ fuel b, typeContains E fuel (some t) = some b := by
  haveI : ∀ y, Decidable (Reach E t y) := fun _ => Classical.propDecidable _
  obtain ⟨N, hN⟩ := finite_answers E (univ.filter fun y => Reach E t y)
    (fun x hx y hy => by
      have hx := List.mem_filter.1 hx
      have hr : Reach E t y := .step (by simpa using hx.2) hy
      exact List.mem_filter.2 ⟨hfin y hr, by simpa using hr⟩)
    (fun x hx => horg x (by simpa using (List.mem_filter.1 hx).2)) (univ.filter fun y => Reach E t y).length
  have := hN t (List.mem_filter.2 ⟨hfin t .refl, by simpa using Reach.refl⟩) ⟨[], []⟩ List.countP_le_length
  cases hr : contains E N t ⟨[], []⟩ with
  | none => exact absurd hr this
  | some r => exact ⟨N, r.1, by rw [typeContains, hr]; rfl⟩

theorem generic_answers (E : Env T S) (root : T) (ids : List S) (height : T → Nat)
    (hh : ∀ t, Reach E root t → ∀ y, (y ≠ t ∧ (y ∈ E.unionParts t ∨ y ∈ E.intersectionParts t)) ∨ y ∈ E.typeArguments t → height y < height t)
    (horg : ∀ t, Reach E root t → ∀ s ∈ E.callSignatures t, ∃ o ∈ ids, Origin E s o) :
    ∀ k h t (act : List S), Reach E root t → height t ≤ h → ids.countP (fun o => o ∉ act) ≤ k → ∃ N, ∀ seen, contains E N t ⟨seen, act⟩ ≠ none := by
  intro k
  induction k using Nat.strongRecOn with
  | _ k ihk =>
    intro h
    induction h using Nat.strongRecOn with
    | _ h ihh =>
      intro t act hr hle hcnt
      obtain ⟨N1, h1⟩ := common (fun y n => ((y ≠ t ∧ (y ∈ E.unionParts t ∨ y ∈ E.intersectionParts t)) ∨ y ∈ E.typeArguments t) → ∀ seen, contains E n y ⟨seen, act⟩ ≠ none)
        (fun a n m hnm ha hy seen => answers_mono E hnm (ha hy seen)) (E.unionParts t ++ (E.intersectionParts t ++ E.typeArguments t)) (fun y hy => by
          by_cases hc : (y ≠ t ∧ (y ∈ E.unionParts t ∨ y ∈ E.intersectionParts t)) ∨ y ∈ E.typeArguments t
          · have hlt := hh t hr y hc
            obtain ⟨N, hN⟩ := ihh (height y) (by omega) y act (.step hr (hc.elim (fun h => h.2.elim .union .intersection) .argument)) (Nat.le_refl _) hcnt
            exact ⟨N, fun _ => hN⟩
          · exact ⟨0, fun h => absurd h hc⟩)
      obtain ⟨N2, h2⟩ := common (fun s n => ∃ o, origin E n s = some o ∧ (o ∉ act → ∀ y ∈ E.result s :: E.params s, ∀ seen, contains E n y ⟨seen, o :: act⟩ ≠ none))
        (fun s n m hnm ⟨o, ho, h⟩ => ⟨o, origin_mono E n m s o hnm ho, fun hno y hy seen => answers_mono E hnm (h hno y hy seen)⟩) (E.callSignatures t) (fun s hs => by
          obtain ⟨o, hmem, ho⟩ := horg t hr s hs
          obtain ⟨n, hn⟩ := origin_enough ho
          by_cases hno : o ∈ act
          · exact ⟨n, o, hn n (Nat.le_refl _), fun h => absurd hno h⟩
          · have hlt := countP_less ids (fun x => x ∉ act) (fun x => x ∉ o :: act)
              (fun x _ hx => by simp only [decide_eq_true_eq, List.mem_cons, not_or] at hx ⊢; exact hx.2) o hmem (by simpa using hno) (by simp)
            obtain ⟨N, hN⟩ := common (fun y n => ∀ seen, contains E n y ⟨seen, o :: act⟩ ≠ none) (fun a n m hnm ha seen => answers_mono E hnm (ha seen)) (E.result s :: E.params s) (fun y hy => by
              have hry : Reach E root y := by
                rcases List.mem_cons.1 hy with rfl | hy
                · exact .step hr (.result hs)
                · exact .step hr (.param hs hy)
              exact ihk _ (Nat.lt_of_lt_of_le hlt hcnt) (height y) y (o :: act) hry (Nat.le_refl _) (Nat.le_refl _))
            exact ⟨max n N, o, hn _ (Nat.le_max_left ..), fun _ y hy seen => answers_mono E (Nat.le_max_right ..) (hN y hy seen)⟩)
      refine ⟨max N1 N2 + 1, fun seen => ?_⟩
      refine contains_answers E (max N1 N2) t ⟨seen, act⟩ (fun st => st.active = act) (fun o st => o ∉ act ∧ st.active = o :: act) (fun a b ha hab => hab.active.trans ha)
        (fun o a b ha hab => ⟨ha.1, hab.active.trans ha.2⟩) (fun _ => rfl) (fun _ y hy st hst => ?_) fun _ s hs => ?_
      · obtain ⟨sn, a⟩ := st
        simp only at hst; subst hst
        refine answers_mono E (Nat.le_max_left ..) (h1 y ?_ hy sn)
        rcases hy with ⟨_, hy | hy⟩ | hy <;> simp [hy]
      · obtain ⟨o, ho, hy⟩ := h2 s hs
        refine ⟨o, origin_mono E _ _ _ _ (Nat.le_max_right ..) ho, fun st hst hno => ?_, fun y hyy st hst => ?_⟩
        · rw [hst] at hno; exact ⟨hno, by rw [hst]⟩
        · obtain ⟨sn, a⟩ := st
          obtain ⟨hno, hst⟩ := hst
          simp only at hst; subst hst
          exact answers_mono E (Nat.le_max_right ..) (hy hno y hyy sn)

/-- C97 There is an answer also if infinitely many types can be reached, as long as their signatures are instantiated from finitely many and types are made up of finitely many constituents and type arguments. -/
theorem C97_answers_generic (E : Env T S) (t : T) (ids : List S) (height : T → Nat)
    (hh : ∀ x, Reach E t x → ∀ y, (y ≠ x ∧ (y ∈ E.unionParts x ∨ y ∈ E.intersectionParts x)) ∨ y ∈ E.typeArguments x → height y < height x)
    (horg : ∀ x, Reach E t x → ∀ s ∈ E.callSignatures x, ∃ o ∈ ids, Origin E s o) : ∃ fuel b, typeContains E fuel (some t) = some b := by
  obtain ⟨N, hN⟩ := generic_answers E t ids height hh horg ids.length (height t) t [] .refl (Nat.le_refl _) List.countP_le_length
  cases hr : contains E N t ⟨[], []⟩ with
  | none => exact absurd hr (hN [])
  | some r => exact ⟨N, r.1, by rw [typeContains, hr]; rfl⟩

/-! ### Examples -/

namespace Sample

/-- `string` (0), `any` (1), `Map<string, () => any>` (2), `() => any` (3), a function returning itself (4), a union that has itself as a part (5). -/
def env : Env Nat Nat where
  holds t := t = 1
  unionParts t := if t = 5 then [5, 0] else [t]
  intersectionParts t := [t]
  typeArguments t := if t = 2 then [0, 3] else []
  callSignatures t := if t = 3 then [13] else if t = 4 then [14] else []
  target s := if s = 13 then some 23 else none
  params _ := [0]
  result s := if s = 13 then 1 else if s = 14 then 4 else 0

example : typeContains env 9 (some 2) = some true := by decide
example : typeContains env 9 (some 4) = some false := by decide
example : typeContains env 9 (some 5) = some false := by decide
example : Occurs env 2 := ⟨1, .step (.step .refl (.argument (y := 3) (by decide))) (.result (s := 13) (by decide)), by decide⟩
example : ¬ Occurs env 4 := C97_false env 9 4 (by decide)
/-- a self-returning function is a recursive generic in the sense of the specification, but nothing new is reached through it -/
example : Recursive env 4 := ⟨[14], 4, 14, 14, .result (s := 14) .root (by decide) (.self rfl), by decide, .self rfl, by decide⟩
example : ∃ fuel b, typeContains env fuel (some 4) = some b :=
  C97_answers_finite env 4 [0, 4] (fun y hy => by
    induction hy with
    | refl => decide
    | step _ hs ih =>
      rename_i t y
      simp only [List.mem_cons, List.not_mem_nil, or_false] at ih
      rcases ih with rfl | rfl <;> cases hs <;> simp_all [env]) (fun y hy s hs => ⟨s, .self (by
        have : y = 0 ∨ y = 4 := by
          clear hs
          induction hy with
          | refl => exact .inr rfl
          | step _ hs ih => rcases ih with rfl | rfl <;> cases hs <;> simp_all [env]
        rcases this with rfl | rfl <;> simp_all [env])⟩)

/-- A generic function whose result is a new instantiation of it: type `t` has one signature, `t`, returning type `t + 1`; all are instantiated from signature 0. -/
def endless : Env Nat Nat where
  holds _ := false
  unionParts t := [t]
  intersectionParts t := [t]
  typeArguments _ := []
  callSignatures t := [t]
  target s := if s = 0 then none else some 0
  params _ := []
  result s := s + 1

theorem endless_origin (s : Nat) : Origin endless s 0 := by
  by_cases h : s = 0
  · subst h; exact .self rfl
  · exact .next (s' := 0) (by simp [endless, h]) (.self rfl)

example : ∃ fuel b, typeContains endless fuel (some 7) = some b :=
  C97_answers_generic endless 7 [0] (fun _ => 0) (by simp [endless]) fun x _ s _ => ⟨0, by simp, endless_origin s⟩
example : typeContains endless 9 (some 7) = some true := by decide
/-- C97 The answer `true` may be given although nothing of the kind occurs. -/
theorem C97_cautious : typeContains endless 9 (some 7) = some true ∧ ¬ Occurs endless 7 ∧ Recursive endless 7 :=
  ⟨by decide, fun ⟨_, _, h⟩ => by simp [endless] at h,
   [0], 8, 8, 0, .result (s := 7) .root (by decide) (endless_origin 7), by decide, endless_origin 8, by decide⟩

end Sample
end Tsgolint.TypeContains
