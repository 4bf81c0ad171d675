import Verif.Spec.Floating
/-! # Lemmas for C63 -/
namespace Tsgolint.Floating

theorem rejectable_iff (ps : List Bool) : rejectable ps = true ↔ ∃ rest, ps = true :: true :: rest := by
  match ps with
  | [] => simp [rejectable]
  | [a] => simp [rejectable]
  | a :: b :: rest => cases a <;> cases b <;> simp [rejectable]

theorem isPromiseLike_iff (o : Opts) (t : PType) : isPromiseLike o t = true ↔ PromiseLike o t := by
  unfold isPromiseLike PromiseLike
  cases ha : t.allowed with
  | true => simp
  | false =>
    simp only [Bool.false_eq_true, if_false, true_and]
    have key : ∀ p : Part, hasRejectableThen p = true ↔
        ∃ parts, p.thenSignatures = some parts ∧ ∃ sigs ∈ parts, ∃ rest, (true :: true :: rest) ∈ sigs := by
      intro p
      unfold hasRejectableThen
      cases p.thenSignatures with
      | none => simp
      | some parts =>
        simp only [List.any_eq_true, rejectable_iff, Option.some.injEq, exists_eq_left']
        constructor
        · rintro ⟨s, hs, x, hx, r, rfl⟩; exact ⟨s, hs, r, hx⟩
        · rintro ⟨s, hs, r, hx⟩; exact ⟨s, hs, _, hx, r, rfl⟩
    by_cases hp : t.parts.any (·.isPromise) = true
    · rw [if_pos hp]
      obtain ⟨p, hm, h⟩ := List.any_eq_true.1 hp
      simp only [true_iff]
      exact ⟨p, hm, .inl h⟩
    · rw [if_neg hp]
      have hp' : ∀ p ∈ t.parts, ¬ p.isPromise = true := fun p hm h => hp (List.any_eq_true.2 ⟨p, hm, h⟩)
      cases ho : o.checkThenables with
      | false =>
        simp only [Bool.not_false, if_true, Bool.false_eq_true, false_and, or_false, false_iff]
        rintro ⟨p, hm, h⟩; exact hp' p hm h
      | true =>
        simp only [Bool.not_true, Bool.false_eq_true, if_false, List.any_eq_true, key, true_and]
        constructor
        · rintro ⟨p, hm, h⟩; exact ⟨p, hm, .inr h⟩
        · rintro ⟨p, hm, h | h⟩
          · exact absurd h (hp' p hm)
          · exact ⟨p, hm, h⟩

theorem isPromiseArray_iff (o : Opts) (t : NodeType) : isPromiseArray o t = true ↔ PromiseArray o t := by
  unfold isPromiseArray PromiseArray
  simp only [List.any_eq_true, Bool.or_eq_true]
  have h1 : ∀ a : Option PType × Option (List PType), arrayOfPromises o a.1 = true ↔
      ∃ e, a.1 = some e ∧ PromiseLike o e := by
    intro a; cases a.1 <;> simp [isPromiseLike_iff, arrayOfPromises]
  have h2 : ∀ a : Option PType × Option (List PType), tupleOfPromises o a.2 = true ↔
      ∃ es, a.2 = some es ∧ ∃ e ∈ es, PromiseLike o e := by
    intro a; cases a.2 <;> simp [isPromiseLike_iff, tupleOfPromises]
  simp only [h1, h2]

theorem known_iff (args : List Arg) (i : Nat) :
    (isKnownArgumentAt args i = true ∧ (args[i]?.map (·.callable)).getD false = true) ↔ FunctionAt args i := by
  unfold isKnownArgumentAt FunctionAt
  constructor
  · rintro ⟨h1, h2⟩
    split at h1
    · cases h1
    · next hl =>
      have hlt : i < args.length := by omega
      refine ⟨args.take i, args[i], args.drop (i + 1), ?_, by simp; omega, ?_, ?_, ?_⟩
      · simp
      · simpa [List.getElem?_eq_getElem hlt] using h2
      · simp only [Bool.not_eq_true', List.any_eq_false] at h1
        have := h1 args[i] (by rw [List.mem_take_iff_getElem]; exact ⟨i, by omega, rfl⟩)
        simpa using this
      · intro b hb
        simp only [Bool.not_eq_true', List.any_eq_false] at h1
        have := h1 b (List.take_subset_take_left args (by omega) hb)
        simpa using this
  · rintro ⟨before, a, after, rfl, rfl, hc, hs, hb⟩
    have hl : ¬ (before ++ a :: after).length ≤ before.length := by simp
    rw [if_neg hl]
    refine ⟨?_, by simp [hc]⟩
    simp only [Bool.not_eq_true', List.any_eq_false]
    intro x hx
    have : (before ++ a :: after).take (before.length + 1) = before ++ [a] := by
      rw [List.take_append]; simp [List.take_of_length_le]
    rw [this] at hx
    rcases List.mem_append.1 hx with hx | hx
    · simp [hb x hx]
    · simp at hx; simp [hx, hs]

theorem handlerAt_none (args : List Arg) (i : Nat) : handlerAt args i = none ↔ FunctionAt args i := by
  rw [← known_iff]
  unfold handlerAt
  cases h : isKnownArgumentAt args i with
  | false => simp
  | true =>
    simp only [Bool.not_true, Bool.false_eq_true, if_false, true_and]
    split
    · next hc => simp [hc]
    · next hc => simp [hc]

theorem handlerAt_array (args : List Arg) (i : Nat) (u : Unhandled) (h : handlerAt args i = some u) : u.promiseArray = false := by
  unfold handlerAt at h
  split at h
  · cases h; rfl
  · split at h
    · cases h
    · cases h; rfl

theorem functionAt_length {args : List Arg} {i : Nat} (h : FunctionAt args i) : i + 1 ≤ args.length := by
  obtain ⟨b, a, c, rfl, rfl, -⟩ := h; simp

theorem Ev.exists (o : Opts) (e : Expr) : ∃ v d, Ev o e v d := by
  induction e with
  | assignment t => exact ⟨_, _, .assignment t⟩
  | comma t l r ihl ihr => obtain ⟨v, d, h⟩ := ihl; obtain ⟨w, d', h'⟩ := ihr; exact ⟨_, _, .comma t h h'⟩
  | voidOf t x ih => obtain ⟨v, d, h⟩ := ih; exact ⟨_, _, .voidOf t h⟩
  | await t => exact ⟨_, _, .await t⟩
  | call t args => exact ⟨_, _, .call t args⟩
  | method t name x args _ => exact ⟨_, _, .method t name x args⟩
  | conditional t a b iha _ => obtain ⟨v, d, h⟩ := iha; exact ⟨_, _, .whenTrue t h⟩
  | logical t l r ihl _ => obtain ⟨v, d, h⟩ := ihl; exact ⟨_, _, .left t h⟩
  | paren t x ih => obtain ⟨v, d, h⟩ := ih; exact ⟨_, _, .paren t h⟩
  | other t => exact ⟨_, _, .other t⟩

/-- An array of promises may well be the value. -/
theorem Ev.ofArray (o : Opts) (e : Expr) (hf : Flat o e) (ha : PromiseArray o e.type) : ∃ d, Ev o e (.floating true) d := by
  induction e with
  | assignment t => exact absurd ha hf
  | comma t l r _ _ => exact hf.elim
  | voidOf t x _ => exact absurd ha hf.2.2
  | await t => exact ⟨_, .awaitArray ha⟩
  | call t args => exact ⟨_, .callArray args ha⟩
  | method t name x args _ => exact ⟨_, .methodArray name x args ha⟩
  | conditional t a b iha ihb =>
    obtain ⟨⟨-, hag⟩, hfa, hfb⟩ := hf
    rcases hag.1 ha with h | h
    · obtain ⟨d, h⟩ := iha hfa h; exact ⟨d, .whenTrue t h⟩
    · obtain ⟨d, h⟩ := ihb hfb h; exact ⟨d, .whenFalse t h⟩
  | logical t l r ihl ihr =>
    obtain ⟨⟨-, hag⟩, hfa, hfb⟩ := hf
    rcases hag.1 ha with h | h
    · obtain ⟨d, h⟩ := ihl hfa h; exact ⟨d, .left t h⟩
    · obtain ⟨d, h⟩ := ihr hfb h
      obtain ⟨v, d', h'⟩ := Ev.exists o l
      exact ⟨_, .right t h' h⟩
  | paren t x _ => exact hf.elim
  | other t => exact ⟨_, .otherArray ha⟩

theorem typed_some {o : Opts} {t : NodeType} {r : Option Unhandled} {u : Unhandled}
    (h : (if isPromiseArray o t then some { promiseArray := true } else if !isPromiseLike o t.self then none else r) = some u) :
    (PromiseArray o t ∧ u.promiseArray = true) ∨ (PromiseLike o t.self ∧ r = some u) := by
  split at h
  · next ha => cases h; exact .inl ⟨(isPromiseArray_iff ..).1 ha, rfl⟩
  · split at h
    · cases h
    · next hl =>
      right
      simp only [Bool.not_eq_true', Bool.not_eq_false] at hl
      exact ⟨(isPromiseLike_iff ..).1 hl, h⟩

theorem typed_none {o : Opts} {t : NodeType} {r : Option Unhandled} :
    (if isPromiseArray o t then some { promiseArray := true } else if !isPromiseLike o t.self then none else r) = none ↔
    ¬ PromiseArray o t ∧ (PromiseLike o t.self → r = none) := by
  rw [← isPromiseArray_iff, ← isPromiseLike_iff]
  cases isPromiseArray o t <;> cases isPromiseLike o t.self <;> simp

theorem sound_flat (o : Opts) (e : Expr) : ∀ u, Flat o e → isUnhandledPromise o e = some u → ∃ d, Ev o e (.floating u.promiseArray) d := by
  induction e with
  | assignment t => intro u _ h; simp [isUnhandledPromise] at h
  | comma t l r _ _ => intro u hf; exact hf.elim
  | voidOf t x _ =>
    intro u hf h
    rw [isUnhandledPromise, hf.1] at h
    simp only [Bool.not_true, Bool.false_eq_true, if_false] at h
    rcases typed_some h with ⟨h, -⟩ | ⟨h, -⟩
    · exact absurd h hf.2.2
    · exact absurd h hf.2.1
  | await t =>
    intro u _ h
    rw [isUnhandledPromise] at h
    split at h
    · next ha => cases h; exact ⟨_, .awaitArray ((isPromiseArray_iff ..).1 ha)⟩
    · cases h
  | call t args =>
    intro u _ h
    rw [isUnhandledPromise] at h
    have h0 := typed_some h
    clear h
    rcases h0 with ⟨h, hu⟩ | ⟨h, hu⟩
    · rw [hu]; exact ⟨_, .callArray args h⟩
    · cases hu; exact ⟨_, .callPromise args h⟩
  | other t =>
    intro u _ h
    rw [isUnhandledPromise] at h
    have h0 := typed_some h
    clear h
    rcases h0 with ⟨h, hu⟩ | ⟨h, hu⟩
    · rw [hu]; exact ⟨_, .otherArray h⟩
    · cases hu; exact ⟨_, .otherPromise h⟩
  | paren t x _ => intro u hf; exact hf.elim
  | method t name x args ih =>
    intro u hf h
    rw [isUnhandledPromise] at h
    have h0 := typed_some h
    clear h
    rcases h0 with ⟨h, hu⟩ | ⟨h, hu⟩
    · rw [hu]; exact ⟨_, .methodArray name x args h⟩
    · split at hu
      · next hc =>
        rw [handlerAt_array _ _ _ hu]
        refine ⟨_, .methodPromise x h ?_ (by rw [hc.1]; decide)⟩
        rintro (⟨-, hf'⟩ | ⟨hn, -⟩)
        · rw [(handlerAt_none ..).2 hf'] at hu; cases hu
        · rw [hc.1] at hn; exact absurd hn (by decide)
      · next hc =>
        split at hu
        · next hc2 =>
          rw [handlerAt_array _ _ _ hu]
          refine ⟨_, .methodPromise x h ?_ (by rw [hc2.1]; decide)⟩
          rintro (⟨hn, -⟩ | ⟨-, hf'⟩)
          · rw [hc2.1] at hn; exact absurd hn (by decide)
          · rw [(handlerAt_none ..).2 hf'] at hu; cases hu
        · next hc2 =>
          split at hu
          · next hfin =>
            subst hfin
            obtain ⟨d, hd⟩ := ih u (hf.2 rfl) hu
            exact ⟨d, .passedOn h (hf.1 h (.inr (.inr rfl))) hd⟩
          · next hfin =>
            cases hu
            refine ⟨_, .methodPromise x h ?_ hfin⟩
            rintro (⟨hn, hf'⟩ | ⟨hn, hf'⟩)
            · exact hc ⟨hn, functionAt_length hf'⟩
            · exact hc2 ⟨hn, functionAt_length hf'⟩
  | conditional t a b iha ihb =>
    intro u hf h
    rw [isUnhandledPromise] at h
    have h0 := typed_some h
    clear h
    rcases h0 with ⟨h, hu⟩ | ⟨h, hu⟩
    · rw [hu]; exact Ev.ofArray o (.conditional t a b) hf h
    · split at hu
      · next u' hb => cases hu; obtain ⟨d, hd⟩ := ihb _ hf.2.2 hb; exact ⟨d, .whenFalse t hd⟩
      · obtain ⟨d, hd⟩ := iha _ hf.2.1 hu; exact ⟨d, .whenTrue t hd⟩
  | logical t l r ihl ihr =>
    intro u hf h
    rw [isUnhandledPromise] at h
    have h0 := typed_some h
    clear h
    rcases h0 with ⟨h, hu⟩ | ⟨h, hu⟩
    · rw [hu]; exact Ev.ofArray o (.logical t l r) hf h
    · split at hu
      · next u' hb => cases hu; obtain ⟨d, hd⟩ := ihl _ hf.2.1 hb; exact ⟨d, .left t hd⟩
      · obtain ⟨d, hd⟩ := ihr _ hf.2.2 hu
        obtain ⟨v, d', h'⟩ := Ev.exists o l
        exact ⟨_, .right t h' hd⟩

/-- Below a choice, nothing is dropped on the way, and a floating value is reported or the type says there is none. -/
theorem complete_flat (o : Opts) (e : Expr) (v : Val) (d : List Val) (hev : Ev o e v d) : Flat o e →
    d = [] ∧ ∀ b, v = .floating b → isUnhandledPromise o e ≠ none ∧ (PromiseArray o e.type ∨ PromiseLike o e.type.self) := by
  induction hev with
  | assignment t => intro _; exact ⟨rfl, by simp⟩
  | comma => intro hf; exact hf.elim
  | voidOf t _ _ => intro hf; exact ⟨by simp [hf.1], by simp⟩
  | await t => intro _; exact ⟨rfl, by simp⟩
  | awaitArray h =>
    intro _
    refine ⟨rfl, fun b _ => ⟨?_, .inl h⟩⟩
    rw [isUnhandledPromise, if_pos ((isPromiseArray_iff ..).2 h)]; simp
  | call t args => intro _; exact ⟨rfl, by simp⟩
  | callArray args h => intro _; refine ⟨rfl, fun b _ => ⟨?_, .inl h⟩⟩; rw [isUnhandledPromise, ne_eq, typed_none]; simp [h]
  | callPromise args h => intro _; refine ⟨rfl, fun b _ => ⟨?_, .inr h⟩⟩; rw [isUnhandledPromise, ne_eq, typed_none]; simp [h]
  | method t name x args => intro _; exact ⟨rfl, by simp⟩
  | methodArray name x args h => intro _; refine ⟨rfl, fun b _ => ⟨?_, .inl h⟩⟩; rw [isUnhandledPromise, ne_eq, typed_none]; simp [h]
  | methodHandled => intro _; exact ⟨rfl, by simp⟩
  | @passedOn t x args v d h hx hev ih =>
    intro hf
    obtain ⟨hd, hfl⟩ := ih (hf.2 rfl)
    refine ⟨hd, fun b hb => ⟨?_, .inr h⟩⟩
    rw [isUnhandledPromise, ne_eq, typed_none]
    rintro ⟨-, hn⟩
    have := hn h
    simp at this
    exact (hfl b hb).1 this
  | @methodPromise t name x args h hh hne =>
    intro _
    refine ⟨rfl, fun b _ => ⟨?_, .inr h⟩⟩
    rw [isUnhandledPromise, ne_eq, typed_none]
    rintro ⟨-, hn⟩
    have := hn h
    split at this
    · next hc => exact hh (.inl ⟨hc.1, (handlerAt_none ..).1 this⟩)
    · split at this
      · next hc => exact hh (.inr ⟨hc.1, (handlerAt_none ..).1 this⟩)
      · simp [hne] at this
  | @methodForeign t name x args h hx =>
    intro hf
    refine ⟨rfl, fun b _ => ⟨?_, .inr h⟩⟩
    rw [isUnhandledPromise, ne_eq, typed_none]
    rintro ⟨-, hn⟩
    have := hn h
    split at this
    · next hc => exact hx (hf.1 h (.inl hc.1))
    · split at this
      · next hc => exact hx (hf.1 h (.inr (.inl hc.1)))
      · split at this
        · next hc => exact hx (hf.1 h (.inr (.inr hc)))
        · cases this
  | @whenTrue t a b' v d hev ih =>
    intro hf
    obtain ⟨hd, hfl⟩ := ih hf.2.1
    refine ⟨hd, fun b hb => ?_⟩
    obtain ⟨h1, h2⟩ := hfl b hb
    have hty : PromiseArray o t ∨ PromiseLike o t.self := by
      rcases h2 with h2 | h2
      · exact .inl (hf.1.2.2 (.inl h2))
      · exact .inr (hf.1.1.2 (.inl h2))
    refine ⟨?_, hty⟩
    rw [isUnhandledPromise, ne_eq, typed_none]
    rintro ⟨hna, hn⟩
    rcases hty with h | h
    · exact hna h
    · have := hn h
      split at this
      · cases this
      · exact h1 this
  | @whenFalse t a b' v d hev ih =>
    intro hf
    obtain ⟨hd, hfl⟩ := ih hf.2.2
    refine ⟨hd, fun b hb => ?_⟩
    obtain ⟨h1, h2⟩ := hfl b hb
    have hty : PromiseArray o t ∨ PromiseLike o t.self := by
      rcases h2 with h2 | h2
      · exact .inl (hf.1.2.2 (.inr h2))
      · exact .inr (hf.1.1.2 (.inr h2))
    refine ⟨?_, hty⟩
    rw [isUnhandledPromise, ne_eq, typed_none]
    rintro ⟨hna, hn⟩
    rcases hty with h | h
    · exact hna h
    · have := hn h
      split at this
      · cases this
      · next hb => exact h1 hb
  | @left t l r v d hev ih =>
    intro hf
    obtain ⟨hd, hfl⟩ := ih hf.2.1
    refine ⟨hd, fun b hb => ?_⟩
    obtain ⟨h1, h2⟩ := hfl b hb
    have hty : PromiseArray o t ∨ PromiseLike o t.self := by
      rcases h2 with h2 | h2
      · exact .inl (hf.1.2.2 (.inl h2))
      · exact .inr (hf.1.1.2 (.inl h2))
    refine ⟨?_, hty⟩
    rw [isUnhandledPromise, ne_eq, typed_none]
    rintro ⟨hna, hn⟩
    rcases hty with h | h
    · exact hna h
    · have := hn h
      split at this
      · cases this
      · next hb => exact h1 hb
  | @right t l r v d w d' hl hr ihl ihr =>
    intro hf
    obtain ⟨hd, -⟩ := ihl hf.2.1
    obtain ⟨hd', hfl⟩ := ihr hf.2.2
    refine ⟨by rw [hd, hd']; rfl, fun b hb => ?_⟩
    obtain ⟨h1, h2⟩ := hfl b hb
    have hty : PromiseArray o t ∨ PromiseLike o t.self := by
      rcases h2 with h2 | h2
      · exact .inl (hf.1.2.2 (.inr h2))
      · exact .inr (hf.1.1.2 (.inr h2))
    refine ⟨?_, hty⟩
    rw [isUnhandledPromise, ne_eq, typed_none]
    rintro ⟨hna, hn⟩
    rcases hty with h | h
    · exact hna h
    · have := hn h
      split at this
      · cases this
      · exact h1 this
  | paren => intro hf; exact hf.elim
  | other t => intro _; exact ⟨rfl, by simp⟩
  | otherArray h => intro _; refine ⟨rfl, fun b _ => ⟨?_, .inl h⟩⟩; rw [isUnhandledPromise, ne_eq, typed_none]; simp [h]
  | otherPromise h => intro _; refine ⟨rfl, fun b _ => ⟨?_, .inr h⟩⟩; rw [isUnhandledPromise, ne_eq, typed_none]; simp [h]

theorem drops_flat_sound (o : Opts) (e : Expr) (hf : Flat o e) (u : Unhandled) (h : isUnhandledPromise o e = some u) : Drops o e u.promiseArray := by
  obtain ⟨d, hd⟩ := sound_flat o e u hf h
  exact ⟨_, d, hd, List.mem_cons_self ..⟩

theorem drops_flat_complete (o : Opts) (e : Expr) (hf : Flat o e) (b : Bool) (h : Drops o e b) : isUnhandledPromise o e ≠ none := by
  obtain ⟨v, d, hev, hm⟩ := h
  obtain ⟨hd, hfl⟩ := complete_flat o e v d hev hf
  subst hd
  simp at hm
  exact (hfl b hm.symm).1

theorem sound_spine (o : Opts) (e : Expr) : ∀ u, Spine o e → isUnhandledPromise o e = some u → Drops o e u.promiseArray := by
  induction e with
  | assignment t => intro u _ h; simp [isUnhandledPromise] at h
  | comma t l r ihl ihr =>
    intro u hs h
    rw [isUnhandledPromise] at h
    obtain ⟨v', d', hl'⟩ := Ev.exists o l
    obtain ⟨w', e', hr'⟩ := Ev.exists o r
    split at h
    · next u' hl =>
      cases h
      obtain ⟨v, d, hev, hm⟩ := ihl _ hs.1 hl
      refine ⟨w', _, .comma t hev hr', ?_⟩
      rcases List.mem_cons.1 hm with hm | hm
      · simp [hm]
      · simp [hm]
    · obtain ⟨v, d, hev, hm⟩ := ihr _ hs.2 h
      refine ⟨v, _, .comma t hl' hev, ?_⟩
      rcases List.mem_cons.1 hm with hm | hm
      · simp [hm]
      · simp [hm]
  | voidOf t x ih =>
    intro u hs h
    rw [isUnhandledPromise] at h
    cases hv : o.ignoreVoid with
    | true =>
      simp only [Spine, hv, if_true] at hs
      simp only [hv, Bool.not_true, Bool.false_eq_true, if_false] at h
      rcases typed_some h with ⟨h, -⟩ | ⟨h, -⟩
      · exact absurd h hs.2
      · exact absurd h hs.1
    | false =>
      simp only [Spine, hv, Bool.false_eq_true, if_false] at hs
      simp only [hv, Bool.not_false, if_true] at h
      obtain ⟨v, d, hev, hm⟩ := ih _ hs h
      refine ⟨_, _, .voidOf t hev, ?_⟩
      rcases List.mem_cons.1 hm with hm | hm
      · simp [hv, hm]
      · simp [hv, hm]
  | await t => intro u hs h; exact drops_flat_sound o _ hs u h
  | call t args => intro u hs h; exact drops_flat_sound o _ hs u h
  | method t name x args _ => intro u hs h; exact drops_flat_sound o _ hs u h
  | conditional t a b _ _ => intro u hs h; exact drops_flat_sound o _ hs u h
  | logical t l r _ _ => intro u hs h; exact drops_flat_sound o _ hs u h
  | paren t x _ => intro u hs h; exact drops_flat_sound o _ hs u h
  | other t => intro u hs h; exact drops_flat_sound o _ hs u h

theorem complete_spine (o : Opts) (e : Expr) : ∀ b, Spine o e → Drops o e b → isUnhandledPromise o e ≠ none := by
  induction e with
  | assignment t =>
    rintro b _ ⟨v, d, hev, hm⟩
    cases hev; simp at hm
  | comma t l r ihl ihr =>
    rintro b hs ⟨v, d, hev, hm⟩
    cases hev with
    | @comma _ _ _ v d w d' hl hr =>
      rw [isUnhandledPromise]
      intro hn
      split at hn
      · cases hn
      · next hl0 =>
        have h1 : ¬ Drops o l b := fun h => ihl b hs.1 h hl0
        have h2 : ¬ Drops o r b := fun h => ihr b hs.2 h hn
        simp only [List.mem_cons, List.mem_append] at hm
        rcases hm with hm | hm | hm | hm
        · exact h2 ⟨_, _, hr, by simp [hm]⟩
        · exact h1 ⟨_, _, hl, by simp [hm]⟩
        · exact h1 ⟨_, _, hl, by simp [hm]⟩
        · exact h2 ⟨_, _, hr, by simp [hm]⟩
  | voidOf t x ih =>
    rintro b hs ⟨v, d, hev, hm⟩
    cases hev with
    | @voidOf _ _ v d hx =>
      cases hv : o.ignoreVoid with
      | true => simp [hv] at hm
      | false =>
        simp only [Spine, hv, Bool.false_eq_true, if_false] at hs
        rw [isUnhandledPromise]
        simp only [hv, Bool.not_false, if_true]
        refine ih b hs ⟨_, _, hx, ?_⟩
        simp [hv] at hm
        rcases hm with hm | hm <;> simp [hm]
  | await t => intro b hs h; exact drops_flat_complete o _ hs b h
  | call t args => intro b hs h; exact drops_flat_complete o _ hs b h
  | method t name x args _ => intro b hs h; exact drops_flat_complete o _ hs b h
  | conditional t a b _ _ => intro b hs h; exact drops_flat_complete o _ hs b h
  | logical t l r _ _ => intro b hs h; exact drops_flat_complete o _ hs b h
  | paren t x _ => intro b hs h; exact drops_flat_complete o _ hs b h
  | other t => intro b hs h; exact drops_flat_complete o _ hs b h

theorem drops_skip (o : Opts) (e : Expr) (b : Bool) : Drops o (skipParens e) b ↔ Drops o e b := by
  induction e with
  | paren t x ih =>
    rw [skipParens, ih]
    constructor
    · rintro ⟨v, d, h, hm⟩; exact ⟨v, d, .paren t h, hm⟩
    · rintro ⟨v, d, h, hm⟩; cases h with | paren _ h => exact ⟨v, d, h, hm⟩
  | _ => rfl

end Tsgolint.Floating
