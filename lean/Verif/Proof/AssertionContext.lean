import Verif.Proof.UnnecessaryAssertion
/-!
# Where what receives the value does not count
-/
namespace Tsgolint.UnnecessaryAssertion
variable {N T : Type} [DecidableEq N]

omit [DecidableEq N] in
/-- The first element with a property -/
theorem findIdx?_least {A : Type} (p : A → Bool) (l : List A) (i : Nat) : l.findIdx? p = some i ↔
    ∃ a, l[i]? = some a ∧ p a = true ∧ ∀ j b, j < i → l[j]? = some b → ¬ p b = true := by
  rw [List.findIdx?_eq_some_iff_getElem]
  constructor
  · rintro ⟨h, hp, hm⟩
    refine ⟨l[i], by simp [h], hp, fun j b hj hb => ?_⟩
    obtain ⟨hl, rfl⟩ := List.getElem?_eq_some_iff.1 hb
    simpa using hm j hj
  · rintro ⟨a, ha, hp, hm⟩
    obtain ⟨hl, rfl⟩ := List.getElem?_eq_some_iff.1 ha
    exact ⟨hl, hp, fun j hj => by simpa using hm j l[j] hj (by simp)⟩

theorem argumentIndex_iff (W : World N T) (args : List N) (node : N) (i : Nat) : W.argumentIndex args node = some i ↔
    ∃ a, args[i]? = some a ∧ (a = node ∨ W.skip a = node) ∧ ∀ j b, j < i → args[j]? = some b → ¬ (b = node ∨ W.skip b = node) := by
  rw [World.argumentIndex, findIdx?_least]; simp

theorem isArgument_iff (W : World N T) (c node : N) (i : Nat) {callee args t} (hk : (W.kind c).callOrNew? = some (callee, args, t)) :
    W.argumentIndex args node = some i ↔ IsArgument W c node i := by
  rw [Kind.callOrNew?_iff] at hk
  rw [argumentIndex_iff]
  constructor
  · rintro ⟨a, h1, h2, h3⟩; exact ⟨callee, args, t, a, hk, h1, h2, h3⟩
  · rintro ⟨callee', args', t', a, hk', h1, h2, h3⟩
    have : args' = args := by
      rcases hk with hk | hk <;> rw [hk] at hk' <;> simp at hk' <;> exact hk'.2.1.symm
    subst this
    exact ⟨a, h1, h2, h3⟩

omit [DecidableEq N] in
theorem IsArgument.call {W : World N T} {c node : N} {i : Nat} (h : IsArgument W c node i) : ∃ callee args t, (W.kind c).callOrNew? = some (callee, args, t) := by
  obtain ⟨callee, args, t, a, hk, _⟩ := h
  exact ⟨callee, args, t, (Kind.callOrNew?_iff _ _ _ _).2 hk⟩

theorem argument_iff (W : World N T) (node callee : N) (i : Nat) : W.argument node = some (callee, i) ↔
    ∃ outer above args t, Outer W (W.ancestors node) outer above ∧ IsArgument W outer node i ∧ (W.kind outer = .call callee args t ∨ W.kind outer = .construct callee args t) := by
  rw [World.argument]
  cases hp : W.parentThroughParens node with
  | none =>
    simp only [reduceCtorEq, false_iff]
    rintro ⟨o, a, _, _, ho, _⟩
    rw [(parentThroughParens_iff W node o).2 ⟨a, ho⟩] at hp
    cases hp
  | some p =>
    obtain ⟨a, ha⟩ := (parentThroughParens_iff W node p).1 hp
    simp only
    cases hc : (W.kind p).callOrNew? with
    | none =>
      simp only [reduceCtorEq, false_iff]
      rintro ⟨o, b, _, _, ho, hi, _⟩
      obtain ⟨rfl, _⟩ := ha.unique ho
      obtain ⟨x, y, z, hk⟩ := hi.call
      rw [hc] at hk; cases hk
    | some r =>
      obtain ⟨c, args, t⟩ := r
      simp only [Option.map_eq_some_iff, Prod.mk.injEq]
      constructor
      · rintro ⟨j, hj, rfl, rfl⟩
        exact ⟨p, a, args, t, ha, (isArgument_iff W p node _ hc).1 hj, (Kind.callOrNew?_iff _ _ _ _).1 hc⟩
      · rintro ⟨o, b, args', t', ho, hi, hk⟩
        obtain ⟨rfl, _⟩ := ha.unique ho
        have := (Kind.callOrNew?_iff _ _ _ _).2 hk
        rw [hc] at this
        simp only [Option.some.injEq, Prod.mk.injEq] at this
        exact ⟨i, (isArgument_iff W p node _ hc).2 hi, this.1, rfl⟩

theorem argument_isSome (W : World N T) (node : N) : (W.argument node).isSome = true ↔ ∃ inner outer above i, Outside W node inner outer above ∧ IsArgument W outer node i := by
  rw [Option.isSome_iff_exists]
  constructor
  · rintro ⟨⟨c, i⟩, h⟩
    obtain ⟨o, a, _, _, ho, hi, _⟩ := (argument_iff W node c i).1 h
    obtain ⟨x, hx⟩ := (outside_outer W node o a).2 ho
    exact ⟨x, o, a, i, hx, hi⟩
  · rintro ⟨x, o, a, i, hx, hi⟩
    obtain ⟨callee, args, t, b, hk, h⟩ := id hi
    exact ⟨(callee, i), (argument_iff W node callee i).2 ⟨o, a, args, t, (outside_outer W node o a).1 ⟨x, hx⟩, hi, hk⟩⟩

omit [DecidableEq N] in
theorem elementAt_iff (W : World N T) : ∀ path t r, W.elementAt t path = r ↔ ElementAt W t path r
  | [], t, r => by
    rw [World.elementAt]
    exact ⟨fun h => by subst h; exact .done, fun h => by cases h; rfl⟩
  | i :: path, t, r => by
    rw [World.elementAt]
    by_cases ht : W.tuple t = true
    · rw [if_pos ht]
      cases he : (W.tupleArguments t)[min i ((W.tupleArguments t).length - 1)]? with
      | none =>
        have h0 : W.tupleArguments t = [] := by
          rw [List.getElem?_eq_none_iff] at he
          exact List.eq_nil_of_length_eq_zero (by omega)
        simp only
        constructor
        · rintro rfl; exact .emptyTuple ht h0
        · intro h
          cases h with
          | tuple _ h _ => rw [he] at h; cases h
          | array h => rw [ht] at h; cases h
          | emptyTuple => rfl
          | notArray h => exact absurd ht (by simp [h])
      | some e =>
        simp only
        rw [elementAt_iff W path e r]
        constructor
        · intro h; exact .tuple ht he h
        · intro h
          cases h with
          | tuple _ h k => rw [he] at h; cases h; exact k
          | array h => rw [ht] at h; cases h
          | emptyTuple _ h => rw [h] at he; simp at he
          | notArray h => rw [ht] at h; cases h
    · rw [if_neg ht]
      have ht : W.tuple t = false := by simpa using ht
      cases he : W.numberIndex t with
      | none =>
        simp only
        constructor
        · rintro rfl; exact .notArray ht he
        · intro h
          cases h with
          | tuple h => rw [ht] at h; cases h
          | array _ h => rw [he] at h; cases h
          | emptyTuple h => exact absurd h (by simp [ht])
          | notArray => rfl
      | some e =>
        simp only
        rw [elementAt_iff W path e r]
        constructor
        · intro h; exact .array ht he h
        · intro h
          cases h with
          | tuple h => rw [ht] at h; cases h
          | array _ h k => rw [he] at h; cases h; exact k
          | emptyTuple h => rw [ht] at h; cases h
          | notArray _ h => rw [he] at h; cases h

omit [DecidableEq N] in
theorem argumentType_of (W : World N T) (s : Signature T) (index : Nat) (p : Param T)
    (hp : s.params[min index (s.params.length - 1)]? = some p) (t : T) : W.parameterType p (index - min index (s.params.length - 1)) = t ↔ ArgumentType W s index t := by
  have hsub : index - min index (s.params.length - 1) = index - (s.params.length - 1) := by omega
  rw [hsub, World.parameterType]
  have hu : ∀ t, ArgumentType W s index t ↔
    ((p.rest = true ∧ ∃ x, W.typeArguments p.type = [x] ∧ t = x) ∨
     (p.rest = true ∧ 2 ≤ (W.typeArguments p.type).length ∧ (W.typeArguments p.type)[min (index - (s.params.length - 1)) ((W.typeArguments p.type).length - 1)]? = some t) ∨
     ((p.rest = false ∨ W.typeArguments p.type = []) ∧ t = p.type)) := by
    intro t
    constructor
    · rintro ⟨q, hq, h⟩; rw [hp] at hq; cases hq; exact h
    · intro h; exact ⟨p, hp, h⟩
  rw [hu]
  by_cases hr : p.rest = true
  · rw [if_pos hr]
    simp only [hr, true_and, Bool.true_eq_false, false_or]
    cases ha : W.typeArguments p.type with
    | nil => simp [eq_comm]
    | cons x xs =>
      cases xs with
      | nil => simp [eq_comm]
      | cons y ys =>
        have hl : (x :: y :: ys).length > 1 := by simp
        rw [if_pos hl]
        have : min (index - (s.params.length - 1)) ((x :: y :: ys).length - 1) < (x :: y :: ys).length := by simp only [List.length_cons]; omega
        rw [List.getElem?_eq_getElem this]
        simp
  · rw [if_neg hr]
    have hr : p.rest = false := by simpa using hr
    constructor
    · rintro rfl; exact .inr (.inr ⟨.inl hr, rfl⟩)
    · rintro (⟨h, _⟩ | ⟨h, _⟩ | ⟨_, h⟩)
      · rw [hr] at h; cases h
      · rw [hr] at h; cases h
      · exact h.symm

omit [DecidableEq N] in
theorem inferred_iff (W : World N T) (c : N) (index : Nat) (path : List Nat) : W.inferred c index path = true ↔ TakesPart W c index path := by
  rw [World.inferred, TakesPart]
  cases hs : W.resolved c with
  | none => simp
  | some s =>
    simp only [Option.some.injEq]
    by_cases hg : s.generic = true
    · have hi : (if index ≥ s.params.length then s.params.length - 1 else index) = min index (s.params.length - 1) := by split <;> omega
      simp only [hg, Bool.not_true, Bool.false_eq_true, if_false]
      rw [hi]
      cases hp : s.params[min index (s.params.length - 1)]? with
      | none =>
        simp only [Bool.false_eq_true, false_iff]
        rintro ⟨s', t, r, rfl, _, ⟨p, h, _⟩, _⟩
        rw [hp] at h; cases h
      | some p =>
        simp only
        constructor
        · intro h
          exact ⟨s, _, _, rfl, hg, (argumentType_of W s index p hp _).1 rfl, (elementAt_iff W path _ _).1 rfl, h⟩
        · rintro ⟨s', t, r, rfl, _, h1, h2, h3⟩
          rw [(argumentType_of W s index p hp t).2 h1, (elementAt_iff W path t r).2 h2]
          exact h3
    · simp only [hg, Bool.not_false, if_true, Bool.false_eq_true, false_iff]
      rintro ⟨s', _, _, rfl, h, _⟩
      exact hg h

/-! ### Array literals -/

theorem isElement_iff (W : World N T) (child c : N) (es : List N) (hk : W.kind c = .arrayLiteral es) (i : Nat) :
    es.findIdx? (fun e => decide (e = child) || decide (W.skip e = W.skip child)) = some i ↔ IsElement W child c i := by
  rw [findIdx?_least]
  constructor
  · rintro ⟨e, h1, h2, h3⟩
    exact ⟨es, e, hk, h1, by simpa using h2, fun j x hj hx => by simpa using h3 j x hj hx⟩
  · rintro ⟨es', e, hk', h1, h2, h3⟩
    rw [hk] at hk'; cases hk'
    exact ⟨e, h1, by simpa using h2, fun j x hj hx => by simpa using h3 j x hj hx⟩

omit [DecidableEq N] in
theorem IsElement.unique {W : World N T} {child c : N} {i j : Nat} (h : IsElement W child c i) (k : IsElement W child c j) : i = j := by
  obtain ⟨es, e, hk, h1, h2, h3⟩ := h
  obtain ⟨es', e', hk', k1, k2, k3⟩ := k
  rw [hk] at hk'; cases hk'
  rcases Nat.lt_trichotomy i j with h | h | h
  · exact absurd h2 (k3 i e h h1)
  · exact h
  · exact absurd k2 (h3 j e' h k1)

/-- What is found out about an array literal. -/
theorem arrayArgument_cases (W : World N T) (array : N) (es : List N) (hk : W.kind array = .arrayLiteral es) (up : List N) (i : Nat) (path : List Nat) :
    (W.arrayArgument array up i (i :: path) = some true → ¬ InInstantiated W up ∧ ∃ c j spread, ArrayArgument W array up i c j spread ∧ TakesPart W c j (if spread then path else i :: path)) ∧
    (W.arrayArgument array up i (i :: path) = some false → InInstantiated W up ∨ ∀ c j spread, ArrayArgument W array up i c j spread → ¬ TakesPart W c j (if spread then path else i :: path)) ∧
    (W.arrayArgument array up i (i :: path) = some false → InInstantiated W up ∨ ∃ c j spread, ArrayArgument W array up i c j spread) ∧
    (W.arrayArgument array up i (i :: path) = none → ¬ InInstantiated W up ∧ ∀ c j spread, ¬ ArrayArgument W array up i c j spread) := by
  -- given the argument, the call and how to state the position
  have main : ∀ (arg p : N) (offset : Nat) (path' : List Nat) (spread : Bool), path' = (if spread then path else i :: path) →
      (∀ c j sp, ArrayArgument W array up i c j sp ↔ sp = spread ∧ c = p ∧ ∃ k, IsArgument W p arg k ∧ j = k + offset) → (InInstantiated W up ↔ Instantiated W p) →
      ∀ res, res = (match (W.kind p).callOrNew? with
        | none => none
        | some (_, args, typeArguments) => if typeArguments then some false else match W.argumentIndex args arg with
          | none => none
          | some j => some (W.inferred p (j + offset) path')) →
      (res = some true → ¬ InInstantiated W up ∧ ∃ c j spread, ArrayArgument W array up i c j spread ∧ TakesPart W c j (if spread then path else i :: path)) ∧
      (res = some false → InInstantiated W up ∨ ∀ c j spread, ArrayArgument W array up i c j spread → ¬ TakesPart W c j (if spread then path else i :: path)) ∧
      (res = some false → InInstantiated W up ∨ ∃ c j spread, ArrayArgument W array up i c j spread) ∧
      (res = none → ¬ InInstantiated W up ∧ ∀ c j spread, ¬ ArrayArgument W array up i c j spread) := by
    intro arg p offset path' spread hpath harg hinst res hres
    cases hc : (W.kind p).callOrNew? with
    | none =>
      rw [hc] at hres; simp only at hres; subst hres
      refine ⟨nofun, nofun, nofun, fun _ => ⟨?_, ?_⟩⟩
      · rw [hinst]
        rintro ⟨c, a, h⟩
        rw [(Kind.callOrNew?_iff _ _ _ _).2 h] at hc; cases hc
      · intro c j sp h
        obtain ⟨_, rfl, k, hk, _⟩ := (harg c j sp).1 h
        obtain ⟨_, _, _, h⟩ := hk.call
        rw [h] at hc; cases hc
    | some r =>
      obtain ⟨callee, args, t⟩ := r
      rw [hc] at hres; simp only at hres
      have hkp := (Kind.callOrNew?_iff _ _ _ _).1 hc
      cases t with
      | true =>
        simp only [if_true] at hres
        subst hres
        have : InInstantiated W up := hinst.2 ⟨_, _, hkp⟩
        exact ⟨nofun, fun _ => .inl this, fun _ => .inl this, nofun⟩
      | false =>
        simp only [Bool.false_eq_true, if_false] at hres
        have hni : ¬ InInstantiated W up := by
          rw [hinst]
          rintro ⟨c, a, h⟩
          rw [(Kind.callOrNew?_iff _ _ _ _).2 h] at hc; cases hc
        cases hi : W.argumentIndex args arg with
        | none =>
          rw [hi] at hres; simp only at hres; subst hres
          refine ⟨nofun, nofun, nofun, fun _ => ⟨hni, fun c j sp h => ?_⟩⟩
          obtain ⟨_, rfl, k, hk, _⟩ := (harg c j sp).1 h
          rw [(isArgument_iff W c arg k hc).2 hk] at hi; cases hi
        | some k =>
          rw [hi] at hres; simp only at hres
          have hk := (isArgument_iff W p arg k hc).1 hi
          have hwit : ArrayArgument W array up i p (k + offset) spread := (harg _ _ _).2 ⟨rfl, rfl, k, hk, rfl⟩
          refine ⟨fun h => ⟨hni, p, k + offset, spread, hwit, ?_⟩, fun h => .inr fun c j sp h' => ?_, fun _ => .inr ⟨p, _, _, hwit⟩, fun h => by rw [h] at hres; cases hres⟩
          · rw [h] at hres
            rw [← hpath, ← inferred_iff]
            simpa using hres.symm
          · obtain ⟨rfl, rfl, k', hk', rfl⟩ := (harg c j sp).1 h'
            have : k' = k := by
              have := (isArgument_iff W c arg k' hc).2 hk'
              rw [hi] at this; cases this; rfl
            subst this
            rw [← hpath, ← inferred_iff]
            rw [h] at hres
            simpa using hres.symm
  rw [World.arrayArgument]
  cases ho : W.outOfParens up with
  | nil =>
    rw [show W.callArgument array up i = (array, [], 0) by rw [World.callArgument, ho]]
    simp only
    have hno := outer_none W up ho
    refine ⟨nofun, nofun, nofun, fun _ => ⟨?_, ?_⟩⟩
    · rintro ⟨c, a, _, h | ⟨s, a', h, _⟩⟩
      · exact hno _ _ h
      · exact hno _ _ h
    · rintro c j sp (⟨_, a, h, _⟩ | ⟨_, s, a, a', k, h, _⟩)
      · exact hno _ _ h
      · exact hno _ _ h
  | cons p up' =>
    have hp := (outer_iff W _ _ _).1 ho
    by_cases hsp : W.kind p = .spreadElement
    · rw [show W.callArgument array up i = (p, W.outOfParens up', i) by rw [World.callArgument, ho]; simp only [hsp]]
      cases ho' : W.outOfParens up' with
      | nil =>
        simp only
        have hno := outer_none W up' ho'
        refine ⟨nofun, nofun, nofun, fun _ => ⟨?_, ?_⟩⟩
        · rintro ⟨c, a, hi, h | ⟨s, a', h, _, h'⟩⟩
          · obtain ⟨rfl, rfl⟩ := hp.unique h
            obtain ⟨_, _, h | h⟩ := hi <;> rw [hsp] at h <;> cases h
          · obtain ⟨rfl, rfl⟩ := hp.unique h
            exact hno _ _ h'
        · rintro c j sp (⟨_, a, h, hn, _⟩ | ⟨_, s, a, a', k, h, _, h', _⟩)
          · obtain ⟨rfl, rfl⟩ := hp.unique h
            exact hn hsp
          · obtain ⟨rfl, rfl⟩ := hp.unique h
            exact hno _ _ h'
      | cons q up'' =>
        have hq := (outer_iff W _ _ _).1 ho'
        have hpath : W.elementPath p (i :: path) = path := by rw [World.elementPath, hsp]; rfl
        simp only [hpath]
        refine main p q i path true rfl (fun c j sp => ?_) ?_ _ rfl
        · constructor
          · rintro (⟨_, a, h, hn, _⟩ | ⟨rfl, s, a, a', k, h, _, h', hk, rfl⟩)
            · obtain ⟨rfl, rfl⟩ := hp.unique h
              exact absurd hsp hn
            · obtain ⟨rfl, rfl⟩ := hp.unique h
              obtain ⟨rfl, rfl⟩ := hq.unique h'
              exact ⟨rfl, rfl, k, hk, rfl⟩
          · rintro ⟨rfl, rfl, k, hk, rfl⟩
            exact .inr ⟨rfl, p, up', up'', k, hp, hsp, hq, hk, rfl⟩
        · constructor
          · rintro ⟨c, a, hi, h | ⟨s, a', h, _, h'⟩⟩
            · obtain ⟨rfl, rfl⟩ := hp.unique h
              obtain ⟨_, _, h | h⟩ := hi <;> rw [hsp] at h <;> cases h
            · obtain ⟨rfl, rfl⟩ := hp.unique h
              obtain ⟨rfl, rfl⟩ := hq.unique h'
              exact hi
          · intro hi; exact ⟨q, up'', hi, .inr ⟨p, up', hp, hsp, hq⟩⟩
    · have hm : W.callArgument array up i = (array, p :: up', 0) := by
        rw [World.callArgument, ho]
        cases hkp : W.kind p <;> first | (simp only [hkp]; done) | exact absurd hkp hsp
      have hpath : W.elementPath array (i :: path) = i :: path := by rw [World.elementPath, hk]
      rw [hm]
      simp only [hpath]
      refine main array p 0 (i :: path) false rfl (fun c j sp => ?_) ?_ _ rfl
      · constructor
        · rintro (⟨rfl, a, h, hn, hj⟩ | ⟨rfl, s, a, a', k, h, hs, _⟩)
          · obtain ⟨rfl, rfl⟩ := hp.unique h
            exact ⟨rfl, rfl, j, hj, rfl⟩
          · obtain ⟨rfl, rfl⟩ := hp.unique h
            exact absurd hs hsp
        · rintro ⟨rfl, rfl, k, hk, rfl⟩
          exact .inl ⟨rfl, up', hp, hsp, hk⟩
      · constructor
        · rintro ⟨c, a, hi, h | ⟨s, a', h, hs, _⟩⟩
          · obtain ⟨rfl, rfl⟩ := hp.unique h
            exact hi
          · obtain ⟨rfl, rfl⟩ := hp.unique h
            exact absurd hs hsp
        · intro hi; exact ⟨p, up', hi, .inl hp⟩

theorem nestedInArray_iff (W : World N T) : ∀ up child path, W.nestedInArray child up path = true ↔ NestedInArray W child up path
  | [], child, path => by
    rw [World.nestedInArray]
    exact ⟨nofun, nofun⟩
  | c :: up, child, path => by
    have skip : ¬ IsFunction W c → (∀ i, ¬ IsElement W child c i) → (W.nestedInArray c up path = true ↔ NestedInArray W child (c :: up) path) := by
      intro hf he
      rw [nestedInArray_iff W up c path]
      constructor
      · intro h; exact .other hf he h
      · intro h
        cases h with
        | here h => exact absurd h (he _)
        | element h => exact absurd h (he _)
        | other _ _ h => exact h
    have fn : IsFunction W c → ¬ NestedInArray W child (c :: up) path := by
      intro hf h
      have hna : ∀ es, W.kind c ≠ .arrayLiteral es := by
        intro es h; rw [IsFunction, h] at hf; simp at hf
      cases h with
      | here h => obtain ⟨es, _, h, _⟩ := h; exact hna _ h
      | element h => obtain ⟨es, _, h, _⟩ := h; exact hna _ h
      | other h => exact h hf
    rw [World.nestedInArray.eq_def]
    cases hk : W.kind c with
    | functionExpression b a =>
      simp only [hk, Bool.false_eq_true, false_iff]
      exact fn (.inl ⟨_, _, hk⟩)
    | arrow body b a =>
      simp only [hk, Bool.false_eq_true, false_iff]
      exact fn (.inr ⟨_, _, _, hk⟩)
    | arrayLiteral es =>
      simp only [hk]
      cases hi : es.findIdx? (fun e => decide (e = child) || decide (W.skip e = W.skip child)) with
      | none =>
        simp only
        refine skip (by rw [IsFunction, hk]; simp) fun i h => ?_
        rw [(isElement_iff W child c es hk i).2 h] at hi; cases hi
      | some i =>
        simp only
        have hel := (isElement_iff W child c es hk i).1 hi
        obtain ⟨c1, c2, c2', c3⟩ := arrayArgument_cases W c es hk up i path
        cases ha : W.arrayArgument c up i (i :: path) with
        | none =>
          simp only
          obtain ⟨hn, hno⟩ := c3 ha
          rw [nestedInArray_iff W up c (i :: path)]
          constructor
          · intro h; exact .element hel hno hn h
          · intro h
            cases h with
            | here h h' => rw [hel.unique h] at hno; exact absurd h' (hno _ _ _)
            | element h _ _ h' => rw [hel.unique h]; exact h'
            | other _ h => exact absurd hel (h i)
        | some b =>
          simp only
          cases b with
          | true =>
            obtain ⟨hn, call, j, sp, h1, h2⟩ := c1 ha
            exact ⟨fun _ => .here hel h1 hn h2, fun _ => rfl⟩
          | false =>
            simp only [Bool.false_eq_true, false_iff]
            intro h
            cases h with
            | here h h1 hn h2 =>
              have := hel.unique h; subst this
              exact (c2 ha).elim hn fun hno => hno _ _ _ h1 h2
            | element h h1 hn _ =>
              have := hel.unique h; subst this
              exact (c2' ha).elim hn fun ⟨_, _, _, h⟩ => h1 _ _ _ h
            | other _ h => exact h i hel
    | _ =>
      simp only [hk]
      exact skip (by rw [IsFunction, hk]; simp) fun i ⟨es, _, h, _⟩ => by rw [hk] at h; cases h

/-! ### The other places -/

theorem propertyOf_iff (W : World N T) (node o : N) (up : List N) : W.propertyOf node = some (o, up) ↔ PropertyOf W node o up := by
  rw [World.propertyOf, PropertyOf]
  cases ha : W.ancestors node with
  | nil => simp
  | cons p rest =>
    cases rest with
    | nil => simp
    | cons q rest =>
      simp only [List.cons.injEq]
      constructor
      · intro h
        cases hk : W.kind p with
        | propertyAssignment i =>
          rw [hk] at h
          simp only at h
          split at h
          · rename_i hi
            cases hq : W.kind q with
            | objectLiteral n =>
              rw [hq] at h; simp only [Option.some.injEq, Prod.mk.injEq] at h
              obtain ⟨rfl, rfl⟩ := h
              exact ⟨p, ⟨rfl, rfl, rfl⟩, by rw [hk, hi], n, hq⟩
            | _ => rw [hq] at h; simp at h
          · simp at h
        | _ => rw [hk] at h; simp at h
      · rintro ⟨p', ⟨rfl, rfl, rfl⟩, hk, n, hn⟩
        rw [hk]; simp only [if_true]; rw [hn]

theorem asserted_iff (W : World N T) (up : List N) : W.asserted up = true ↔ ObjectAsserted W up := by
  rw [ObjectAsserted]
  cases up with
  | nil => simp [World.asserted]
  | cons q rest =>
    rw [World.asserted]
    simp only [List.cons.injEq]
    have : (∃ q' above, (q = q' ∧ rest = above) ∧ ((∃ e, W.kind q' = .asExpression e) ∨ (∃ e, W.kind q' = .angleBracket e) ∨ W.kind q' = .satisfies ∨
        ((∃ c a t, W.kind q' = .call c a t) ∧ ∃ r, above.head? = some r ∧ W.kind r = .satisfies))) ↔
        ((∃ e, W.kind q = .asExpression e) ∨ (∃ e, W.kind q = .angleBracket e) ∨ W.kind q = .satisfies ∨
        ((∃ c a t, W.kind q = .call c a t) ∧ ∃ r, rest.head? = some r ∧ W.kind r = .satisfies)) := by
      constructor
      · rintro ⟨_, _, ⟨rfl, rfl⟩, h⟩; exact h
      · intro h; exact ⟨_, _, ⟨rfl, rfl⟩, h⟩
    rw [this]
    cases hk : W.kind q with
    | call c a t =>
      simp only [reduceCtorEq, exists_false, false_or, Kind.call.injEq]
      cases hr : rest.head? with
      | none => simp
      | some r =>
        simp only [Option.map_some, Option.some.injEq]
        cases hkr : W.kind r <;> simp [hkr]
    | _ => simp

theorem problematic_iff (W : World N T) (node operand : N) : W.problematic node operand = true ↔ Problematic W node operand := by
  rw [World.problematic, Problematic]
  cases hp : W.propertyOf node with
  | none =>
    simp only [Bool.false_eq_true, false_iff]
    rintro ⟨o, a, h, _⟩
    rw [(propertyOf_iff W node o a).2 h] at hp; cases hp
  | some r =>
    obtain ⟨o, up⟩ := r
    have ho := (propertyOf_iff W node o up).1 hp
    have hu : ∀ o' up', PropertyOf W node o' up' → o' = o ∧ up' = up := by
      intro o' up' h
      rw [(propertyOf_iff W node o' up').2 h] at hp; cases hp; exact ⟨rfl, rfl⟩
    have key : Problematic W node operand ↔
        ((∃ ctx, W.contextual o = some ctx ∧ W.union ctx = true ∧
          ∀ d, W.contextual node = some d → W.union (W.nonNullable d) = true ∨ W.assignable (W.typeAt operand) (W.nonNullable d) = false) ∨
        ((∀ ctx, W.contextual o = some ctx → W.union ctx = false) ∧ ObjectAsserted W up)) := by
      constructor
      · rintro ⟨o', up', h, h'⟩; obtain ⟨rfl, rfl⟩ := hu _ _ h; exact h'
      · intro h; exact ⟨o, up, ho, h⟩
    rw [← Problematic, key]
    simp only
    cases hc : W.contextual o with
    | none => simp [asserted_iff]
    | some c =>
      simp only [Option.some.injEq, exists_eq_left', forall_eq']
      by_cases hun : W.union c = true
      · rw [if_pos hun]
        simp only [hun, true_and, Bool.true_eq_false, false_and, or_false]
        cases hd : W.contextual node with
        | none => simp
        | some d =>
          simp only [Option.some.injEq, forall_eq']
          cases h1 : W.union (W.nonNullable d) <;> simp
      · rw [if_neg hun]
        have hun : W.union c = false := by simpa using hun
        simp [hun, asserted_iff]

theorem callbackResult_iff (W : World N T) (node : N) : W.callbackResult node = true ↔ CallbackResult W node := by
  rw [World.callbackResult, CallbackResult]
  cases hp : W.propertyOf node with
  | none =>
    simp only [Bool.false_eq_true, false_iff]
    rintro ⟨o, a, _, _, _, _, _, h, _⟩
    rw [(propertyOf_iff W node o a).2 h] at hp; cases hp
  | some r =>
    obtain ⟨o, up⟩ := r
    have ho := (propertyOf_iff W node o up).1 hp
    have hu : ∀ o' up', PropertyOf W node o' up' → o' = o ∧ up' = up := by
      intro o' up' h
      rw [(propertyOf_iff W node o' up').2 h] at hp; cases hp; exact ⟨rfl, rfl⟩
    simp only
    cases hup : W.outOfParens up with
    | nil =>
      simp only [List.head?_nil, Option.map_none, Bool.false_eq_true, false_iff]
      rintro ⟨o', up', f, a', _, _, _, h, h', _⟩
      obtain ⟨rfl, rfl⟩ := hu _ _ h
      exact outer_none W _ hup _ _ h'
    | cons f a =>
      have hf := (outer_iff W _ _ _).1 hup
      simp only [List.head?_cons, Option.map_some]
      constructor
      · intro h
        cases hk : W.kind f with
        | arrow body b ann =>
          rw [hk] at h
          simp only [Bool.and_eq_true, decide_eq_true_eq, genericContext_iff] at h
          exact ⟨o, up, f, a, body, b, ann, ho, hf, hk, h.1, h.2⟩
        | _ => rw [hk] at h; simp at h
      · rintro ⟨o', up', f', a', body, b, ann, h, h', hk, h1, h2⟩
        obtain ⟨rfl, rfl⟩ := hu _ _ h
        obtain ⟨rfl, rfl⟩ := hf.unique h'
        rw [hk]
        simp [h1, genericContext_iff, h2]

theorem assignedInExpression_iff (W : World N T) (node : N) : W.assignedInExpression node = true ↔ AssignedInExpression W node := by
  rw [World.assignedInExpression, AssignedInExpression]
  cases ha : W.ancestors node with
  | nil => simp
  | cons p up =>
    simp only [List.cons.injEq]
    have hs : (match up.head?.map W.kind with | some .expressionStatement => false | _ => true) = true ↔ ∀ s, up.head? = some s → W.kind s ≠ .expressionStatement := by
      cases hh : up.head? with
      | none => simp
      | some s => simp only [Option.map_some, Option.some.injEq, forall_eq']; cases hk : W.kind s <;> simp
    constructor
    · intro h
      cases hk : W.kind p with
      | binary op l r =>
        rw [hk] at h
        simp only [Bool.and_eq_true, decide_eq_true_eq] at h
        obtain ⟨⟨h1, rfl⟩, h2⟩ := h
        exact ⟨p, up, op, l, ⟨rfl, rfl⟩, hk, by simpa using h1, hs.1 h2⟩
      | _ => rw [hk] at h; simp at h
    · rintro ⟨p', up', op, l, ⟨rfl, rfl⟩, hk, h1, h2⟩
      rw [hk]
      simp only [Bool.and_eq_true]
      exact ⟨⟨by simpa using h1, by simp⟩, hs.2 h2⟩

omit [DecidableEq N] in
theorem parent_iff (W : World N T) (node p : N) : W.parent node = some p ↔ ∃ above, W.ancestors node = p :: above := by
  rw [World.parent]
  cases W.ancestors node with
  | nil => simp
  | cons q up => simp

theorem logicallyAssigned_iff (W : World N T) (node : N) : W.logicallyAssigned node = true ↔ LogicallyAssigned W node := by
  rw [World.logicallyAssigned, LogicallyAssigned]
  cases hp : W.parent node with
  | none =>
    simp only [Option.map_none, Bool.false_eq_true, false_iff]
    rintro ⟨p, above, l, h, _⟩
    rw [(parent_iff W node p).2 ⟨above, h⟩] at hp; cases hp
  | some p =>
    obtain ⟨above, ha⟩ := (parent_iff W node p).1 hp
    simp only [Option.map_some]
    constructor
    · intro h
      cases hk : W.kind p with
      | binary op l r =>
        rw [hk] at h
        simp only [Bool.and_eq_true, decide_eq_true_eq] at h
        obtain ⟨rfl, rfl⟩ := h
        exact ⟨p, above, l, ha, hk⟩
      | _ => rw [hk] at h; simp at h
    · rintro ⟨p', above', l, h, hk⟩
      rw [ha] at h; cases h
      rw [hk]; simp

theorem destructuring_iff (W : World N T) (node : N) : W.destructuring node = true ↔ Destructured W node := by
  rw [World.destructuring, Destructured]
  cases hp : W.parent node with
  | none =>
    simp only [Option.map_none, Bool.false_eq_true, false_iff]
    rintro ⟨p, above, h, _⟩
    rw [(parent_iff W node p).2 ⟨above, h⟩] at hp; cases hp
  | some p =>
    obtain ⟨above, ha⟩ := (parent_iff W node p).1 hp
    simp only [Option.map_some]
    constructor
    · intro h
      cases hk : W.kind p with
      | variableDeclaration i pat =>
        rw [hk] at h
        simp only [Bool.and_eq_true, decide_eq_true_eq] at h
        obtain ⟨rfl, rfl⟩ := h
        exact ⟨p, above, ha, hk⟩
      | _ => rw [hk] at h; simp at h
    · rintro ⟨p', above', h, hk⟩
      rw [ha] at h; cases h
      rw [hk]; simp

omit [DecidableEq N] in
theorem reasserted_iff (W : World N T) (node : N) : W.reasserted node = true ↔ Reasserted W node := by
  rw [World.reasserted, Reasserted, ← parentThroughParens_any]
  cases hp : W.parentThroughParens node with
  | none => simp
  | some p =>
    simp only [Option.map_some, Option.some.injEq, exists_eq_left']
    cases hk : W.kind p <;> simp

omit [DecidableEq N] in
theorem propertyValue_iff (W : World N T) (node : N) : W.propertyValue node = true ↔ ∃ outer above v, Outer W (W.ancestors node) outer above ∧ W.kind outer = .propertyAssignment v := by
  rw [World.propertyValue]
  have : (∃ outer above v, Outer W (W.ancestors node) outer above ∧ W.kind outer = .propertyAssignment v) ↔
      ∃ outer above, Outer W (W.ancestors node) outer above ∧ ∃ v, W.kind outer = .propertyAssignment v := by
    constructor
    · rintro ⟨o, a, v, h, k⟩; exact ⟨o, a, h, v, k⟩
    · rintro ⟨o, a, h, v, k⟩; exact ⟨o, a, v, h, k⟩
  rw [this, ← parentThroughParens_any]
  cases hp : W.parentThroughParens node with
  | none => simp
  | some p =>
    simp only [Option.map_some, Option.some.injEq, exists_eq_left']
    cases hk : W.kind p <;> simp

/-! ### Overloads -/

omit [DecidableEq N] in
theorem parameterAt_unique {W : World N T} {s : Signature T} {i : Nat} {x y : T} (h : ParameterAt W s i x) (k : ParameterAt W s i y) : x = y := by
  obtain ⟨p, hp, h⟩ := h
  obtain ⟨q, hq, k⟩ := k
  rw [hp] at hq; cases hq
  rcases h with ⟨hr, h⟩ | ⟨hr, rfl⟩ <;> rcases k with ⟨kr, k⟩ | ⟨kr, rfl⟩
  · rw [h] at k; cases k; rfl
  · rcases kr with kr | kr
    · rw [hr] at kr; cases kr
    · rw [kr] at h; simp at h
  · rcases hr with hr | hr
    · rw [kr] at hr; cases hr
    · rw [hr] at k; simp at k
  · rfl

omit [DecidableEq N] in
theorem parametersAt_spec (W : World N T) (i : Nat) : ∀ ss : List (Signature T),
    (W.parametersAt i ss = none ↔ ∃ s ∈ ss, s.params.length ≤ i) ∧
    ∀ ts, W.parametersAt i ss = some ts → ts.length = ss.length ∧ (∀ t, t ∈ ts ↔ ∃ s ∈ ss, ParameterAt W s i t)
  | [] => by simp [World.parametersAt]
  | s :: ss => by
    obtain ⟨ih1, ih2⟩ := parametersAt_spec W i ss
    rw [World.parametersAt]
    cases hp : s.params[i]? with
    | none =>
      have : s.params.length ≤ i := List.getElem?_eq_none_iff.1 hp
      exact ⟨⟨fun _ => ⟨s, List.mem_cons_self .., this⟩, fun _ => rfl⟩, nofun⟩
    | some p =>
      have hl : i < s.params.length := (List.getElem?_eq_some_iff.1 hp).1
      have hpa : ∀ t, ParameterAt W s i t ↔ t = (if p.rest then (W.typeArguments p.type).head?.getD p.type else p.type) := by
        have h0 : ParameterAt W s i (if p.rest then (W.typeArguments p.type).head?.getD p.type else p.type) := by
          refine ⟨p, hp, ?_⟩
          cases hr : p.rest with
          | false => simp
          | true =>
            cases ha : W.typeArguments p.type with
            | nil => simp
            | cons x xs => simp
        exact fun t => ⟨fun h => parameterAt_unique h h0, fun h => h ▸ h0⟩
      simp only [Option.map_eq_none_iff, Option.map_eq_some_iff]
      constructor
      · rw [ih1]
        constructor
        · rintro ⟨x, hx, h⟩; exact ⟨x, List.mem_cons_of_mem _ hx, h⟩
        · rintro ⟨x, hx, h⟩
          rcases List.mem_cons.1 hx with rfl | hx
          · omega
          · exact ⟨x, hx, h⟩
      · rintro ts ⟨ts', h, rfl⟩
        obtain ⟨h1, h2⟩ := ih2 ts' h
        refine ⟨by simp [h1], fun t => ?_⟩
        rw [List.mem_cons, h2, ← hpa]
        constructor
        · rintro (h | ⟨x, hx, h⟩)
          · exact ⟨s, List.mem_cons_self .., h⟩
          · exact ⟨x, List.mem_cons_of_mem _ hx, h⟩
        · rintro ⟨x, hx, h⟩
          rcases List.mem_cons.1 hx with rfl | hx
          · exact .inl h
          · exact .inr ⟨x, hx, h⟩

variable [DecidableEq T]

theorem overloaded_iff (W : World N T) (node operand : N) : W.overloaded node operand = true ↔ Overloaded W node operand := by
  rw [World.overloaded, Overloaded]
  cases ha : W.argument node with
  | none =>
    simp only [Bool.false_eq_true, false_iff]
    rintro ⟨o, above, i, callee, args, t, h1, h2, h3, _⟩
    rw [(argument_iff W node callee i).2 ⟨o, above, args, t, h1, h2, h3⟩] at ha; cases ha
  | some r =>
    obtain ⟨callee, i⟩ := r
    obtain ⟨o, above, args, t, h1, h2, h3⟩ := (argument_iff W node callee i).1 ha
    have key : Overloaded W node operand ↔ 2 ≤ (W.callSignatures (W.typeAt callee)).length ∧
      ((∃ s ∈ W.callSignatures (W.typeAt callee), s.params.length ≤ i) ∨
       ((∃ s ∈ W.callSignatures (W.typeAt callee), ∃ s' ∈ W.callSignatures (W.typeAt callee), ∃ x y, ParameterAt W s i x ∧ ParameterAt W s' i y ∧ x ≠ y) ∧
        ∃ s ∈ W.callSignatures (W.typeAt callee), ∃ x, ParameterAt W s i x ∧ W.assignable (W.typeAt operand) x = false)) := by
      constructor
      · rintro ⟨o', above', i', callee', args', t', k1, k2, k3, k4⟩
        have := (argument_iff W node callee' i').2 ⟨o', above', args', t', k1, k2, k3⟩
        rw [ha] at this; cases this
        exact k4
      · intro h; exact ⟨o, above, i, callee, args, t, h1, h2, h3, h⟩
    rw [← Overloaded, key]
    simp only
    by_cases hl : (W.callSignatures (W.typeAt callee)).length ≤ 1
    · rw [if_pos hl]
      simp only [Bool.false_eq_true, false_iff]
      rintro ⟨h, _⟩; omega
    · rw [if_neg hl]
      have hl : 2 ≤ (W.callSignatures (W.typeAt callee)).length := by omega
      obtain ⟨p1, p2⟩ := parametersAt_spec W i (W.callSignatures (W.typeAt callee))
      cases hpa : W.parametersAt i (W.callSignatures (W.typeAt callee)) with
      | none =>
        simp only [true_iff]
        exact ⟨hl, .inl (p1.1 hpa)⟩
      | some ts =>
        obtain ⟨q1, q2⟩ := p2 ts hpa
        have hno : ¬ ∃ s ∈ W.callSignatures (W.typeAt callee), s.params.length ≤ i := by
          intro h; rw [p1.2 h] at hpa; cases hpa
        simp only [hl, true_and, hno, false_or]
        have hdiff : (ts.any fun t => some t ≠ ts.head?) = true ↔
            ∃ s ∈ W.callSignatures (W.typeAt callee), ∃ s' ∈ W.callSignatures (W.typeAt callee), ∃ x y, ParameterAt W s i x ∧ ParameterAt W s' i y ∧ x ≠ y := by
          rw [List.any_eq_true]
          constructor
          · rintro ⟨x, hx, hne⟩
            cases ts with
            | nil => simp at hx
            | cons y ys =>
              obtain ⟨s, hs, hsx⟩ := (q2 x).1 hx
              obtain ⟨s', hs', hsy⟩ := (q2 y).1 (List.mem_cons_self ..)
              exact ⟨s, hs, s', hs', x, y, hsx, hsy, by simpa using hne⟩
          · rintro ⟨s, hs, s', hs', x, y, hx, hy, hne⟩
            have mx := (q2 x).2 ⟨s, hs, hx⟩
            have my := (q2 y).2 ⟨s', hs', hy⟩
            by_cases hxh : some x = ts.head?
            · exact ⟨y, my, by simp [← hxh, Ne.symm hne]⟩
            · exact ⟨x, mx, by simpa using hxh⟩
        have hass : (ts.any fun t => !W.assignable (W.typeAt operand) t) = true ↔
            ∃ s ∈ W.callSignatures (W.typeAt callee), ∃ x, ParameterAt W s i x ∧ W.assignable (W.typeAt operand) x = false := by
          rw [List.any_eq_true]
          constructor
          · rintro ⟨x, hx, h⟩
            obtain ⟨s, hs, hsx⟩ := (q2 x).1 hx
            exact ⟨s, hs, x, hsx, by simpa using h⟩
          · rintro ⟨s, hs, x, hsx, h⟩
            exact ⟨x, (q2 x).2 ⟨s, hs, hsx⟩, by simpa using h⟩
        by_cases hd : (ts.any fun t => some t ≠ ts.head?) = true
        · rw [if_pos hd, hass]
          exact ⟨fun h => ⟨hdiff.1 hd, h⟩, fun h => h.2⟩
        · rw [if_neg hd]
          simp only [Bool.false_eq_true, false_iff]
          exact fun h => hd (hdiff.2 h.1)

theorem skipContext_iff (W : World N T) (node operand original : N) (castIsAny : Bool) :
    W.skipContext node operand original castIsAny = true ↔ NoContext W node operand original (castIsAny = true) := by
  rw [World.skipContext, NoContext]
  cases castIsAny with
  | true =>
    simp only [if_true, true_and, not_true, false_and, or_false]
    rw [Bool.or_eq_true, Bool.or_eq_true, genericContext_iff, problematic_iff, ← parentThroughParens_any W node fun p => W.logicalExpression p = true, or_assoc]
    cases W.parentThroughParens node with
    | none => simp
    | some p => simp
  | false =>
    simp only [Bool.false_eq_true, if_false, false_and, not_false_eq_true, true_and, false_or]
    have harr : (W.kind operand).isArray = true ↔ ∃ es, W.kind operand = .arrayLiteral es := by
      cases W.kind operand <;> simp [Kind.isArray]
    have hlit := (Kind.conceptuallyLiteral_iff (W.kind original))
    split
    · rename_i h
      simp only [Bool.or_eq_true, harr, reasserted_iff, nestedInArray_iff, destructuring_iff, problematic_iff, callbackResult_iff, assignedInExpression_iff,
        logicallyAssigned_iff, overloaded_iff, or_assoc] at h
      simp only [true_iff]
      rcases h with h | h | h | h | h | h | h | h | h
      · exact .inl h
      · exact .inr (.inl h)
      · exact .inr (.inr (.inl h))
      · exact .inr (.inr (.inr (.inl h)))
      · exact .inr (.inr (.inr (.inr (.inl h))))
      · exact .inr (.inr (.inr (.inr (.inr (.inl h)))))
      · exact .inr (.inr (.inr (.inr (.inr (.inr (.inl h))))))
      · exact .inr (.inr (.inr (.inr (.inr (.inr (.inr (.inl h)))))))
      · exact .inr (.inr (.inr (.inr (.inr (.inr (.inr (.inr (.inl h))))))))
    · rename_i h
      simp only [Bool.or_eq_true, harr, reasserted_iff, nestedInArray_iff, destructuring_iff, problematic_iff, callbackResult_iff, assignedInExpression_iff,
        logicallyAssigned_iff, overloaded_iff, not_or] at h
      obtain ⟨⟨⟨⟨⟨⟨⟨⟨h1, h2⟩, h3⟩, h4⟩, h5⟩, h6⟩, h7⟩, h8⟩, h9⟩ := h
      have hg := genericContext_iff W node
      have hpv := propertyValue_iff W node
      simp only [h1, h2, h3, h4, h5, h6, h7, h8, h9, false_or]
      split
      · rename_i hgc
        have hgc' := hg.1 hgc
        rw [Bool.and_eq_true, Bool.not_eq_true', Bool.not_eq_true', ← Bool.not_eq_true, ← Bool.not_eq_true, hlit, hpv]
        exact ⟨fun h => ⟨hgc', h.1, h.2⟩, fun h => ⟨h.2.1, h.2.2⟩⟩
      · rename_i hgc
        simp only [Bool.false_eq_true, false_iff]
        exact fun h => hgc (hg.2 h.1)

end Tsgolint.UnnecessaryAssertion
