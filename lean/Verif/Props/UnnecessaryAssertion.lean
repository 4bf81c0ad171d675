import Verif.Proof.AssertionContext
import Verif.Proof.AssertionTypes
/-!
# C98: no-unnecessary-type-assertion reports exactly the assertions that change nothing
-/
namespace Tsgolint.UnnecessaryAssertion
variable {N T : Type} [DecidableEq N] [DecidableEq T]

omit [DecidableEq N] [DecidableEq T] in
theorem narrowed_iff (W : World N T) (a : Assertion N) : W.narrowed a = true ↔
    W.kind a.operand ≠ .template ∧ ∃ p above, W.ancestors a.node = p :: above ∧
      ((∃ i b l, W.kind p = .variableDeclaration i b ∧ above.head? = some l ∧ W.kind l = .variableDeclarationList true) ∨ W.kind p = .propertyDeclaration true) := by
  rw [World.narrowed]
  have ht : (W.kind a.operand).isTemplate = true ↔ W.kind a.operand = .template := by cases W.kind a.operand <;> simp [Kind.isTemplate]
  split
  · rename_i h
    simp [ht.1 h]
  · rename_i h
    have h : W.kind a.operand ≠ .template := fun h' => h (ht.2 h')
    simp only [h, ne_eq, not_false_eq_true, true_and]
    have hc : ∀ k : Kind N, k.isConst = true ↔ k = .variableDeclarationList true := by intro k; cases k <;> simp [Kind.isConst]
    cases ha : W.ancestors a.node with
    | nil => simp
    | cons p up =>
      simp only [List.cons.injEq]
      have hp : (W.kind p).declaresConstant (up.head?.any fun l => (W.kind l).isConst) = true ↔
          ((∃ i b, W.kind p = .variableDeclaration i b) ∧ ∃ l, up.head? = some l ∧ W.kind l = .variableDeclarationList true) ∨ W.kind p = .propertyDeclaration true := by
        cases W.kind p <;> simp [Kind.declaresConstant, Option.any_eq_true, hc]
      rw [hp]
      constructor
      · rintro (⟨⟨i, b, h1⟩, l, h2, h3⟩ | h)
        · exact ⟨_, _, ⟨rfl, rfl⟩, .inl ⟨i, b, l, h1, h2, h3⟩⟩
        · exact ⟨_, _, ⟨rfl, rfl⟩, .inr h⟩
      · rintro ⟨_, _, ⟨rfl, rfl⟩, ⟨i, b, l, h1, h2, h3⟩ | h⟩
        · exact .inl ⟨⟨i, b, h1⟩, l, h2, h3⟩
        · exact .inr h

omit [DecidableEq N] [DecidableEq T] in
theorem inferredLiteral_iff (W : World N T) (a : Assertion N) : W.sameInferred a = true ↔ Inferred W a := by
  rw [Inferred, World.sameInferred]
  split
  · exact narrowed_iff W a
  · simp

omit [DecidableEq T] in
omit [DecidableEq N] in
theorem genericsMismatch_iff (E : Types T) (u ctx : T) : E.genericsMismatch u ctx = false ↔ GenericsMatch E u ctx := by
  rw [Types.genericsMismatch, GenericsMatch, List.any_eq_false]
  constructor
  · intro h p hp hg
    have := h p hp
    rw [hg] at this
    cases hq : E.property u p.name with
    | none => rw [hq] at this; simp at this
    | some q => rw [hq] at this; exact ⟨q, rfl, by simpa using this⟩
  · intro h p hp
    cases hg : p.generic with
    | false => simp
    | true =>
      obtain ⟨q, hq, hqg⟩ := h p hp hg
      rw [hq]; simp [hqg]

omit [DecidableEq N] [DecidableEq T] in
theorem phantom_iff (E : Types T) (t : T) : E.phantom t = true ↔ Phantom E t := by
  rw [Types.phantom, Phantom, Bool.and_eq_true, emptyObject_iff]
  cases E.typeArguments t <;> simp

omit [DecidableEq T] in
omit [DecidableEq N] in
theorem nullishToUnion_iff (W : World N T) (operand : N) (c : T) : W.nullishToUnion operand c = true ↔
    (W.union c = true ∧ (W.kind (W.skip operand) = .null ∨ W.kind (W.skip operand) = .identifier "undefined")) := by
  rw [World.nullishToUnion, Bool.and_eq_true]
  cases W.kind (W.skip operand) <;> simp

theorem accepts_iff (W : World N T) (a : Assertion N) (u c ctx : T) (b : Bool) : W.accepts a u c ctx b = true ↔ Accepts W a u c ctx (b = true) := by
  rw [World.accepts, Accepts]
  simp only [Bool.and_eq_true, Bool.or_eq_true, Bool.not_eq_true', ← Bool.not_eq_true, nullishToUnion_iff]
  have hp : (¬ W.phantomMismatch a.node u ctx = true) ↔ (GenericContext W a.node → Phantom W.toTypes u ∨ Phantom W.toTypes ctx → W.typeArguments u = W.typeArguments ctx) := by
    rw [World.phantomMismatch]
    simp only [Bool.and_eq_true, Bool.or_eq_true, Bool.not_eq_true', ← Bool.not_eq_true, genericContext_iff, phantom_iff, haveSameTypeArguments_iff]
    constructor
    · intro h h1 h2; exact Classical.byContradiction fun h3 => h ⟨⟨h1, h2⟩, h3⟩
    · rintro h ⟨⟨h1, h2⟩, h3⟩; exact h3 (h h1 h2)
  have hg : (¬ W.genericsMismatch u ctx = true) ↔ GenericsMatch W.toTypes u ctx := by
    rw [Bool.not_eq_true]; exact genericsMismatch_iff W.toTypes u ctx
  rw [hp, hg, argument_isSome]
  constructor
  · rintro ⟨⟨⟨⟨⟨⟨h1, h2⟩, h3⟩, h4⟩, h5⟩, h6⟩, h7⟩
    refine ⟨h1, h2, ?_, h4, h5, h7⟩
    rcases h3 with ⟨h, h'⟩ | ⟨⟨h, h'⟩, h''⟩
    · exact .inl ⟨h, h', h6.resolve_left h⟩
    · exact .inr ⟨h, h'', h'⟩
  · rintro ⟨h1, h2, h3, h4, h5, h7⟩
    refine ⟨⟨⟨⟨⟨⟨h1, h2⟩, ?_⟩, h4⟩, h5⟩, ?_⟩, h7⟩
    · rcases h3 with ⟨h, h', _⟩ | ⟨h, h', h''⟩
      · exact .inl ⟨h, h'⟩
      · exact .inr ⟨⟨h, h''⟩, h'⟩
    · rcases h3 with ⟨_, _, h⟩ | ⟨h, _, _⟩
      · exact .inr h
      · exact .inl h

/-- What is reported of several assertions in a row -/
theorem double_spec (W : World N T) (hW : Proper W.toTypes) (fuel : Nat) (a : Assertion N) (original : N) (contextual : Option T)
    (hctx : ∀ ctx, contextual = some ctx ↔ Receiver W a original (W.typeAt a.node) ctx) (r : Outcome N T) (h : W.double fuel a original contextual = some r) :
    (DoubleUnnecessary W a original (W.typeAt a.node) ∧ r = .double true original) ∨
     (¬ DoubleUnnecessary W a original (W.typeAt a.node) ∧
      ((DoubleContextual W a original (W.typeAt a.node) ∧ r = .double false original) ∨
       (¬ DoubleContextual W a original (W.typeAt a.node) ∧ r = .nothing))) := by
  rw [World.double] at h
  cases hi : (W.kind (W.skip a.operand)).assertion? with
  | none =>
    rw [hi] at h
    simp only [Option.some.injEq] at h
    have hn : ¬ IsDouble W a := by
      rintro ⟨e, he⟩
      rw [(Kind.assertion?_iff _ e).2 he] at hi; cases hi
    exact .inr ⟨fun h => hn h.1, .inr ⟨fun h => hn h.1, h.symm⟩⟩
  | some e =>
    have hd : IsDouble W a := ⟨e, (Kind.assertion?_iff _ e).1 hi⟩
    rw [hi] at h
    simp only [Option.map_eq_some_iff] at h
    obtain ⟨⟨related, seen⟩, hc, h⟩ := h
    simp only at h
    have hrel := constrained_iff W _ _ _ _ _ hc
    split at h
    · rename_i hu
      rw [Bool.and_eq_true, Bool.not_eq_true', unchanged_iff W hW] at hu
      exact .inl ⟨⟨hd, hu.1, hu.2⟩, h.symm⟩
    · rename_i hu
      rw [Bool.and_eq_true, Bool.not_eq_true', unchanged_iff W hW] at hu
      refine .inr ⟨fun h => hu ⟨h.2.1, h.2.2⟩, ?_⟩
      have hrelated : (W.typeAt original ≠ W.typeAt a.node && W.typeParameter (W.typeAt original) && W.typeParameter (W.typeAt a.node) && !related) = true ↔
          (W.typeParameter (W.typeAt original) = true ∧ W.typeParameter (W.typeAt a.node) = true ∧ ¬ Constrained W (W.typeAt a.node) (W.typeAt original)) := by
        rw [← hrel]
        simp only [Bool.and_eq_true, decide_eq_true_eq, Bool.not_eq_true', Bool.not_eq_true]
        constructor
        · rintro ⟨⟨⟨_, h1⟩, h2⟩, h3⟩; exact ⟨h1, h2, h3⟩
        · rintro ⟨h1, h2, h3⟩
          refine ⟨⟨⟨?_, h1⟩, h2⟩, h3⟩
          intro he
          have := hrel.2 (by rw [he]; exact .same)
          rw [h3] at this; cases this
      cases contextual with
      | none =>
        refine .inr ⟨?_, h.symm⟩
        rintro ⟨_, ⟨ctx, hr, _⟩, _⟩
        cases (hctx ctx).2 hr
      | some ctx =>
        simp only at h
        have hr := (hctx ctx).1 rfl
        split at h
        · rename_i hcond
          rw [Bool.and_eq_true, Bool.and_eq_true, Bool.or_eq_true, Bool.not_eq_true', ← Bool.not_eq_true, hrelated] at hcond
          exact .inl ⟨⟨hd, ⟨ctx, hr, hcond.2⟩, hcond.1.2, hcond.1.1⟩, h.symm⟩
        · rename_i hcond
          rw [Bool.and_eq_true, Bool.and_eq_true, Bool.or_eq_true, Bool.not_eq_true', ← Bool.not_eq_true, hrelated] at hcond
          refine .inr ⟨?_, h.symm⟩
          rintro ⟨_, ⟨ctx', hr', ha⟩, hany, hun⟩
          have := (hctx ctx').2 hr'
          cases this
          exact hcond ⟨⟨hun, hany⟩, ha⟩

/-- C98 (main part). What is reported for an assertion is what is to be reported: that it is unnecessary exactly if it does not change the type,
that it is contextually unnecessary exactly if it does, but what receives the value accepts it all the same, and of several in a row, that they
are unnecessary together.  (`Proper`: the compiler's lists of properties and constituents have no duplicates.) -/
theorem C98_verdict (W : World N T) (hW : Proper W.toTypes) (opts : Options) (fuel : Nat) (a : Assertion N) (r : Outcome N T) (h : W.check opts fuel a = some r) :
    Verdict W opts a r := by
  rw [World.check] at h
  split at h
  · rename_i ht
    exact .inl ⟨.inl (by simpa using ht), by simpa using h.symm⟩
  · rename_i ht
    simp only at h
    split at h
    · rename_i hl
      simp only [Bool.and_eq_true, Bool.not_eq_true'] at hl
      exact .inl ⟨.inr ⟨hl.1.1, hl.1.2, hl.2⟩, by simpa using h.symm⟩
    · rename_i hl
      simp only [Bool.and_eq_true, Bool.not_eq_true'] at hl
      have hex : ¬ Exempt W opts a := by
        rintro (h | ⟨h1, h2, h3⟩)
        · exact ht (by simpa using h)
        · exact hl ⟨⟨h1, h2⟩, h3⟩
      rw [Option.bind_eq_some_iff] at h
      obtain ⟨u0, hu0, h⟩ := h
      rw [Option.bind_eq_some_iff] at h
      obtain ⟨original, ho, h⟩ := h
      refine .inr ⟨W.declaredType a u0 (W.typeAt a.node), W.typeAt a.node, original, hex, ⟨rfl, u0, uncastType_spec W _ _ _ hu0, declaredType_spec W a _ _⟩, original_spec W _ _ _ ho, ?_⟩
      generalize W.declaredType a u0 (W.typeAt a.node) = u at h
      split at h
      · rename_i hu
        rw [Bool.and_eq_true, unchanged_iff W hW, inferredLiteral_iff] at hu
        exact .inl ⟨hu, by simpa using h.symm⟩
      · rename_i hu
        rw [Bool.and_eq_true, unchanged_iff W hW, inferredLiteral_iff] at hu
        refine .inr ⟨hu, ?_⟩
        have hcast : (W.any (W.typeAt a.node) && !W.reasserted a.node) = true ↔ CastIsAny W a (W.typeAt a.node) := by
          rw [CastIsAny, Bool.and_eq_true, Bool.not_eq_true', ← Bool.not_eq_true, reasserted_iff]
        generalize hci : (W.any (W.typeAt a.node) && !W.reasserted a.node) = castIsAny at h hcast
        have hcastp : (castIsAny = true) = CastIsAny W a (W.typeAt a.node) := propext hcast
        have hctx : ∀ ctx, (if !W.skipContext a.node a.operand original castIsAny then W.contextual a.node else none) = some ctx ↔ Receiver W a original (W.typeAt a.node) ctx := by
          intro ctx
          rw [Receiver, ← hcastp, ← skipContext_iff]
          cases W.skipContext a.node a.operand original castIsAny <;> simp
        generalize hco : (if !W.skipContext a.node a.operand original castIsAny then W.contextual a.node else none) = contextual at h hctx
        cases contextual with
        | none =>
          refine .inr ⟨?_, double_spec W hW fuel a original none hctx r h⟩
          rintro ⟨ctx, hr, _⟩
          cases (hctx ctx).2 hr
        | some ctx =>
          simp only at h
          have hacc := accepts_iff W a u (W.typeAt a.node) ctx castIsAny
          rw [hcastp] at hacc
          split at h
          · rename_i hac
            exact .inl ⟨⟨ctx, (hctx ctx).1 rfl, hacc.1 hac⟩, by simpa using h.symm⟩
          · rename_i hac
            refine .inr ⟨?_, double_spec W hW fuel a original (some ctx) hctx r h⟩
            rintro ⟨ctx', hr, ha⟩
            cases (hctx ctx').2 hr
            exact hac (hacc.2 ha)

/-! ### There is one answer -/

omit [DecidableEq N] [DecidableEq T] in
theorem innermost_unique (W : World N T) {e o o' : N} (h : Innermost W e o) (k : Innermost W e o') : o = o' := by
  induction h with
  | here h1 h2 =>
    cases k with
    | here => rfl
    | inside hk _ => exact hk.elim (fun h => absurd h (h1 _)) (fun h => absurd h (h2 _))
  | inside hk _ ih =>
    cases k with
    | here h1 h2 => exact hk.elim (fun h => absurd h (h1 _)) (fun h => absurd h (h2 _))
    | inside hk' h' =>
      refine ih ?_
      rcases hk with hk | hk <;> rcases hk' with hk' | hk' <;> rw [hk] at hk' <;> cases hk' <;> exact h'

omit [DecidableEq N] [DecidableEq T] in
theorem iife_unique (W : World N T) {e f f' : N} (h : Iife W e f) (k : Iife W e f') : f = f' := by
  obtain ⟨c, a, t, h1, rfl, _⟩ := h
  obtain ⟨c', a', t', h1', rfl, _⟩ := k
  rw [h1] at h1'; cases h1'; rfl

omit [DecidableEq N] [DecidableEq T] in
theorem ownType_unique (W : World N T) {e : N} {t t' : T} (h : OwnType W e t) (k : OwnType W e t') : t = t' := by
  rcases h with ⟨hc, h⟩ | ⟨hc, h⟩ <;> rcases k with ⟨kc, k⟩ | ⟨kc, k⟩
  · rcases h with h | ⟨h, h'⟩ <;> rcases k with k | ⟨k, k'⟩
    · rw [h] at k; cases k; rfl
    · rw [h] at k; cases k
    · rw [h] at k; cases k
    · rw [h', k']
  · exact absurd hc kc
  · exact absurd kc hc
  · rw [h, k]

omit [DecidableEq N] [DecidableEq T] in
theorem uncastType_unique (W : World N T) {e : N} {t t' : T} (h : UncastType W e t) (k : UncastType W e t') : t = t' := by
  rcases h with ⟨f, s, r, h1, h2, h3⟩ | ⟨h1, h2⟩ <;> rcases k with ⟨f', s', r', k1, k2, k3⟩ | ⟨k1, k2⟩
  · obtain rfl := iife_unique W h1 k1
    rw [h2] at k2; cases k2
    rcases h3 with ⟨p, q, rfl⟩ | ⟨p, rfl⟩ <;> rcases k3 with ⟨p', q', rfl⟩ | ⟨p', rfl⟩
    · rfl
    · exact absurd ⟨p, q⟩ p'
    · exact absurd ⟨p', q'⟩ p
    · rfl
  · rw [k1 f h1] at h2; cases h2
  · rw [h1 f' k1] at k2; cases k2
  · exact ownType_unique W h2 k2

omit [DecidableEq N] [DecidableEq T] in
theorem typesAre_unique (W : World N T) {a : Assertion N} {u c u' c' : T} (h : TypesAre W a u c) (k : TypesAre W a u' c') : u = u' ∧ c = c' := by
  obtain ⟨rfl, u0, h1, h2⟩ := h
  obtain ⟨rfl, u1, k1, k2⟩ := k
  obtain rfl := uncastType_unique W h1 k1
  refine ⟨?_, rfl⟩
  rcases h2 with ⟨p, q, r, t⟩ | ⟨p, q⟩ <;> rcases k2 with ⟨p', q', r', t'⟩ | ⟨p', q'⟩
  · rw [r] at r'; cases r'; rfl
  · exact absurd ⟨p, q, _, r, t⟩ p'
  · exact absurd ⟨p', q', _, r', t'⟩ p
  · rw [q, q']

omit [DecidableEq N] [DecidableEq T] in
/-- C98 (determinacy). For every assertion, at most one thing is to be reported. -/
theorem C98_unique (W : World N T) (opts : Options) (a : Assertion N) (r r' : Outcome N T) (h : Verdict W opts a r) (k : Verdict W opts a r') : r = r' := by
  rcases h with ⟨h1, rfl⟩ | ⟨u, c, o, h1, h2, h3, h4⟩ <;> rcases k with ⟨k1, rfl⟩ | ⟨u', c', o', k1, k2, k3, k4⟩
  · rfl
  · exact absurd h1 k1
  · exact absurd k1 h1
  · obtain ⟨rfl, rfl⟩ := typesAre_unique W h2 k2
    obtain rfl := innermost_unique W h3 k3
    rcases h4 with ⟨p, rfl⟩ | ⟨p, h4⟩ <;> rcases k4 with ⟨q, rfl⟩ | ⟨q, k4⟩
    · rfl
    · exact absurd p q
    · exact absurd q p
    rcases h4 with ⟨p, rfl⟩ | ⟨p, h4⟩ <;> rcases k4 with ⟨q, rfl⟩ | ⟨q, k4⟩
    · rfl
    · exact absurd p q
    · exact absurd q p
    rcases h4 with ⟨p, rfl⟩ | ⟨p, h4⟩ <;> rcases k4 with ⟨q, rfl⟩ | ⟨q, k4⟩
    · rfl
    · exact absurd p q
    · exact absurd q p
    rcases h4 with ⟨p, rfl⟩ | ⟨p, h4⟩ <;> rcases k4 with ⟨q, rfl⟩ | ⟨q, k4⟩
    · rfl
    · exact absurd p q
    · exact absurd q p
    · rw [h4, k4]

/-! ### There is an answer -/

omit [DecidableEq N] [DecidableEq T] in
theorem original_answers (W : World N T) {e o : N} (h : Innermost W e o) : ∃ n, ∀ m ≥ n, ∃ r, W.original m e = some r := by
  induction h with
  | here h1 h2 =>
    refine ⟨1, fun m hm => ?_⟩
    obtain ⟨m, rfl⟩ : ∃ k, m = k + 1 := ⟨m - 1, by omega⟩
    rw [World.original, (Kind.assertion?_none _).2 ⟨h1, h2⟩]
    exact ⟨_, rfl⟩
  | inside hk _ ih =>
    obtain ⟨n, ih⟩ := ih
    refine ⟨n + 1, fun m hm => ?_⟩
    obtain ⟨m, rfl⟩ : ∃ k, m = k + 1 := ⟨m - 1, by omega⟩
    rw [World.original, (Kind.assertion?_iff _ _).2 hk]
    exact ih m (by omega)

omit [DecidableEq N] [DecidableEq T] in
theorem contextSensitive_answers (W : World N T) (depth : N → Nat) (hd : ∀ e x, W.kind e = .await x → depth (W.skip x) < depth e) :
    ∀ m e, depth e < m → ∃ b, W.contextSensitive m e = some b
  | 0, e, h => by omega
  | m + 1, e, h => by
    rw [World.contextSensitive.eq_def]
    simp only
    cases hk : W.kind e with
    | await x => exact contextSensitive_answers W depth hd m _ (by have := hd e x hk; omega)
    | _ => exact ⟨_, rfl⟩

omit [DecidableEq N] [DecidableEq T] in
theorem uncastType_answers (W : World N T) (depth : N → Nat) (hd : ∀ e x, W.kind e = .await x → depth (W.skip x) < depth e) (operand : N) :
    ∃ n, ∀ m ≥ n, ∃ t, W.uncastType m operand = some t := by
  refine ⟨depth (W.skip operand) + 1, fun m hm => ?_⟩
  obtain ⟨b, hb⟩ := contextSensitive_answers W depth hd m (W.skip operand) (by omega)
  have : ∃ t, W.typeOf m (W.skip operand) = some t := by rw [World.typeOf, hb]; exact ⟨_, rfl⟩
  rw [World.uncastType]
  cases W.iife (W.skip operand) with
  | none => exact this
  | some f =>
    simp only
    cases W.callSignatures (W.typeAt f) with
    | nil => exact this
    | cons => exact ⟨_, rfl⟩

omit [DecidableEq N] in
theorem some?_answers (univ : List T) (f : Option T → List T → Option (Bool × List T)) (n : Nat)
    (hf : ∀ t ∈ univ, ∀ seen, univ.countP (fun x => !seen.contains x) ≤ n → ∃ r seen', f (some t) seen = some (r, seen') ∧ ∀ x ∈ seen, x ∈ seen') :
    ∀ ts seen, (∀ t ∈ ts, t ∈ univ) → univ.countP (fun x => !seen.contains x) ≤ n → ∃ r seen', World.constrained.some? f ts seen = some (r, seen') ∧ ∀ x ∈ seen, x ∈ seen'
  | [], seen, _, _ => ⟨false, seen, rfl, fun _ h => h⟩
  | t :: ts, seen, hts, hs => by
    obtain ⟨r, s1, h1, g1⟩ := hf t (hts t (List.mem_cons_self ..)) seen hs
    rw [World.constrained.some?, h1]
    cases r with
    | true => exact ⟨true, s1, rfl, g1⟩
    | false =>
      have hle : univ.countP (fun x => !s1.contains x) ≤ univ.countP (fun x => !seen.contains x) := by
        refine List.countP_mono_left fun x _ hx => ?_
        simp only [List.contains_eq_mem, Bool.not_eq_true', decide_eq_false_iff_not] at hx ⊢
        exact fun h => hx (g1 x h)
      obtain ⟨r, s2, h2, g2⟩ := some?_answers univ f n hf ts s1 (fun t h => hts t (List.mem_cons_of_mem _ h)) (by omega)
      exact ⟨r, s2, by simpa using h2, fun x hx => g2 x (g1 x hx)⟩

theorem count_less (univ seen : List T) (s : T) (hs : s ∈ univ) (hn : s ∉ seen) :
    univ.countP (fun x => !(s :: seen).contains x) < univ.countP (fun x => !seen.contains x) := by
  obtain ⟨l, r, rfl⟩ := List.append_of_mem hs
  simp only [List.countP_append, List.countP_cons]
  have h1 : ∀ l : List T, l.countP (fun x => !(s :: seen).contains x) ≤ l.countP (fun x => !seen.contains x) := fun l =>
    List.countP_mono_left fun x _ hx => by
      simp only [List.contains_eq_mem, Bool.not_eq_true', decide_eq_false_iff_not, List.mem_cons, not_or] at hx ⊢
      exact hx.2
  have := h1 l; have := h1 r
  simp [hn]
  simp at *
  omega

omit [DecidableEq N] in
theorem constrained_answers (W : World N T) (target : T) (univ : List T) (hp : ∀ s ∈ univ, ∀ k, W.parameterConstraint s = some k → k ∈ univ)
    (hi : ∀ s ∈ univ, ∀ p ∈ W.types s, p ∈ univ) : ∀ n s seen, (∀ t, s = some t → t ∈ univ) → univ.countP (fun x => !seen.contains x) < n →
      ∃ r seen', W.constrained target n s seen = some (r, seen') ∧ ∀ x ∈ seen, x ∈ seen'
  | 0, _, _, _, h => by omega
  | n + 1, s, seen, hs, h => by
    rw [World.constrained.eq_def]
    simp only
    split
    · exact ⟨_, _, rfl, fun _ h => h⟩
    · cases s with
      | none => exact ⟨_, _, rfl, fun _ h => h⟩
      | some s =>
        simp only
        split
        · exact ⟨_, _, rfl, fun _ h => h⟩
        · rename_i hc
          have hu := hs s rfl
          have hl := count_less univ seen s hu (by simpa using hc)
          split
          · obtain ⟨r, s', h1, h2⟩ := constrained_answers W target univ hp hi n (W.parameterConstraint s) (s :: seen) (hp s hu) (by omega)
            exact ⟨r, s', h1, fun x hx => h2 x (List.mem_cons_of_mem _ hx)⟩
          · split
            · obtain ⟨r, s', h1, h2⟩ := some?_answers univ (W.constrained target n) (n - 1) (fun t ht seen hle =>
                constrained_answers W target univ hp hi n (some t) seen (fun _ h => by cases h; exact ht) (by omega)) (W.types s) (s :: seen) (hi s hu) (by omega)
              exact ⟨r, s', h1, fun x hx => h2 x (List.mem_cons_of_mem _ hx)⟩
            · exact ⟨_, _, rfl, fun _ h => List.mem_cons_of_mem _ h⟩

/-- C98 (termination). The rule comes to an answer for every assertion: expressions are finite, and from the type of the innermost operand only
finitely many types are reached through constraints of type parameters and parts of intersections. -/
theorem C98_answers (W : World N T) (opts : Options) (a : Assertion N) (original : N) (depth : N → Nat) (types : List T)
    (hd : ∀ e x, W.kind e = .await x → depth (W.skip x) < depth e) (ho : Innermost W (W.skip a.operand) original) (ht : W.typeAt original ∈ types)
    (hp : ∀ s ∈ types, ∀ k, W.parameterConstraint s = some k → k ∈ types) (hi : ∀ s ∈ types, ∀ p ∈ W.types s, p ∈ types) :
    ∃ n, ∀ fuel ≥ n, ∃ r, W.check opts fuel a = some r := by
  obtain ⟨n1, h1⟩ := original_answers W ho
  obtain ⟨n2, h2⟩ := uncastType_answers W depth hd a.operand
  refine ⟨n1 + n2 + types.length + 1, fun m hm => ?_⟩
  obtain ⟨o, ho'⟩ := h1 m (by omega)
  obtain rfl := innermost_unique W ho (original_spec W _ _ _ ho')
  obtain ⟨u, hu⟩ := h2 m (by omega)
  have hdouble : ∀ ctx, ∃ r, W.double m a original ctx = some r := by
    intro ctx
    rw [World.double]
    cases (W.kind (W.skip a.operand)).assertion? with
    | none => exact ⟨_, rfl⟩
    | some e =>
      obtain ⟨r, s, h, _⟩ := constrained_answers W (W.typeAt a.node) types hp hi m (some (W.typeAt original)) [] (fun _ h => by cases h; exact ht)
        (by have := List.countP_le_length (p := fun x => !([] : List T).contains x) (l := types); omega)
      simp only [h, Option.map_some]
      exact ⟨_, rfl⟩
  rw [World.check]
  split
  · exact ⟨_, rfl⟩
  · simp only [hu, ho', Option.bind_some]
    split
    · exact ⟨_, rfl⟩
    · split
      · exact ⟨_, rfl⟩
      · cases (if !W.skipContext a.node a.operand original (W.any (W.typeAt a.node) && !W.reasserted a.node) then W.contextual a.node else none) with
        | none => exact hdouble none
        | some ctx =>
          simp only
          split
          · exact ⟨_, rfl⟩
          · exact hdouble (some ctx)

/-! ### What a report means -/

/-- C98 (finding). The comparison of constituents for exactOptionalPropertyTypes is only made of types that are `undefined` themselves, not of
unions with `undefined` as a constituent, since flags of a union are not those of its constituents; and then it always succeeds. -/
theorem C98_exactOptional (W : World N T) (hW : Proper W.toTypes) (node : N) (inode : Bool) (e : N) (u c : T) (hx : W.exactOptionalPropertyTypes = true)
    (hu : W.undefined u = true) (hc : W.undefined c = true) (hparts : ∀ t, W.undefined t = true → W.unionParts t = [t])
    (h1 : W.typeParameter u = false) (h2 : W.noUncheckedIndexedAccess = false) (h3 : inode = false) : W.unchanged node inode e u c = true := by
  rw [unchanged_iff W hW]
  refine .inr ⟨by simp [h1], by simp [h2], by simp [h3], .inl ⟨hx, hu, hc, fun t ht => ?_⟩⟩
  rw [hparts u hu, hparts c hc]
  simp only [List.mem_singleton]
  constructor <;> rintro rfl
  · rw [hu] at ht; cases ht
  · rw [hc] at ht; cases ht

/-- C98 (an unnecessary assertion is safe to remove). If an assertion is reported as not changing the type, then the expression has the very type it
is asserted to have, or it is `T & {}` with `T` never null or undefined, or both are `undefined` (with exactOptionalPropertyTypes), or the types are
assignable to each other, have the same properties, the same of them readonly, and the same type arguments, neither contains `any`, both or neither
have index signatures. And a literal keeps its type. -/
theorem C98_safe (W : World N T) (hW : Proper W.toTypes) (opts : Options) (fuel : Nat) (a : Assertion N) (u c : T) (h : W.check opts fuel a = some (.unnecessary u c)) :
    c = W.typeAt a.node ∧ Inferred W a ∧
    (u = c ∨ (W.undefined u = true ∧ W.undefined c = true ∧ SameParts W.toTypes u c) ∨ AddsNothing W.toTypes u c ∨
      (SameProperties W.toTypes u c ∧ W.typeArguments u = W.typeArguments c ∧ W.assignable u c = true ∧ W.assignable c u = true ∧
        W.containsAny u = false ∧ W.containsAny c = false)) := by
  rcases C98_verdict W hW opts fuel a _ h with ⟨_, h⟩ | ⟨u', c', o, _, ht, _, h⟩
  · cases h
  · have hu : Unnecessary W a u' c' ∧ u = u' ∧ c = c' := by
      rcases h with ⟨h1, h2⟩ | ⟨_, ⟨_, h⟩ | ⟨_, ⟨_, h⟩ | ⟨_, ⟨_, h⟩ | ⟨_, h⟩⟩⟩⟩
      · cases h2; exact ⟨h1, rfl, rfl⟩
      all_goals cases h
    obtain ⟨⟨h, hi⟩, rfl, rfl⟩ := hu
    refine ⟨ht.1, hi, ?_⟩
    rcases h with rfl | ⟨_, _, _, ⟨_, h1, h2, h3⟩ | ⟨_, hc, _, ⟨_, _, h⟩ | ⟨_, h1, h2, h3, h4⟩⟩⟩
    · exact .inl rfl
    · exact .inr (.inl ⟨h1, h2, h3⟩)
    · exact .inr (.inr (.inl h))
    · exact .inr (.inr (.inr ⟨h1, h2, h3, h4, hc.2.2.1, hc.2.2.2.1⟩))

/-- C98 (so is one where it is used). If what receives the value is said to accept it, its type is assignable to what is expected, or `any` is expected of an argument. -/
theorem C98_contextual_safe (W : World N T) (hW : Proper W.toTypes) (opts : Options) (fuel : Nat) (a : Assertion N) (h : W.check opts fuel a = some .contextual) :
    ∃ u ctx, TypesAre W a u (W.typeAt a.node) ∧ W.contextual a.node = some ctx ∧ a.const = false ∧ W.containsAny u = false ∧
      (W.assignable u ctx = true ∨ (W.any ctx = true ∧ W.containsAny (W.typeAt a.node) = false)) := by
  rcases C98_verdict W hW opts fuel a _ h with ⟨_, h⟩ | ⟨u, c, o, _, ht, _, h⟩
  · cases h
  · have hu : ContextuallyUnnecessary W a o u c := by
      rcases h with ⟨_, h⟩ | ⟨_, ⟨h, _⟩ | ⟨_, ⟨_, h⟩ | ⟨_, ⟨_, h⟩ | ⟨_, h⟩⟩⟩⟩
      · cases h
      · exact h
      all_goals cases h
    obtain ⟨ctx, hr, hc, ha, hx, _⟩ := hu
    obtain rfl := ht.1
    refine ⟨u, ctx, ht, hr.2, hc, ha, ?_⟩
    rcases hx with ⟨_, _, h⟩ | ⟨h, h', _⟩
    · exact .inl h
    · exact .inr ⟨h, h'⟩

/-- C98 (several assertions in a row). The replacement reported is the innermost operand, and its type is assignable to what is expected, or leaves the asserted type unchanged. -/
theorem C98_double_safe (W : World N T) (hW : Proper W.toTypes) (opts : Options) (fuel : Nat) (a : Assertion N) (b : Bool) (o : N)
    (h : W.check opts fuel a = some (.double b o)) : Innermost W (W.skip a.operand) o ∧ o ≠ W.skip a.operand ∧
      (b = true → Unchanged W a.node a.intersectionNode (W.skip a.operand) (W.typeAt o) (W.typeAt a.node)) ∧
      (b = false → ∃ ctx, W.contextual a.node = some ctx ∧ W.assignable (W.typeAt o) ctx = true) := by
  rcases C98_verdict W hW opts fuel a _ h with ⟨_, h⟩ | ⟨u, c, o', _, ht, ho, h⟩
  · cases h
  · obtain rfl := ht.1
    have hne : IsDouble W a → Innermost W (W.skip a.operand) o' → o' ≠ W.skip a.operand := by
      rintro ⟨e, he⟩ hi rfl
      cases hi with
      | here h1 h2 => exact he.elim (h1 _) (h2 _)
      | inside hk hi =>
        -- the way inwards ends at something that is no assertion
        have hend : ∀ {x y}, Innermost W x y → (∀ e, W.kind y ≠ .asExpression e) ∧ ∀ e, W.kind y ≠ .angleBracket e := by
          intro x y h
          induction h with
          | here h1 h2 => exact ⟨h1, h2⟩
          | inside _ _ ih => exact ih
        exact he.elim ((hend hi).1 _) ((hend hi).2 _)
    rcases h with ⟨_, h⟩ | ⟨_, ⟨_, h⟩ | ⟨_, ⟨h1, h⟩ | ⟨_, ⟨h1, h⟩ | ⟨_, h⟩⟩⟩⟩
    · cases h
    · cases h
    · cases h
      exact ⟨ho, hne h1.1 ho, fun _ => h1.2.1, nofun⟩
    · cases h
      obtain ⟨ctx, hr, ha⟩ := h1.2.1
      exact ⟨ho, hne h1.1 ho, nofun, fun _ => ⟨ctx, hr.2, ha⟩⟩
    · cases h

/-! ### A sample -/

namespace Sample

/-- `const x = y as string; f(y as any); const z = y as unknown as string; const w = (q as T & {}) ` with `y: string`, `f(s: string)`, `q: T extends string`.
Types: 0 `string`, 1 `any`, 2 `unknown`, 3 `T`, 4 `{}`, 5 `T & {}`, 6 the type of `f`. -/
def world : World Nat Nat where
  any := (· == 1)
  unknown := (· == 2)
  undefined := (· ≥ 100)
  nonPrimitive _ := false
  typeParameter := (· == 3)
  intersection := (· == 5)
  union _ := false
  tuple _ := false
  literal _ := false
  conditional _ := false
  unionParts t := [t]
  types t := if t == 5 then [3, 4] else []
  typeArguments _ := []
  tupleArguments _ := []
  numberIndex _ := none
  properties _ := []
  property _ _ := none
  callSignatures t := if t == 6 then [⟨false, [⟨0, false⟩], 2⟩] else []
  constructible _ := false
  indexed _ := false
  baseConstraint t := if t == 3 then some 0 else none
  parameterConstraint t := if t == 3 then some 0 else none
  nullable t := t == 100
  nonNullable t := t
  assignable a b := a == b || b == 2 || a == 1 || b == 1
  voidType := 100
  containsAny t := t == 1
  containsVariable t := t == 3 || t == 5
  kind
    | 0 => .identifier "y"
    | 1 => .asExpression 0
    | 2 => .variableDeclaration (some 1) false
    | 3 => .variableDeclarationList true
    | 4 => .asExpression 0
    | 5 => .call 6 [4] false
    | 6 => .identifier "f"
    | 7 => .asExpression 0
    | 8 => .asExpression 7
    | 9 => .identifier "q"
    | 10 => .asExpression 9
    | _ => .other
  ancestors
    | 1 => [2, 3]
    | 4 => [5]
    | 8 => [2, 3]
    | 10 => [2, 3]
    | _ => []
  skip n := n
  writeAccess _ := false
  logicalExpression _ := false
  typeAt
    | 0 => 0
    | 1 => 0
    | 4 => 1
    | 6 => 6
    | 7 => 2
    | 8 => 0
    | 9 => 3
    | 10 => 5
    | _ => 2
  contextual n := if n == 4 then some 0 else none
  contextFree _ := none
  resolved _ := none
  symbolType _ := none
  noUncheckedIndexedAccess := false
  exactOptionalPropertyTypes := true

def options : Options := ⟨true, ["Foo"]⟩

theorem proper : Proper world.toTypes := ⟨fun _ => by simp [world], fun _ => by simp [world]⟩

example : world.check options 5 ⟨1, 0, "string", false, false⟩ = some (.unnecessary 0 0) := by rfl
example : world.check options 5 ⟨1, 0, "Foo", false, false⟩ = some .nothing := by rfl
example : world.check options 5 ⟨4, 0, "any", false, false⟩ = some .contextual := by rfl
example : world.check options 5 ⟨8, 7, "string", false, false⟩ = some (.double true 0) := by rfl
example : world.check options 5 ⟨10, 9, "T & {}", false, false⟩ = some (.unnecessary 3 5) := by rfl
/-- written as an intersection, it is left alone -/
example : world.check options 5 ⟨10, 9, "T & {}", false, true⟩ = some .nothing := by rfl
example : Verdict world options ⟨8, 7, "string", false, false⟩ (.double true 0) := C98_verdict world proper options 5 _ _ rfl
example : AddsNothing world.toTypes 3 5 :=
  ⟨4, 0, by decide, .inl rfl, rfl, .inr ⟨rfl, rfl, rfl, rfl⟩, rfl, rfl, rfl⟩
/-- The rule answers. -/
example : ∃ n, ∀ fuel ≥ n, ∃ r, world.check options fuel ⟨8, 7, "string", false, false⟩ = some r := by
  refine C98_answers world options _ 0 (fun _ => 0) [0] ?_ ?_ ?_ ?_ ?_
  · intro e x h
    simp only [world] at h
    split at h <;> cases h
  · exact .inside (.inl rfl) (.here (fun _ h => by cases h) (fun _ h => by cases h))
  · simp [world]
  · intro s hs k hk
    simp only [List.mem_singleton] at hs; subst hs; simp [world] at hk
  · intro s hs p hp
    simp only [List.mem_singleton] at hs; subst hs; simp [world] at hp
example : world.unchanged 1 false 0 100 101 = true := C98_exactOptional world proper _ _ _ _ _ rfl rfl rfl (fun _ _ => rfl) rfl rfl rfl

end Sample

end Tsgolint.UnnecessaryAssertion
