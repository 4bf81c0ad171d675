import Verif.Proof.AssertionContext
/-!
# Comparing the types before and after an assertion
-/
namespace Tsgolint.UnnecessaryAssertion
variable {N T : Type}

theorem find_last {A B : Type} [DecidableEq B] (f : A → B) (l : List A) (h : (l.map f).Nodup) (b : B) (q : A) :
    l.reverse.find? (fun x => f x == b) = some q ↔ q ∈ l ∧ f q = b := by
  constructor
  · intro hf
    exact ⟨by simpa using List.mem_of_find?_eq_some hf, by simpa using List.find?_some hf⟩
  · rintro ⟨hq, rfl⟩
    cases hr : l.reverse.find? (fun x => f x == f q) with
    | none => exact absurd (List.find?_eq_none.1 hr q (by simpa using hq)) (by simp)
    | some r =>
      have hm : r ∈ l := by simpa using List.mem_of_find?_eq_some hr
      have he : f r = f q := by simpa using List.find?_some hr
      congr 1
      induction l with
      | nil => simp at hq
      | cons a l ih =>
        clear ih
        rw [List.nodup_iff_pairwise_ne, List.pairwise_map] at h
        by_cases hrq : r = q
        · exact hrq
        · exfalso
          obtain ⟨i, hi, rfl⟩ := List.getElem_of_mem hm
          obtain ⟨j, hj, rfl⟩ := List.getElem_of_mem hq
          rw [List.pairwise_iff_getElem] at h
          rcases Nat.lt_trichotomy i j with hij | hij | hij
          · exact h i j hi hj hij he
          · subst hij; exact hrq rfl
          · exact h j i hj hi hij he.symm

theorem subset_of_length {A : Type} [DecidableEq A] (l m : List A) (hl : l.Nodup) (hm : m.Nodup) (hlen : l.length = m.length) (h : ∀ x ∈ l, x ∈ m) : ∀ x ∈ m, x ∈ l := by
  induction l generalizing m with
  | nil =>
    intro x hx
    have : m = [] := List.eq_nil_of_length_eq_zero (by simpa using hlen.symm)
    subst this; exact hx
  | cons a l ih =>
    intro x hx
    have ha : a ∈ m := h a (List.mem_cons_self ..)
    by_cases hxa : x = a
    · subst hxa; exact List.mem_cons_self ..
    · have hl' := List.nodup_cons.1 hl
      refine List.mem_cons_of_mem _ (ih (m.erase a) hl'.2 (hm.erase a) ?_ (fun y hy => ?_) x ((List.mem_erase_of_ne hxa).2 hx))
      · rw [List.length_erase_of_mem ha]
        simp only [List.length_cons] at hlen; omega
      · have hya : y ≠ a := by rintro rfl; exact hl'.1 hy
        exact (List.mem_erase_of_ne hya).2 (h y (List.mem_cons_of_mem _ hy))

theorem hasSameProperties_iff (E : Types T) (hE : Proper E) (u c : T) : E.hasSameProperties u c = true ↔ SameProperties E u c := by
  rw [Types.hasSameProperties, SameProperties]
  have hu := hE.names u
  have hc := hE.names c
  -- names determine properties
  have huniq : ∀ t, ∀ p ∈ E.properties t, ∀ q ∈ E.properties t, p.name = q.name → p = q := by
    intro t p hp q hq hn
    have h1 := (find_last (·.name) _ (hE.names t) q.name p).2 ⟨hp, hn⟩
    have h2 := (find_last (·.name) _ (hE.names t) q.name q).2 ⟨hq, rfl⟩
    rw [h1] at h2; cases h2; rfl
  have hall : ((E.properties u).all fun p => match (E.properties c).reverse.find? (·.name == p.name) with | none => false | some q => p.readonly == q.readonly) = true ↔
      ∀ p ∈ E.properties u, ∃ q ∈ E.properties c, q.name = p.name ∧ q.readonly = p.readonly := by
    rw [List.all_eq_true]
    refine ⟨fun h p hp => ?_, fun h p hp => ?_⟩
    · have := h p hp
      cases hf : (E.properties c).reverse.find? (·.name == p.name) with
      | none => rw [hf] at this; cases this
      | some q =>
        rw [hf] at this
        obtain ⟨hq, hn⟩ := (find_last (·.name) _ hc p.name q).1 hf
        exact ⟨q, hq, hn, (by simpa using this : p.readonly = q.readonly).symm⟩
    · obtain ⟨q, hq, hn, hr⟩ := h p hp
      rw [(find_last (·.name) _ hc p.name q).2 ⟨hq, hn⟩]
      simp [hr]
  split
  · rename_i hlen
    simp only [Bool.false_eq_true, false_iff]
    intro h
    apply hlen
    have : List.Perm ((E.properties u).map (·.name)) ((E.properties c).map (·.name)) := by
      rw [List.perm_ext_iff_of_nodup hu hc]
      intro n
      simp only [List.mem_map]
      constructor
      · rintro ⟨p, hp, rfl⟩
        obtain ⟨q, hq, hn, _⟩ := (h p.name p.readonly).1 ⟨p, hp, rfl, rfl⟩
        exact ⟨q, hq, hn⟩
      · rintro ⟨p, hp, rfl⟩
        obtain ⟨q, hq, hn, _⟩ := (h p.name p.readonly).2 ⟨p, hp, rfl, rfl⟩
        exact ⟨q, hq, hn⟩
    simpa using this.length_eq
  · rename_i hlen
    have hlen : (E.properties u).length = (E.properties c).length := by simpa using hlen
    refine Iff.trans hall ?_
    constructor
    · intro h
      have hback := subset_of_length ((E.properties u).map (·.name)) ((E.properties c).map (·.name)) hu hc (by simpa using hlen) (by
        intro n hn
        obtain ⟨p, hp, rfl⟩ := List.mem_map.1 hn
        obtain ⟨q, hq, hn, _⟩ := h p hp
        exact List.mem_map.2 ⟨q, hq, hn⟩)
      intro name r
      constructor
      · rintro ⟨p, hp, rfl, rfl⟩
        exact h p hp
      · rintro ⟨q, hq, rfl, rfl⟩
        obtain ⟨p, hp, hn⟩ := List.mem_map.1 (hback q.name (List.mem_map.2 ⟨q, hq, rfl⟩))
        obtain ⟨q', hq', hn', hr'⟩ := h p hp
        have := huniq c q' hq' q hq (hn'.trans hn)
        subst this
        exact ⟨p, hp, hn, hr'.symm⟩
    · intro h p hp
      exact (h p.name p.readonly).1 ⟨p, hp, rfl, rfl⟩

variable [DecidableEq T]

theorem haveSameTypeArguments_iff (E : Types T) (u c : T) : E.haveSameTypeArguments u c = true ↔ E.typeArguments u = E.typeArguments c := by
  rw [Types.haveSameTypeArguments]
  split
  · rename_i h
    simp only [Bool.false_eq_true, false_iff]
    intro h'; exact h (by rw [h'])
  · rename_i h
    have h : (E.typeArguments u).length = (E.typeArguments c).length := by simpa using h
    generalize E.typeArguments u = l at h
    generalize E.typeArguments c = m at h
    induction l generalizing m with
    | nil => simp [List.eq_nil_of_length_eq_zero h.symm]
    | cons x l ih =>
      cases m with
      | nil => simp at h
      | cons y m =>
        have := ih m (by simpa using h)
        simp only [List.zip_cons_cons, List.all_cons, Bool.and_eq_true, decide_eq_true_eq, List.cons.injEq, this]

theorem countParts_eq (E : Types T) (parts : List T) : ∀ l n, E.countParts parts l n =
    if ∀ p ∈ l, E.undefined p = false → p ∈ parts then some (n + (l.filter (!E.undefined ·)).length) else none
  | [], n => by simp [Types.countParts]
  | p :: l, n => by
    rw [Types.countParts, countParts_eq E parts l n, countParts_eq E parts l (n + 1)]
    cases hu : E.undefined p with
    | true =>
      simp only [if_true, List.forall_mem_cons, hu, Bool.true_eq_false, false_implies, true_and]
      rw [List.filter_cons_of_neg (by simp [hu])]
    | false =>
      simp only [Bool.false_eq_true, if_false, List.forall_mem_cons, hu, true_implies]
      rw [List.filter_cons_of_pos (by simp [hu])]
      by_cases hp : p ∈ parts
      · simp only [hp, true_and, List.contains_eq_mem, decide_true, Bool.not_true, Bool.false_eq_true, if_false, List.length_cons]
        split
        · congr 1; omega
        · rfl
      · simp [hp]

theorem sameParts_iff (E : Types T) (hE : Proper E) (u c : T) : E.sameParts u c = true ↔ SameParts E u c := by
  rw [Types.sameParts, SameParts]
  simp only [countParts_eq]
  have hd : ((E.unionParts u).filter (!E.undefined ·)).eraseDups = (E.unionParts u).filter (!E.undefined ·) := by
    have hn : ((E.unionParts u).filter (!E.undefined ·)).Nodup := (hE.parts u).filter _
    generalize (E.unionParts u).filter (!E.undefined ·) = l at hn
    induction l with
    | nil => rfl
    | cons a l ih =>
      have h := List.nodup_cons.1 hn
      rw [List.eraseDups_cons]
      rw [List.filter_eq_self.2 (by intro x hx; simp only [Bool.not_eq_true', beq_eq_false_iff_ne]; rintro rfl; exact h.1 hx), ih h.2]
  rw [hd]
  have hmem : ∀ t x, x ∈ (E.unionParts t).filter (!E.undefined ·) ↔ x ∈ E.unionParts t ∧ E.undefined x = false := by
    intro t x; simp [List.mem_filter]
  by_cases hall : ∀ p ∈ E.unionParts c, E.undefined p = false → p ∈ (E.unionParts u).filter (!E.undefined ·)
  · rw [if_pos hall]
    simp only [Nat.zero_add, beq_iff_eq]
    constructor
    · intro hlen t ht
      constructor
      · intro h
        have := subset_of_length ((E.unionParts c).filter (!E.undefined ·)) ((E.unionParts u).filter (!E.undefined ·)) ((hE.parts c).filter _) ((hE.parts u).filter _) hlen.symm
          (fun x hx => by obtain ⟨h1, h2⟩ := (hmem c x).1 hx; exact hall x h1 h2) t ((hmem u t).2 ⟨h, ht⟩)
        exact ((hmem c t).1 this).1
      · intro h; exact ((hmem u t).1 (hall t h ht)).1
    · intro h
      have : List.Perm ((E.unionParts u).filter (!E.undefined ·)) ((E.unionParts c).filter (!E.undefined ·)) := by
        rw [List.perm_ext_iff_of_nodup ((hE.parts u).filter _) ((hE.parts c).filter _)]
        intro x
        rw [hmem, hmem]
        exact ⟨fun ⟨h1, h2⟩ => ⟨(h x h2).1 h1, h2⟩, fun ⟨h1, h2⟩ => ⟨(h x h2).2 h1, h2⟩⟩
      exact this.length_eq
  · rw [if_neg hall]
    simp only [Bool.false_eq_true, false_iff]
    intro h
    exact hall fun p hp hu => (hmem u p).2 ⟨(h p hu).2 hp, hu⟩

omit [DecidableEq T] in
theorem hasIndexSignature_iff (E : Types T) (t : T) : E.hasIndexSignature t = true ↔ ∃ p ∈ E.unionParts t, E.indexed p = true := by
  simp [Types.hasIndexSignature]

variable [DecidableEq N]

omit [DecidableEq N] [DecidableEq T] in
theorem freshLiteral_iff (W : World N T) (e : N) (c : T) : W.freshLiteral e c = true ↔ FreshLiteral W e c := by
  rw [World.freshLiteral, FreshLiteral, IsFunction]
  cases hk : W.kind e <;> simp [Kind.conceptuallyLiteral]

omit [DecidableEq T] in
theorem emptyObject_iff (E : Types T) (t : T) : E.emptyObject t = true ↔ EmptyObject E t := by
  simp [Types.emptyObject, EmptyObject, and_assoc]

omit [DecidableEq N] in
theorem addsNothing_iff (W : World N T) (u c : T) : W.addsNothing u c = true ↔ AddsNothing W.toTypes u c := by
  rw [World.addsNothing, AddsNothing]
  constructor
  · intro h
    cases hf : (W.types c).find? (fun x => decide (x ≠ u)) with
    | none => rw [hf] at h; cases h
    | some other =>
      rw [hf] at h
      simp only at h
      split at h
      · rename_i hc
        simp only [Bool.and_eq_true, beq_iff_eq, List.contains_iff_mem, Bool.not_eq_true'] at hc
        obtain ⟨⟨⟨⟨h1, h2⟩, h3⟩, h4⟩, h5⟩ := hc
        have hne : other ≠ u := by simpa using List.find?_some hf
        have hmem := List.mem_of_find?_eq_some hf
        cases hb : W.baseConstraint u with
        | none => rw [hb] at h; cases h
        | some k =>
          rw [hb] at h
          refine ⟨other, k, hne, ?_, h1, (emptyObject_iff _ _).1 h4, h5, rfl, by simpa using h⟩
          match hl : W.types c with
          | [] => rw [hl] at h2; simp at h2
          | [_] => rw [hl] at h2; simp at h2
          | _ :: _ :: _ :: _ => rw [hl] at h2; simp at h2
          | [x, y] =>
            rw [hl] at h3 hmem
            simp only [List.mem_cons, List.not_mem_nil, or_false] at h3 hmem
            rcases h3 with rfl | rfl
            · rcases hmem with h | rfl
              · exact absurd h hne
              · exact .inl rfl
            · rcases hmem with rfl | h
              · exact .inr rfl
              · exact absurd h hne
      · cases h
  · rintro ⟨other, k, hne, hl, h1, h2, h3, h4, h5⟩
    have hf : (W.types c).find? (fun x => decide (x ≠ u)) = some other := by
      rcases hl with hl | hl <;> rw [hl] <;> simp [hne]
    have hlen : (W.types c).length = 2 := by rcases hl with hl | hl <;> rw [hl] <;> rfl
    have hmem : u ∈ W.types c := by rcases hl with hl | hl <;> rw [hl] <;> simp
    rw [hf]
    simp only
    rw [if_pos (by simp [h1, (emptyObject_iff _ _).2 h2, h3, hlen, hmem]), h4]
    simp [h5]

theorem unchanged_iff (W : World N T) (hW : Proper W.toTypes) (node : N) (inode : Bool) (e : N) (u c : T) :
    W.unchanged node inode e u c = true ↔ Unchanged W node inode e u c := by
  have hw : W.receiver (W.ancestors node) = true ↔ WrittenThrough W node := receiver_iff W _
  have hx := isIndex_iff W node
  rw [World.unchanged, Unchanged]
  by_cases h0 : u = c
  · rw [if_pos h0]; exact ⟨fun _ => .inl h0, fun _ => rfl⟩
  rw [if_neg h0]
  simp only [h0, false_or]
  by_cases h1 : W.typeParameter u = true ∧ WrittenThrough W node
  · rw [if_pos (by rw [Bool.and_eq_true, hw]; exact h1)]
    simp [h1]
  rw [if_neg (by rw [Bool.and_eq_true, hw]; exact h1)]
  by_cases h2 : W.noUncheckedIndexedAccess = true ∧ IsIndex W node
  · rw [if_pos (by rw [Bool.and_eq_true, hx]; exact h2)]
    simp [h2]
  rw [if_neg (by rw [Bool.and_eq_true, hx]; exact h2)]
  by_cases h3 : inode = true ∧ W.containsVariable c = true
  · rw [if_pos (by rw [Bool.and_eq_true]; exact h3)]
    simp [h3]
  rw [if_neg (by rw [Bool.and_eq_true]; exact h3)]
  simp only [h1, h2, h3, not_false_eq_true, true_and]
  by_cases h4 : W.exactOptionalPropertyTypes = true ∧ W.undefined u = true ∧ W.undefined c = true
  · rw [if_pos (by simp [h4]), sameParts_iff W.toTypes hW]
    constructor
    · intro h; exact .inl ⟨h4.1, h4.2.1, h4.2.2, h⟩
    · rintro (h | h)
      · exact h.2.2.2
      · exact absurd h4 h.1
  rw [if_neg (by simpa [Bool.and_eq_true, and_assoc] using h4)]
  have hcmp : ((W.nonPrimitive u && !W.nonPrimitive c) || (W.hasIndexSignature u != W.hasIndexSignature c) || W.containsAny u ||
      W.containsAny c || (W.containsVariable c && !W.containsVariable u)) = true ↔ ¬ Comparable W.toTypes u c := by
    rw [Comparable, ← hasIndexSignature_iff, ← hasIndexSignature_iff]
    cases W.nonPrimitive u <;> cases W.nonPrimitive c <;> cases W.hasIndexSignature u <;> cases W.hasIndexSignature c <;> cases W.containsAny u <;>
      cases W.containsAny c <;> cases W.containsVariable c <;> cases W.containsVariable u <;> simp
  by_cases h5 : Comparable W.toTypes u c
  · rw [if_neg (by rw [hcmp]; exact fun h => h h5)]
    by_cases h6 : FreshLiteral W e c
    · rw [if_pos ((freshLiteral_iff W e c).2 h6)]
      simp only [Bool.false_eq_true, false_iff]
      rintro (h | h)
      · exact h4 ⟨h.1, h.2.1, h.2.2.1⟩
      · exact h.2.2.1 h6
    · rw [if_neg (by rw [freshLiteral_iff]; exact h6)]
      by_cases h7 : W.intersection c = true ∧ W.intersection u = false
      · rw [if_pos (by simp [h7]), addsNothing_iff]
        constructor
        · intro h; exact .inr ⟨h4, h5, h6, .inl ⟨h7.1, h7.2, h⟩⟩
        · rintro (h | ⟨_, _, _, h | h⟩)
          · exact absurd ⟨h.1, h.2.1, h.2.2.1⟩ h4
          · exact h.2.2
          · exact absurd h7 h.1
      · rw [if_neg (by simpa using h7)]
        constructor
        · intro h
          split at h
          · cases h
          · rename_i hn
            simp only [Bool.or_eq_true, Bool.not_eq_true', not_or, Bool.not_eq_false] at hn
            rw [Bool.and_eq_true] at h
            exact .inr ⟨h4, h5, h6, .inr ⟨h7, (hasSameProperties_iff W.toTypes hW u c).1 hn.1, (haveSameTypeArguments_iff W.toTypes u c).1 hn.2, h⟩⟩
        · rintro (h | ⟨_, _, _, h | h⟩)
          · exact absurd ⟨h.1, h.2.1, h.2.2.1⟩ h4
          · exact absurd ⟨h.1, h.2.1⟩ h7
          · rw [if_neg (by simp [(hasSameProperties_iff W.toTypes hW u c).2 h.2.1, (haveSameTypeArguments_iff W.toTypes u c).2 h.2.2.1]), Bool.and_eq_true]
            exact h.2.2.2
  · rw [if_pos (hcmp.2 h5)]
    simp only [Bool.false_eq_true, false_iff]
    rintro (h | h)
    · exact h4 ⟨h.1, h.2.1, h.2.2.1⟩
    · exact h5 h.2.1

/-! ### The expression -/

omit [DecidableEq N] [DecidableEq T] in
theorem contextSensitive_iff (W : World N T) : ∀ n e b, W.contextSensitive n e = some b → (b = true ↔ CallLike W e)
  | 0, _, _, h => by simp [World.contextSensitive] at h
  | n + 1, e, b, h => by
    rw [World.contextSensitive] at h
    cases hk : W.kind e with
    | call c a t => rw [hk] at h; simp at h; subst h; exact ⟨fun _ => .call hk, fun _ => rfl⟩
    | construct c a t => rw [hk] at h; simp at h; subst h; exact ⟨fun _ => .construct hk, fun _ => rfl⟩
    | taggedTemplate => rw [hk] at h; simp at h; subst h; exact ⟨fun _ => .tagged hk, fun _ => rfl⟩
    | await x =>
      rw [hk] at h
      rw [contextSensitive_iff W n (W.skip x) b h]
      constructor
      · intro h; exact .await hk h
      · intro h
        cases h with
        | call h => rw [hk] at h; cases h
        | construct h => rw [hk] at h; cases h
        | tagged h => rw [hk] at h; cases h
        | await h k => rw [hk] at h; cases h; exact k
    | _ =>
      rw [hk] at h
      simp only [Option.some.injEq] at h
      subst h
      refine ⟨nofun, fun h => ?_⟩
      cases h with
      | call h => rw [hk] at h; cases h
      | construct h => rw [hk] at h; cases h
      | tagged h => rw [hk] at h; cases h
      | await h k => rw [hk] at h; cases h

omit [DecidableEq N] [DecidableEq T] in
theorem original_spec (W : World N T) : ∀ n e o, W.original n e = some o → Innermost W e o
  | 0, _, _, h => by simp [World.original] at h
  | n + 1, e, o, h => by
    rw [World.original] at h
    cases hk : (W.kind e).assertion? with
    | some x => rw [hk] at h; exact .inside ((Kind.assertion?_iff _ _).1 hk) (original_spec W n _ _ h)
    | none =>
      rw [hk] at h; cases h
      exact .here ((Kind.assertion?_none _).1 hk).1 ((Kind.assertion?_none _).1 hk).2

omit [DecidableEq N] [DecidableEq T] in
theorem iife_iff (W : World N T) (e f : N) : W.iife e = some f ↔ Iife W e f := by
  rw [World.iife, Iife]
  cases hk : W.kind (W.skip e) with
  | call callee args t =>
    simp only
    by_cases hf : (W.kind (W.skip callee)).isFunction = true
    · rw [if_pos hf]
      constructor
      · intro h; cases h; exact ⟨callee, args, t, rfl, rfl, (isFunction_iff W _).1 hf⟩
      · rintro ⟨c, a, t', h, rfl, _⟩; cases h; rfl
    · rw [if_neg hf]
      simp only [reduceCtorEq, false_iff]
      rintro ⟨c, a, t', h, rfl, h'⟩
      cases h
      exact hf ((isFunction_iff W _).2 h')
  | _ => simp

omit [DecidableEq N] [DecidableEq T] in
theorem typeOf_spec (W : World N T) (fuel : Nat) (e : N) (t : T) (h : W.typeOf fuel e = some t) : OwnType W e t := by
  rw [World.typeOf, Option.map_eq_some_iff] at h
  obtain ⟨b, hb, h⟩ := h
  have hc := contextSensitive_iff W fuel e b hb
  cases b with
  | true =>
    simp only [if_true] at h
    refine .inl ⟨hc.1 rfl, ?_⟩
    cases hf : W.contextFree e with
    | none => rw [hf] at h; exact .inr ⟨rfl, h.symm⟩
    | some x => rw [hf] at h; exact .inl (by rw [← h]; rfl)
  | false =>
    simp only [Bool.false_eq_true, if_false] at h
    exact .inr ⟨fun hcl => absurd (hc.2 hcl) (by simp), h.symm⟩

omit [DecidableEq N] [DecidableEq T] in
theorem unannotated_iff (W : World N T) (f : N) (hf : IsFunction W f) : (W.kind f).unannotated = true ↔ ¬ Annotated W f := by
  rw [Annotated]
  rcases hf with ⟨b, a, h⟩ | ⟨body, b, a, h⟩ <;> rw [h] <;> cases a <;> simp [Kind.unannotated]

omit [DecidableEq N] [DecidableEq T] in
theorem uncastType_spec (W : World N T) (fuel : Nat) (operand : N) (t : T) (h : W.uncastType fuel operand = some t) : UncastType W operand t := by
  rw [World.uncastType] at h
  cases hi : W.iife (W.skip operand) with
  | none =>
    rw [hi] at h
    refine .inr ⟨fun f hf => ?_, typeOf_spec W fuel _ t h⟩
    rw [(iife_iff W _ f).2 hf] at hi; cases hi
  | some f =>
    rw [hi] at h
    have hf := (iife_iff W _ f).1 hi
    simp only at h
    cases hs : W.callSignatures (W.typeAt f) with
    | nil =>
      rw [hs] at h
      refine .inr ⟨fun f' hf' => ?_, typeOf_spec W fuel _ t h⟩
      rw [(iife_iff W _ f').2 hf'] at hi; cases hi
      exact hs
    | cons s rest =>
      rw [hs] at h
      simp only [Option.some.injEq] at h
      have hfn : IsFunction W f := by obtain ⟨_, _, _, _, _, h⟩ := hf; exact h
      refine .inl ⟨f, s, rest, hf, hs, ?_⟩
      by_cases hc : ¬ Annotated W f ∧ W.undefined s.result = true
      · rw [if_pos (by rw [Bool.and_eq_true, unannotated_iff W f hfn]; exact hc)] at h
        exact .inl ⟨hc.1, hc.2, h.symm⟩
      · rw [if_neg (by rw [Bool.and_eq_true, unannotated_iff W f hfn]; exact hc)] at h
        exact .inr ⟨hc, h.symm⟩

omit [DecidableEq N] in
theorem declaredType_spec (W : World N T) (a : Assertion N) (u0 c : T) : DeclaredType W a.operand u0 c (W.declaredType a u0 c) := by
  rw [World.declaredType]
  by_cases h0 : u0 = c
  · rw [if_pos h0]
    cases hk : W.kind (W.skip a.operand) with
    | identifier name =>
      cases hs : W.symbolType (W.skip a.operand) with
      | none => exact .inr ⟨fun ⟨_, _, s, h, _⟩ => (by rw [hs] at h; cases h), rfl⟩
      | some s =>
        by_cases hc : W.conditional s = true
        · simp only [hc, if_true]
          exact .inl ⟨h0, ⟨name, hk⟩, hs, hc⟩
        · simp only [hc]
          exact .inr ⟨fun ⟨_, _, s', h, h'⟩ => (by rw [hs] at h; cases h; exact hc h'), rfl⟩
    | _ => exact .inr ⟨fun ⟨_, ⟨n, h⟩, _⟩ => (by rw [hk] at h; cases h), rfl⟩
  · rw [if_neg h0]
    exact .inr ⟨fun h => h0 h.1, rfl⟩

/-! ### Constraints -/

/-- From a type to the ones it is constrained to directly -/
inductive Bound (W : World N T) : T → T → Prop
  | parameter {s k} : W.typeParameter s = true → W.parameterConstraint s = some k → Bound W s k
  | intersection {s p} : W.typeParameter s = false → W.intersection s = true → p ∈ W.types s → Bound W s p

omit [DecidableEq N] [DecidableEq T] in
theorem constrained_iff_bound (W : World N T) (target s : T) : Constrained W target s ↔ s = target ∨ ∃ k, Bound W s k ∧ Constrained W target k := by
  constructor
  · intro h
    cases h with
    | same => exact .inl rfl
    | parameter h1 h2 h3 => exact .inr ⟨_, .parameter h1 h2, h3⟩
    | intersection h1 h2 h3 h4 => exact .inr ⟨_, .intersection h1 h2 h3, h4⟩
  · rintro (rfl | ⟨k, hb, h⟩)
    · exact .same
    · cases hb with
      | parameter h1 h2 => exact .parameter h1 h2 h
      | intersection h1 h2 h3 => exact .intersection h1 h2 h3 h

/-- What answering `false` leaves behind -/
structure Searched (W : World N T) (target : T) (seen seen' : List T) : Prop where
  grows : ∀ x ∈ seen, x ∈ seen'
  closed : ∀ x ∈ seen', x ∈ seen ∨ (x ≠ target ∧ ∀ y, Bound W x y → y ∈ seen')

omit [DecidableEq N] [DecidableEq T] in
theorem Searched.trans {W : World N T} {target : T} {a b c : List T} (h : Searched W target a b) (k : Searched W target b c) : Searched W target a c where
  grows x hx := k.grows x (h.grows x hx)
  closed x hx := (k.closed x hx).elim (fun hb => (h.closed x hb).imp id fun ⟨p, q⟩ => ⟨p, fun y hy => k.grows y (q y hy)⟩) .inr

omit [DecidableEq N] [DecidableEq T] in
theorem Searched.refl (W : World N T) (target : T) (a : List T) : Searched W target a a := ⟨fun _ h => h, fun _ h => .inl h⟩

omit [DecidableEq N] [DecidableEq T] in
theorem some?_false (W : World N T) (target : T) (f : Option T → List T → Option (Bool × List T))
    (hf : ∀ s seen seen', f s seen = some (false, seen') → Searched W target seen seen' ∧ ∀ t, s = some t → t ∈ seen') :
    ∀ ts seen seen', World.constrained.some? f ts seen = some (false, seen') → Searched W target seen seen' ∧ ∀ t ∈ ts, t ∈ seen'
  | [], seen, seen', h => by
    simp only [World.constrained.some?, Option.some.injEq, Prod.mk.injEq, true_and] at h
    subst h; exact ⟨.refl W target _, by simp⟩
  | t :: ts, seen, seen', h => by
    rw [World.constrained.some?, Option.bind_eq_some_iff] at h
    obtain ⟨⟨b, s1⟩, h1, h2⟩ := h
    cases b with
    | true => simp at h2
    | false =>
      obtain ⟨e1, m1⟩ := hf _ _ _ h1
      obtain ⟨e2, m2⟩ := some?_false W target f hf ts s1 seen' (by simpa using h2)
      exact ⟨e1.trans e2, List.forall_mem_cons.2 ⟨e2.grows _ (m1 t rfl), m2⟩⟩

omit [DecidableEq N] [DecidableEq T] in
theorem some?_true (P : T → Prop) (f : Option T → List T → Option (Bool × List T)) (hf : ∀ t seen seen', f (some t) seen = some (true, seen') → P t) :
    ∀ ts seen seen', World.constrained.some? f ts seen = some (true, seen') → ∃ t ∈ ts, P t
  | [], seen, seen', h => by simp [World.constrained.some?] at h
  | t :: ts, seen, seen', h => by
    rw [World.constrained.some?, Option.bind_eq_some_iff] at h
    obtain ⟨⟨b, s1⟩, h1, h2⟩ := h
    cases b with
    | true => exact ⟨t, List.mem_cons_self .., hf _ _ _ h1⟩
    | false =>
      obtain ⟨x, hx, hp⟩ := some?_true P f hf ts s1 seen' (by simpa using h2)
      exact ⟨x, List.mem_cons_of_mem _ hx, hp⟩

omit [DecidableEq N] in
theorem constrained_true (W : World N T) (target : T) : ∀ n s seen seen', W.constrained target n (some s) seen = some (true, seen') → Constrained W target s
  | 0, _, _, _, h => by simp [World.constrained] at h
  | n + 1, s, seen, seen', h => by
    rw [World.constrained] at h
    split at h
    · rename_i he; cases he; exact .same
    · split at h
      · simp at h
      · split at h
        · rename_i ht
          cases hk : W.parameterConstraint s with
          | none =>
            rw [hk] at h
            cases n with
            | zero => simp [World.constrained] at h
            | succ n => simp [World.constrained] at h
          | some k => rw [hk] at h; exact .parameter ht hk (constrained_true W target n k _ _ h)
        · rename_i ht
          split at h
          · rename_i hi
            obtain ⟨p, hp, hc⟩ := some?_true (Constrained W target) _ (fun t => constrained_true W target n t) _ _ _ h
            exact .intersection (by simpa using ht) hi hp hc
          · simp at h

omit [DecidableEq N] in
theorem constrained_false (W : World N T) (target : T) : ∀ n s seen seen', W.constrained target n s seen = some (false, seen') →
    Searched W target seen seen' ∧ ∀ t, s = some t → t ∈ seen'
  | 0, _, _, _, h => by simp [World.constrained] at h
  | n + 1, s, seen, seen', h => by
    rw [World.constrained.eq_def] at h
    simp only at h
    split at h
    · simp at h
    · rename_i hne
      cases s with
      | none =>
        simp only [Option.some.injEq, Prod.mk.injEq, true_and] at h
        subst h; exact ⟨.refl W target _, nofun⟩
      | some s =>
        have hne : s ≠ target := by simpa using hne
        simp only at h
        -- adding the type and then searching what it is bound to
        have add : ∀ mid, Searched W target (s :: seen) seen' → (∀ y, Bound W s y → y ∈ seen') → mid = s → Searched W target seen seen' ∧ ∀ t, some s = some t → t ∈ seen' := by
          rintro _ hs hb rfl
          refine ⟨⟨fun x hx => hs.grows x (List.mem_cons_of_mem _ hx), fun x hx => ?_⟩, fun t ht => by cases ht; exact hs.grows _ (List.mem_cons_self ..)⟩
          rcases hs.closed x hx with h | h
          · rcases List.mem_cons.1 h with rfl | h
            · exact .inr ⟨hne, hb⟩
            · exact .inl h
          · exact .inr h
        split at h
        · rename_i hc
          simp only [Option.some.injEq, Prod.mk.injEq, true_and] at h
          subst h
          exact ⟨.refl W target _, fun t ht => by cases ht; simpa using hc⟩
        · split at h
          · rename_i ht
            obtain ⟨h1, h2⟩ := constrained_false W target n _ _ _ h
            refine add s h1 (fun y hy => ?_) rfl
            cases hy with
            | parameter _ hk => exact h2 y hk
            | intersection h => rw [ht] at h; cases h
          · rename_i ht
            split at h
            · obtain ⟨h1, h2⟩ := some?_false W target _ (fun t => constrained_false W target n t) _ _ _ h
              refine add s h1 (fun y hy => ?_) rfl
              cases hy with
              | parameter h => exact absurd h ht
              | intersection _ _ h => exact h2 y h
            · rename_i hi
              simp only [Option.some.injEq, Prod.mk.injEq, true_and] at h
              subst h
              refine add s (.refl W target _) (fun y hy => ?_) rfl
              cases hy with
              | parameter h => exact absurd h ht
              | intersection _ h => exact absurd h hi

omit [DecidableEq N] in
/-- The search through constraints is exact. -/
theorem constrained_iff (W : World N T) (target : T) (n : Nat) (s : T) (b : Bool) (seen' : List T) (h : W.constrained target n (some s) [] = some (b, seen')) :
    b = true ↔ Constrained W target s := by
  cases b with
  | true => exact ⟨fun _ => constrained_true W target n s _ _ h, fun _ => rfl⟩
  | false =>
    refine ⟨nofun, fun hc => ?_⟩
    obtain ⟨hs, hm0⟩ := constrained_false W target n _ _ _ h
    have hm := hm0 s rfl
    clear hm0
    have : ∀ x ∈ seen', x ≠ target ∧ ∀ y, Bound W x y → y ∈ seen' := fun x hx => (hs.closed x hx).elim (by simp) id
    clear h
    induction hc with
    | same => exact absurd rfl (this _ hm).1
    | parameter h1 h2 _ ih => exact ih ((this _ hm).2 _ (.parameter h1 h2))
    | intersection h1 h2 h3 _ ih => exact ih ((this _ hm).2 _ (.intersection h1 h2 h3))

end Tsgolint.UnnecessaryAssertion
