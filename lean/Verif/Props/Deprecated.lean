import Verif.Spec.Deprecated
/-!
# C104, C105: no-deprecated
-/
namespace Tsgolint.Deprecated

theorem firstTag_iff (l : List Tag) (c : List String) :
    firstTag l = some c ↔ FirstOf (fun t => t.isDeprecated = true) l (.deprecated c) := by
  induction l with
  | nil => simp [firstTag, FirstOf]
  | cons t l ih =>
    cases t with
    | deprecated d =>
      simp only [firstTag, Option.some.injEq]
      constructor
      · rintro rfl; exact ⟨[], l, rfl, rfl, by simp⟩
      · rintro ⟨b, e, he, _, hb⟩
        cases b with
        | nil => simp at he; exact he.1
        | cons x b =>
          simp at he
          exact absurd rfl (he.1 ▸ hb x (by simp))
    | other =>
      simp only [firstTag, ih]
      constructor
      · rintro ⟨b, e, he, hp, hb⟩
        exact ⟨.other :: b, e, by simp [he], hp, List.forall_mem_cons.2 ⟨by simp [Tag.isDeprecated], hb⟩⟩
      · rintro ⟨b, e, he, hp, hb⟩
        cases b with
        | nil => simp at he
        | cons x b =>
          simp at he
          exact ⟨b, e, he.2, hp, fun y hy => hb y (by simp [hy])⟩

theorem firstTag_none (l : List Tag) : firstTag l = none ↔ ∀ t ∈ l, t = Tag.other := by
  induction l with
  | nil => simp [firstTag]
  | cons t l ih => cases t <;> simp [firstTag, ih]

theorem firstTag_append (a b : List Tag) : firstTag (a ++ b) = (firstTag a).or (firstTag b) := by
  induction a with
  | nil => simp [firstTag]
  | cons t a ih => cases t <;> simp [firstTag, ih]

theorem reasonIn_eq (docs : List (List Tag)) : reasonIn docs = ((firstTag docs.flatten).map String.join).getD "" := by
  induction docs with
  | nil => rfl
  | cons t docs ih =>
    simp only [reasonIn, List.flatten_cons, firstTag_append]
    cases h : firstTag t <;> simp [ih]

/-- **C104** The reason that is shown is the text of the first `@deprecated` tag -/
theorem reason_iff (docs : List (List Tag)) (r : String) : reasonIn docs = r ↔ HasReason docs r := by
  rw [reasonIn_eq]
  constructor
  · intro h
    cases hf : firstTag docs.flatten with
    | none => rw [hf] at h; exact Or.inr ⟨(firstTag_none _).1 hf, by simpa using h.symm⟩
    | some c => rw [hf] at h; exact Or.inl ⟨c, (firstTag_iff _ _).1 hf, by simpa using h.symm⟩
  · rintro (⟨c, hc, rfl⟩ | ⟨hn, rfl⟩)
    · rw [(firstTag_iff _ _).2 hc]; rfl
    · rw [(firstTag_none _).2 hn]; rfl

section
variable {S D T : Type} (E : Checker S D T)

theorem firstDeprecated_iff (l : List D) (r : String) :
    firstDeprecated E l = some r ↔ ∃ d, FirstOf (fun d => E.deprecated d = true) l d ∧ HasReason (E.docs d) r := by
  induction l with
  | nil => simp [firstDeprecated, FirstOf]
  | cons d l ih =>
    simp only [firstDeprecated]
    split
    · rename_i hd
      simp only [Option.some.injEq, reason_iff]
      constructor
      · intro h; exact ⟨d, ⟨[], l, rfl, hd, by simp⟩, h⟩
      · rintro ⟨d', ⟨b, c, he, hp, hb⟩, hr⟩
        cases b with
        | nil => simp at he; exact he.1 ▸ hr
        | cons x b =>
          simp at he
          exact absurd hd (he.1 ▸ hb x (by simp))
    · rename_i hd
      rw [ih]
      constructor
      · rintro ⟨d', ⟨b, c, he, hp, hb⟩, hr⟩
        exact ⟨d', ⟨d :: b, c, by simp [he], hp, List.forall_mem_cons.2 ⟨hd, hb⟩⟩, hr⟩
      · rintro ⟨d', ⟨b, c, he, hp, hb⟩, hr⟩
        cases b with
        | nil => simp at he; exact absurd hp (he.1 ▸ hd)
        | cons x b =>
          simp at he
          exact ⟨d', ⟨b, c, he.2, hp, fun y hy => hb y (by simp [hy])⟩, hr⟩

theorem firstDeprecated_none (l : List D) : firstDeprecated E l = none ↔ ∀ d ∈ l, E.deprecated d = false := by
  induction l with
  | nil => simp [firstDeprecated]
  | cons d l ih =>
    simp only [firstDeprecated]
    split
    · rename_i hd; simp [hd]
    · rename_i hd; simp [ih, hd]

/-- **C104** A symbol is deprecated if one of its declarations is; the reason is that of the first such declaration -/
theorem symbol_iff (s : S) (r : String) : ofSymbol E (some s) = some r ↔ SymbolDeprecated E s r :=
  firstDeprecated_iff E _ _

theorem symbol_none (s : S) : ofSymbol E (some s) = none ↔ Current E s := firstDeprecated_none E _

theorem not_current {s : S} {r : String} (h : SymbolDeprecated E s r) : ¬ Current E s := by
  intro hc
  rw [← symbol_iff] at h
  rw [(symbol_none E s).2 hc] at h
  cases h

variable [DecidableEq S]

theorem aliasLoop_more (check : Bool) (target : Option S) : ∀ (n m : Nat) (s : S) (v : Option String),
    aliasLoop E check target n s = some v → n ≤ m → aliasLoop E check target m s = some v
  | 0, _, _, _, h, _ => by cases h
  | n + 1, 0, _, _, _, hm => by omega
  | n + 1, m + 1, s, v, h, hm => by
    simp only [aliasLoop] at h ⊢
    split
    · rename_i h1; rwa [if_pos h1] at h
    · rename_i h1
      rw [if_neg h1] at h
      cases ho : ofSymbol E (some s) with
      | some r => simpa only [ho] using h
      | none =>
        simp only [ho] at h ⊢
        split
        · rename_i h2; rwa [if_pos h2] at h
        · rename_i h2
          rw [if_neg h2] at h
          cases hi : E.immediate s with
          | none => simpa only [hi] using h
          | some s' =>
            simp only [hi] at h ⊢
            split
            · rename_i h3; rwa [if_pos h3] at h
            · rename_i h3
              rw [if_neg h3] at h
              exact aliasLoop_more check target n m s' v h (by omega)

/-- What one gets does not depend on how long one looks -/
theorem search_more (check : Bool) (n m : Nat) (s : Option S) (v : Option String)
    (h : search E n check s = some v) (hm : n ≤ m) : search E m check s = some v := by
  cases s with
  | none => exact h
  | some s =>
    simp only [search] at h ⊢
    split
    · rename_i h1; rwa [if_pos h1] at h
    · rename_i h1
      rw [if_neg h1] at h
      exact aliasLoop_more E _ _ n m s v h hm

theorem loop_sound (check : Bool) (target : Option S) (ht : ∀ t, target = some t → E.isAlias t = false) :
    ∀ (n : Nat) (s : S) (v : Option String), aliasLoop E check target n s = some v →
      (E.isAlias s = true ∨ ¬ (check = true ∧ target = some s)) →
      match v with
      | some r => Found E check target s r
      | none => NotFound E check target s
  | 0, _, _, h, _ => by cases h
  | n + 1, s, v, h, hs => by
    simp only [aliasLoop] at h
    split at h
    · rename_i h1
      simp only [Option.some.injEq] at h
      subst h
      have h1 : E.isAlias s = false := by simpa using h1
      refine ⟨[], s, .start s, by simp, Or.inl h1, ?_⟩
      rcases hs with hs | hs
      · rw [h1] at hs; cases hs
      · rintro (h2 | h2)
        · rw [h1] at h2; cases h2
        · exact absurd h2 hs
    · rename_i h1
      have h1 : E.isAlias s = true := by simpa using h1
      cases ho : ofSymbol E (some s) with
      | some r =>
        simp only [ho, Option.some.injEq] at h
        subst h
        exact ⟨[], s, .start s, by simp, Or.inl h1, (symbol_iff E s r).1 ho⟩
      | none =>
        have hc := (symbol_none E s).1 ho
        simp only [ho] at h
        split at h
        · rename_i h2
          simp only [Option.some.injEq] at h
          subst h
          exact ⟨[], s, .start s, by simp, Or.inr (Or.inl (by simpa using h2)), fun _ => hc⟩
        · rename_i h2
          have h2 : E.declared s = true := by simpa using h2
          cases hi : E.immediate s with
          | none =>
            simp only [hi, Option.some.injEq] at h
            subst h
            exact ⟨[], s, .start s, by simp, Or.inr (Or.inr hi), fun _ => hc⟩
          | some s' =>
            simp only [hi] at h
            split at h
            · rename_i h3
              simp only [Bool.and_eq_true, decide_eq_true_eq] at h3
              simp only [Option.some.injEq] at h
              have ha' := ht s' h3.2.symm
              cases v with
              | some r => exact ⟨[s], s', .next h1 h2 hi (.start s'), by simpa using hc, Or.inr ⟨h3.1, h3.2.symm⟩, (symbol_iff E s' r).1 h⟩
              | none => exact ⟨[s], s', .next h1 h2 hi (.start s'), by simpa using hc, Or.inl ha', fun _ => (symbol_none E s').1 h⟩
            · rename_i h3
              simp only [Bool.and_eq_true, decide_eq_true_eq] at h3
              have := loop_sound check target ht n s' v h (Or.inr (fun hh => h3 ⟨hh.1, hh.2.symm⟩))
              cases v with
              | some r =>
                obtain ⟨b, x, h4, h5, h6, h7⟩ := this
                exact ⟨s :: b, x, .next h1 h2 hi h4, List.forall_mem_cons.2 ⟨hc, h5⟩, h6, h7⟩
              | none =>
                obtain ⟨b, x, h4, h5, h6, h7⟩ := this
                exact ⟨s :: b, x, .next h1 h2 hi h4, List.forall_mem_cons.2 ⟨hc, h5⟩, h6, h7⟩

omit [DecidableEq S] in
theorem Chain.ends {s : S} {x : S} {b : List S} (h : Chain E s b x) (he : E.isAlias s = false) : x = s ∧ b = [] := by
  cases h with
  | start => exact ⟨rfl, rfl⟩
  | next h1 => rw [he] at h1; cases h1

theorem loop_complete (check : Bool) (target : Option S) (ht : ∀ t, target = some t → E.isAlias t = false)
    {s x : S} {b : List S} (h : Chain E s b x) (v : Option String) :
    (∀ y ∈ b, Current E y) → (E.isAlias s = true ∨ ¬ (check = true ∧ target = some s)) →
    (match v with
      | some r => (E.isAlias x = true ∨ (check = true ∧ target = some x)) ∧ SymbolDeprecated E x r
      | none => Ends E x ∧ ((E.isAlias x = true ∨ (check = true ∧ target = some x)) → Current E x)) →
    aliasLoop E check target (b.length + 1) s = some v := by
  induction h with
  | start s =>
    intro _ hs hv
    simp only [aliasLoop]
    cases v with
    | some r =>
      obtain ⟨h1, h2⟩ := hv
      have h1 : E.isAlias s = true := by
        rcases hs with hs | hs
        · exact hs
        · exact h1.resolve_right hs
      simp [h1, (symbol_iff E s r).2 h2]
    | none =>
      obtain ⟨h1, h2⟩ := hv
      cases ha : E.isAlias s with
      | false => simp
      | true =>
        have hc := (symbol_none E s).2 (h2 (Or.inl ha))
        simp only [hc]
        rcases h1 with h1 | h1 | h1
        · rw [ha] at h1; cases h1
        · simp [h1]
        · cases E.declared s <;> simp [h1]
  | next h1 h2 h3 hch ih =>
    rename_i s' y x' b'
    intro hb hs hv
    obtain ⟨hc, hb⟩ := List.forall_mem_cons.1 hb
    rw [List.length_cons, aliasLoop]
    simp only [h1, h2, h3, (symbol_none E _).2 hc, Bool.not_true, Bool.false_eq_true, if_false]
    by_cases h3 : check = true ∧ target = some y
    · rw [if_pos (by simp [h3.1, h3.2])]
      obtain ⟨rfl, rfl⟩ := Chain.ends E hch (ht _ h3.2)
      cases v with
      | some r => rw [(symbol_iff E _ r).2 hv.2]
      | none => rw [(symbol_none E _).2 (hv.2 (Or.inr h3))]
    · rw [if_neg (by simp only [Bool.and_eq_true, decide_eq_true_eq]; exact fun h => h3 ⟨h.1, h.2.symm⟩)]
      exact ih hb (Or.inr h3) hv

/-- **C104** Of an alias, the reason that is shown is that of the first deprecated symbol on the way from it to what it is an alias of -/
theorem search_found (hR : Resolved E) (check : Bool) (s : S) (r : String) :
    (∃ n, search E n check (some s) = some (some r)) ↔ Says E check s r := by
  unfold Says
  simp only [search]
  cases ha : E.isAlias s with
  | false =>
    simp only [Bool.not_false, if_true, Option.some.injEq, exists_const, Bool.false_eq_true, if_false]
    cases check with
    | true => simp [symbol_iff]
    | false => simp
  | true =>
    simp only [Bool.not_true, Bool.false_eq_true, if_false, if_true]
    have ht : ∀ t, E.aliased s = some t → E.isAlias t = false := fun t h => hR s t ha h
    constructor
    · rintro ⟨n, h⟩
      exact loop_sound E check _ ht n s _ h (Or.inl ha)
    · rintro ⟨b, x, h1, h2, h3, h4⟩
      exact ⟨_, loop_complete E check _ ht h1 (some r) h2 (Or.inl ha) ⟨h3, h4⟩⟩

/-- **C104** Nothing is reported if the way has an end and no symbol on it is deprecated -/
theorem search_silent (hR : Resolved E) (check : Bool) (s : S) :
    (∃ n, search E n check (some s) = some none) ↔ Silent E check s := by
  unfold Silent
  simp only [search]
  cases ha : E.isAlias s with
  | false =>
    simp only [Bool.not_false, if_true, Option.some.injEq, exists_const, Bool.false_eq_true, if_false]
    cases check with
    | true => simp [symbol_none]
    | false => simp
  | true =>
    simp only [Bool.not_true, Bool.false_eq_true, if_false, if_true]
    have ht : ∀ t, E.aliased s = some t → E.isAlias t = false := fun t h => hR s t ha h
    constructor
    · rintro ⟨n, h⟩
      exact loop_sound E check _ ht n s _ h (Or.inl ha)
    · rintro ⟨b, x, h1, h2, h3, h4⟩
      exact ⟨_, loop_complete E check _ ht h1 none h2 (Or.inl ha) ⟨h3, h4⟩⟩

theorem loop_prefix (check : Bool) (target : Option S) : ∀ (n : Nat) (s : S), aliasLoop E check target n s = none →
    ∃ b x, b.length = n ∧ Chain E s b x ∧ ∀ y ∈ b, Current E y
  | 0, s, _ => ⟨[], s, rfl, .start s, by simp⟩
  | n + 1, s, h => by
    simp only [aliasLoop] at h
    split at h
    · cases h
    rename_i h1
    cases ho : ofSymbol E (some s) with
    | some r => simp only [ho] at h; cases h
    | none =>
      simp only [ho] at h
      split at h
      · cases h
      rename_i h2
      cases hi : E.immediate s with
      | none => simp only [hi] at h; cases h
      | some s' =>
        simp only [hi] at h
        split at h
        · cases h
        obtain ⟨b, x, hb, hch, hcl⟩ := loop_prefix check target n s' h
        exact ⟨s :: b, x, by simp [hb], .next (by simpa using h1) (by simpa using h2) hi hch,
          List.forall_mem_cons.2 ⟨(symbol_none E s).1 ho, hcl⟩⟩

omit [DecidableEq S] in
theorem Chain.cut {s x : S} {b : List S} (h : Chain E s b x) : ∀ {c : List S} {z : S}, Chain E s c z → b.length < c.length → x ∈ c ∧ ¬ Ends E x := by
  induction h with
  | start s =>
    intro c z hc hl
    cases hc with
    | start => simp at hl
    | next h1 h2 h3 _ => exact ⟨by simp, by rintro (h | h | h) <;> simp_all⟩
  | next h1 h2 h3 _ ih =>
    intro c z hc hl
    cases hc with
    | start => simp at hl
    | next g1 g2 g3 hc =>
      rw [h3] at g3
      cases g3
      have := ih hc (by simpa using hl)
      exact ⟨by simp [this.1], this.2⟩

/-- **C104** The search goes on for ever exactly if the way has no end and no symbol on it is deprecated -/
theorem search_forever (hR : Resolved E) (check : Bool) (s : S) :
    (∀ n, search E n check (some s) = none) ↔ E.isAlias s = true ∧ ∀ n, ∃ b x, b.length = n ∧ Chain E s b x ∧ ∀ y ∈ b, Current E y := by
  constructor
  · intro h
    have ha : E.isAlias s = true := by
      have := h 0
      simp only [search] at this
      split at this
      · cases this
      · rename_i h1; simpa using h1
    refine ⟨ha, fun n => ?_⟩
    have := h n
    simp only [search, ha, Bool.not_true, Bool.false_eq_true, if_false] at this
    exact loop_prefix E _ _ n s this
  · rintro ⟨ha, h⟩ n
    simp only [search, ha, Bool.not_true, Bool.false_eq_true, if_false]
    cases hv : aliasLoop E check (E.aliased s) n s with
    | none => rfl
    | some v =>
      exfalso
      have ht : ∀ t, E.aliased s = some t → E.isAlias t = false := fun t h => hR s t ha h
      have := loop_sound E check _ ht n s v hv (Or.inl ha)
      cases v with
      | some r =>
        obtain ⟨b, x, h1, h2, h3, h4⟩ := this
        obtain ⟨c, z, hl, hc, hcl⟩ := h (b.length + 1)
        exact not_current E h4 (hcl x (Chain.cut E h1 hc (by omega)).1)
      | none =>
        obtain ⟨b, x, h1, h2, h3, h4⟩ := this
        obtain ⟨c, z, hl, hc, hcl⟩ := h (b.length + 1)
        exact (Chain.cut E h1 hc (by omega)).2 h3

omit [DecidableEq S] in
theorem Chain.append {s x z : S} {b c : List S} (h : Chain E s b x) (h2 : Chain E x c z) : Chain E s (b ++ c) z := by
  induction h with
  | start => exact h2
  | next h1 h3 h4 _ ih => exact .next h1 h3 h4 (ih h2)

omit [DecidableEq S] in
theorem Chain.take {s z : S} {c : List S} (h : Chain E s c z) : ∀ n, n ≤ c.length → ∃ x, Chain E s (c.take n) x := by
  induction h with
  | start s => intro n hn; exact ⟨s, by simpa using .start s⟩
  | next h1 h2 h3 _ ih =>
    intro n hn
    cases n with
    | zero => exact ⟨_, .start _⟩
    | succ n =>
      obtain ⟨x, hx⟩ := ih n (by simpa using hn)
      exact ⟨x, .next h1 h2 h3 hx⟩

/-- **C104** The search ends if no chain of aliases is endless -/
theorem search_ends (hR : Resolved E) (check : Bool) (s : S) (bound : Nat) (h : ∀ b x, Chain E s b x → b.length ≤ bound) :
    ∃ n v, search E n check (some s) = some v := by
  refine Classical.byContradiction fun hn => ?_
  have : ∀ n, search E n check (some s) = none := by
    intro n
    cases hv : search E n check (some s) with
    | none => rfl
    | some v => exact absurd ⟨n, v, hv⟩ hn
  obtain ⟨b, x, hl, hc, _⟩ := ((search_forever E hR check s).1 this).2 (bound + 1)
  have := h b x hc
  omega

/-- **C104** (hazard) Two modules that export a name from each other: a use of that name makes the rule run for ever -/
theorem circular_forever (hR : Resolved E) (check : Bool) (s : S) (b : List S) (hb : b ≠ []) (h : Chain E s b s) (hc : ∀ y ∈ b, Current E y) (n : Nat) :
    search E n check (some s) = none := by
  have ha : E.isAlias s = true := by
    cases h with
    | start => exact absurd rfl hb
    | next h1 => exact h1
  have hrep : ∀ k, ∃ c, k ≤ c.length ∧ Chain E s c s ∧ ∀ y ∈ c, Current E y := by
    intro k
    induction k with
    | zero => exact ⟨[], by simp, .start s, by simp⟩
    | succ k ih =>
      obtain ⟨c, h1, h2, h3⟩ := ih
      refine ⟨b ++ c, ?_, Chain.append E h h2, ?_⟩
      · have := List.length_pos_iff.2 hb
        simp only [List.length_append]; omega
      · intro y hy
        rcases List.mem_append.1 hy with hy | hy
        · exact hc y hy
        · exact h3 y hy
  refine (search_forever E hR check s).2 ⟨ha, fun k => ?_⟩ n
  obtain ⟨c, h1, h2, h3⟩ := hrep k
  obtain ⟨x, hx⟩ := Chain.take E h2 k h1
  exact ⟨c.take k, x, by simp [h1], hx, fun y hy => h3 y (List.mem_of_mem_take hy)⟩

/-! ### Calls -/

/-- **C105** A call is reported for the declaration that it resolves to; or, if that is not deprecated, for the value that is called, unless that is a function or method -/
theorem call_iff (hR : Resolved E) (signature : Option (Option D)) (symbol : Option S) (r : String) :
    (∃ n, call E n signature symbol = some (some r)) ↔ ∃ declaration, signature = some declaration ∧ CallSays E declaration symbol r := by
  cases signature with
  | none => simp [call]
  | some decl =>
    simp only [call, Option.some.injEq, exists_eq_left', CallSays]
    by_cases hd : decl.any E.deprecated = true
    · obtain ⟨d, rfl, hdd⟩ : ∃ d, decl = some d ∧ E.deprecated d = true := by
        cases decl with
        | none => cases hd
        | some d => exact ⟨d, rfl, hd⟩
      simp [hdd, reason_iff]
    · simp only [hd, Bool.false_eq_true, if_false]
      have h1 : ∀ d, decl = some d → E.deprecated d = false := by rintro d rfl; simpa using hd
      have h2 : ¬ ∃ d, decl = some d ∧ E.deprecated d = true ∧ HasReason (E.docs d) r := by
        rintro ⟨d, h, h3, _⟩; rw [h1 d h] at h3; cases h3
      rw [or_iff_right h2, and_iff_right h1]
      cases symbol with
      | none => simp
      | some s =>
        simp only [Option.some.injEq, exists_eq_left']
        cases hf : isFunction E s with
        | false => simp [search_found E hR]
        | true =>
          simp only [Bool.not_true, Bool.false_eq_true, if_false, true_and, Bool.true_eq_false, false_and, false_or]
          rw [← search_found E hR, ← search_silent E hR]
          constructor
          · rintro ⟨n, h⟩
            obtain ⟨v, hv, h⟩ := Option.map_eq_some_iff.1 h
            cases v with
            | some r' => simp only [Option.some.injEq] at h; subst h; exact Or.inl ⟨n, hv⟩
            | none =>
              simp only at h
              split at h
              · rename_i hn
                refine Or.inr ⟨⟨n, hv⟩, by simpa using hn, ?_⟩
                cases hr : resolved E s with
                | none => rw [hr] at h; cases h
                | some t => rw [hr] at h; exact ⟨t, rfl, (symbol_iff E t r).1 h⟩
              · cases h
          · rintro (⟨n, h⟩ | ⟨⟨n, h⟩, hn, t, ht, h2⟩)
            · exact ⟨n, by rw [h]; rfl⟩
            · refine ⟨n, ?_⟩
              rw [h, hn, ht]
              simp [(symbol_iff E t r).2 h2]

/-- **C105** A call of a function with several signatures is not reported if the one it resolves to is not deprecated, whatever the others are -/
theorem other_overload (n : Nat) (s : S) (d : D) (hd : E.deprecated d = false) (hf : isFunction E s = true) (ha : E.isAlias s = false) :
    call E n (some (some d)) (some s) = some none := by
  simp [call, hd, hf, search, ha]

/-! ### Destructuring -/

omit [DecidableEq S] in
theorem source_nested (base : Place T) (names : List String) (hn : ∀ n ∈ names, n ≠ "") :
    source E (nested base names) = (source E base).bind fun t => along E t names := by
  induction names generalizing base with
  | nil => cases h : source E base <;> simp [nested, along, h]
  | cons n ns ih =>
    obtain ⟨h1, h2⟩ := List.forall_mem_cons.1 hn
    rw [nested, ih _ h2]
    simp only [source, h1, if_false, Bool.false_eq_true, along]
    cases source E base with
    | none => rfl
    | some t => simp only [Option.bind_some]; cases E.property t n <;> rfl

omit [DecidableEq S] in
/-- **C105** In `const { n₁: { n₂: { … } } } = x` the properties are looked up in the type of `x.n₁.n₂` -/
theorem destructured_type (t : T) (names : List String) (hn : ∀ n ∈ names, n ≠ "") :
    source E (nested (.variable (some t)) names) = along E t names := by
  rw [source_nested E _ _ hn]; rfl

omit [DecidableEq S] in
theorem ofSymbol_iff (s : Option S) (r : String) : ofSymbol E s = some r ↔ ∃ x, s = some x ∧ SymbolDeprecated E x r := by
  cases s with
  | none => simp [ofSymbol]
  | some s => simp [symbol_iff]

omit [DecidableEq S] in
theorem ofSymbol_none (s : Option S) : ofSymbol E s = none ↔ ∀ x, s = some x → Current E x := by
  cases s with
  | none => simp [ofSymbol]
  | some s => simp [symbol_none]

theorem search_opt (hR : Resolved E) (s : Option S) (r : String) :
    (∃ n, search E n true s = some (some r)) ↔ ∃ x, s = some x ∧ Says E true x r := by
  cases s with
  | none => simp [search]
  | some s => simp [search_found E hR]

theorem search_opt_none (hR : Resolved E) (s : Option S) :
    (∃ n, search E n true s = some none) ↔ ∀ x, s = some x → Silent E true x := by
  cases s with
  | none => simp [search]
  | some s => simp [search_silent E hR]

theorem orElse_iff {a b : Option (Option String)} {r : String} :
    orElse a b = some (some r) ↔ a = some (some r) ∨ (a = some none ∧ b = some (some r)) := by
  cases a with
  | none => simp [orElse]
  | some v => cases v <;> simp [orElse]

theorem propertyUse_iff (hR : Resolved E) (symbol property : Option S) (r : String) :
    (∃ n, propertyUse E n symbol property = some (some r)) ↔ PropertySays E symbol property r := by
  unfold PropertySays
  rw [← search_opt E hR, ← search_opt_none E hR, ← ofSymbol_iff, ← ofSymbol_none, ← ofSymbol_iff, ← ofSymbol_none]
  have hv : (∃ s v, symbol = some s ∧ E.shorthandValue s = some v ∧ SymbolDeprecated E v r) ↔ ofSymbol E (symbol.bind E.shorthandValue) = some r := by
    rw [ofSymbol_iff]
    cases symbol <;> simp
  rw [hv]
  simp only [propertyUse, orElse_iff, Option.some.injEq, exists_or, exists_and_right]

/-- Asking again at the end finds nothing more -/
theorem propertyUse_search (n : Nat) (symbol property : Option S) :
    orElse (propertyUse E n symbol property) (search E n true symbol) = propertyUse E n symbol property := by
  unfold propertyUse
  cases h : search E n true symbol with
  | none => rfl
  | some v =>
    cases v with
    | some r => rfl
    | none =>
      simp only [orElse, Option.bind_some]
      cases ofSymbol E property with
      | some r => rfl
      | none =>
        simp only [Option.bind_some]
        cases ofSymbol E symbol with
        | some r => rfl
        | none =>
          simp only [Option.bind_some]
          cases ofSymbol E (symbol.bind E.shorthandValue) <;> rfl

/-- **C105** A name in `{ a }`, `{ a: b }` taken from a value is reported if the property is deprecated, or if the name itself stands for something deprecated -/
theorem destructured_iff (hR : Resolved E) (b : Binding T) (symbol : Option S) (text : String) (t : T) (ht : b.source E = some t)
    (hk : b.key ≠ .computed) (r : String) :
    (∃ n, deprecation E n (.binding b) symbol text = some (some r)) ↔
      PropertySays E symbol (E.property t (match b.key with | .named m => m | _ => text)) r := by
  rw [← propertyUse_iff E hR]
  cases hkey : b.key with
  | computed => exact absurd hkey hk
  | missing => simp [deprecation, ht, hkey, propertyUse_search]
  | named m => simp [deprecation, ht, hkey, propertyUse_search]

/-- **C105** A name in an object literal `{ a }` is reported if the variable, or the property it becomes, is deprecated -/
theorem shorthand_iff (hR : Resolved E) (t : T) (symbol : Option S) (text : String) (r : String) :
    (∃ n, deprecation E n (.shorthand (some t)) symbol text = some (some r)) ↔ PropertySays E symbol (E.property t text) r := by
  rw [← propertyUse_iff E hR]
  simp [deprecation, propertyUse_search]

/-- **C105** Any other name is reported if what it stands for is deprecated, or an alias on the way there -/
theorem plain_iff (hR : Resolved E) (symbol : S) (text : String) (r : String) :
    (∃ n, deprecation E n .other (some symbol) text = some (some r)) ↔ Says E true symbol r := search_found E hR true symbol r

/-- **C105** (hazard) Which part of the element a name is makes no difference: in `const { x: a = b } = o`, if the property `x` is deprecated, `x`, `a` and `b` are all reported -/
theorem all_parts (n : Nat) (b b' : Binding T) (symbol : S) (text text' : String) (t : T) (p : S) (m : String)
    (hb : b' = { b with role := b'.role }) (ht : b.source E = some t) (hk : b.key = .named m) (hp : E.property t m = some p)
    (r : String) (hd : SymbolDeprecated E p r) (hs : search E n true (some symbol) = some none) :
    deprecation E n (.binding b) (some symbol) text = some (some r) ∧ deprecation E n (.binding b') (some symbol) text' = some (some r) := by
  have h1 : b'.key = b.key := by rw [hb]
  have h2 : b'.source E = b.source E := by rw [hb]; rfl
  have hd := (symbol_iff E p r).2 hd
  simp [deprecation, ht, hk, hp, h1, h2, propertyUse, orElse, hs, hd]

/-- **C105** (hazard) In `const { a = b } = o` the local variable `b` is reported if `o` has a deprecated property of that name -/
theorem default_reported (n : Nat) (b : Binding T) (symbol : S) (text : String) (t : T) (p : S)
    (ht : b.source E = some t) (hk : b.key = .missing) (hp : E.property t text = some p)
    (r : String) (hd : SymbolDeprecated E p r) (hs : search E n true (some symbol) = some none) :
    deprecation E n (.binding { b with role := .initializer }) (some symbol) text = some (some r) := by
  have hd := (symbol_iff E p r).2 hd
  have h2 : ({ b with role := .initializer } : Binding T).source E = some t := ht
  rw [deprecation, h2]
  simp only [hk, hp, propertyUse, orElse, hs, hd, Option.bind_some]

/-! ### What is reported -/

omit [DecidableEq S] in
/-- Inside an import: there is one above, with no file, block, function or class in between -/
theorem insideImport_iff (up : List Kind) :
    insideImport up = true ↔ ∃ a c, up = a ++ .importDeclaration :: c ∧ ∀ k ∈ a, k = Kind.other := by
  induction up with
  | nil => simp [insideImport]
  | cons k up ih =>
    cases k
    case importDeclaration => simp only [insideImport, true_iff]; exact ⟨[], up, rfl, by simp⟩
    case other =>
      simp only [insideImport, if_true, ih]
      constructor
      · rintro ⟨a, c, h, ha⟩; exact ⟨.other :: a, c, by simp [h], List.forall_mem_cons.2 ⟨rfl, ha⟩⟩
      · rintro ⟨a, c, h, ha⟩
        cases a with
        | nil => simp at h
        | cons x a => simp at h; exact ⟨a, c, h.2, fun y hy => ha y (by simp [hy])⟩
    all_goals
      simp only [insideImport, reduceCtorEq, if_false, Bool.false_eq_true, false_iff]
      rintro ⟨a, c, h, ha⟩
      cases a with
      | nil => simp at h
      | cons x a => simp at h; exact absurd (h.1.symm ▸ ha x (by simp)) (by simp)

/-- **C105** A name is a callee if it, or the property access it is the name in, is what is called -/
theorem callLike_iff (up : List Link) (n : Nat) :
    callLike up = some n ↔ ∃ c, up = List.replicate n .accessName ++ .callee :: c := by
  induction up generalizing n with
  | nil => simp [callLike]
  | cons l up ih =>
    cases l
    case accessName =>
      simp only [callLike, Option.map_eq_some_iff]
      constructor
      · rintro ⟨m, hm, rfl⟩
        obtain ⟨c, hc⟩ := (ih m).1 hm
        exact ⟨c, by simp [hc, List.replicate_succ]⟩
      · rintro ⟨c, hc⟩
        cases n with
        | zero => simp at hc
        | succ n => exact ⟨n, (ih n).2 ⟨c, by simpa [List.replicate_succ] using hc⟩, rfl⟩
    case callee =>
      simp only [callLike, Option.some.injEq]
      constructor
      · rintro rfl; exact ⟨up, rfl⟩
      · rintro ⟨c, hc⟩
        cases n with
        | zero => rfl
        | succ n => simp [List.replicate_succ] at hc
    case other =>
      simp only [callLike, reduceCtorEq, false_iff]
      rintro ⟨c, hc⟩
      cases n <;> simp [List.replicate_succ] at hc

/-- **C105** A name is reported exactly if what it stands for is deprecated, and it is not itself a declaration, part of an import, part of an export that is left out, or allowed -/
theorem check_iff (n : Nat) (i : Identifier S D T) (r : String) :
    check E n i = some (some r) ↔
      i.isExport.skips = false ∧ isDeclaration i.parent i.isName i.isValue = false ∧
      (¬ ∃ a c, i.up = a ++ .importDeclaration :: c ∧ ∀ k ∈ a, k = Kind.other) ∧
      i.allowed = false ∧ deprecation E n i.use i.symbol i.text = some (some r) := by
  rw [← insideImport_iff]
  unfold check
  cases i.isExport.skips <;> cases isDeclaration i.parent i.isName i.isValue <;> cases insideImport i.up <;> cases i.allowed <;>
    simp [Option.map_eq_some_iff]

omit [DecidableEq S] in
/-- **C105** In `export { x as y }` only `y` is looked at, and only if no `@deprecated` is written there -/
theorem specifier_iff (isPropertyName : Bool) (tags : List (List Tag)) :
    (Export.specifier isPropertyName tags).skips = false ↔ isPropertyName = false ∧ ∀ t ∈ tags.flatten, t = Tag.other := by
  simp only [Export.skips, Bool.or_eq_false_iff, List.any_eq_false, List.mem_flatten]
  refine and_congr_right fun _ => ⟨?_, ?_⟩
  · rintro h t ⟨l, hl, ht⟩
    have := h l hl
    simp only [List.any_eq_true, not_exists, not_and] at this
    have := this t ht
    cases t <;> simp_all [Tag.isDeprecated]
  · intro h l hl
    simp only [List.any_eq_true, not_exists, not_and]
    intro t ht
    rw [h t ⟨l, hl, ht⟩]; simp [Tag.isDeprecated]

/-- **C105** `object[key]` is reported exactly if the key's type is one literal that names a deprecated property, and the object's type is not allowed -/
theorem element_iff (key : Option String) (object : T) (allowed : Bool) (r : String) :
    checkElement E key object allowed = some r ↔ ∃ k p, key = some k ∧ E.property object k = some p ∧ SymbolDeprecated E p r ∧ allowed = false := by
  unfold checkElement
  cases key with
  | none => simp
  | some k =>
    cases hp : E.property object k with
    | none => simp [ofSymbol, hp]
    | some p =>
      simp only [Option.bind_some, Option.bind_eq_some_iff, symbol_iff, Option.some.injEq, exists_and_left, exists_eq_left', hp]
      cases allowed <;> simp

/-- **C105** A property in an object literal is reported exactly if the type that is expected there has a deprecated property of that name, and it is not allowed -/
theorem property_iff (name : PropertyName) (type : Option T) (allowed : Bool) (r : String) :
    checkProperty E name.text type allowed = some r ↔
      ∃ m t p, name.text = some m ∧ type = some t ∧ E.property t m = some p ∧ E.deprecatedSymbol p = true ∧ SymbolDeprecated E p r ∧ allowed = false := by
  unfold checkProperty
  cases name.text with
  | none => simp
  | some m =>
    cases type with
    | none => simp
    | some t =>
      cases hp : E.property t m with
      | none => simp [hp]
      | some p =>
        cases hd : E.deprecatedSymbol p with
        | false => simp [hd, hp]
        | true => cases allowed <;> simp [hd, Option.bind_eq_some_iff, symbol_iff, hp]

omit [DecidableEq S] in
/-- **C105** The message has the reason exactly if there is one -/
theorem message_iff (trim : String → String) (name reason : String) :
    (message trim name reason = ("deprecated", "`" ++ name ++ "` is deprecated.") ↔ reason = "") ∧
    (message trim name reason = ("deprecatedWithReason", "`" ++ name ++ "` is deprecated. " ++ trim reason) ↔ reason ≠ "") := by
  unfold message
  by_cases h : reason = "" <;> simp [h]

omit [DecidableEq S] in
/-- **C105** What is called counts as a function if the first declaration of the symbol, after resolving an alias, is a function or method -/
theorem function_iff (s : S) : isFunction E s = true ↔
    ∃ t d ds, ((E.isAlias s = true ∧ E.aliased s = some t) ∨ (E.isAlias s = false ∧ t = s)) ∧ E.declarations t = d :: ds ∧ E.functionLike d = true := by
  unfold isFunction resolved
  cases ha : E.isAlias s with
  | true =>
    simp only [if_true, true_and, Bool.true_eq_false, false_and, or_false]
    cases E.aliased s with
    | none => simp
    | some t => cases h : E.declarations t <;> simp [h]
  | false =>
    simp only [Bool.false_eq_true, if_false, false_and, true_and, false_or]
    cases h : E.declarations s with
    | nil => simp [h]
    | cons d ds =>
      simp only [Option.bind_some, h, List.head?_cons, Option.any_some]
      exact ⟨fun h' => ⟨s, d, ds, rfl, h, h'⟩, by rintro ⟨t, d', ds', rfl, h1, h2⟩; rw [h] at h1; cases h1; exact h2⟩

omit [DecidableEq S] in
/-- **C105** The same for a parameter `{ n₁: { n₂: { … } } }` -/
theorem parameter_type (t : T) (names : List String) (hn : ∀ n ∈ names, n ≠ "") :
    source E (nested (.parameter t) names) = along E t names := by
  rw [source_nested E _ _ hn]; rfl

omit [DecidableEq S] in
/-- **C105** Names in `{…}` are looked up in that type, or if it is not known, in the type of the pattern -/
theorem object_source (b : Binding T) (t : T) (names : List String) (hn : ∀ n ∈ names, n ≠ "") (ha : b.array = false)
    (hb : b.place = nested (.variable (some t)) names) : b.source E = (along E t names).or b.patternType := by
  unfold Binding.source
  rw [hb, destructured_type E t names hn, ha]
  cases along E t names <;> rfl

omit [DecidableEq S] in
/-- **C105** Names in `[…]` are looked up in the type of the first element, or of the whole if there is none -/
theorem array_source (b : Binding T) (t u : T) (names : List String) (hn : ∀ n ∈ names, n ≠ "") (ha : b.array = true)
    (hb : b.place = nested (.variable (some t)) names) (hu : along E t names = some u) :
    b.source E = some (match E.property u "0" with | some p => E.typeOf p | none => u) := by
  unfold Binding.source
  rw [hb, destructured_type E t names hn, ha, hu]
  simp only [Option.map_some, if_true, first]
  cases E.property u "0" <;> rfl

omit [DecidableEq S] in
/-- **C105** In `[{ … }]` the type is not known -/
theorem inArray_source (array : Bool) (up : Place T) : source E (.element array .missing up) = none := by
  simp only [source]
  cases source E up <;> rfl

/-- **C105** A JSX attribute is reported if the property of that name is deprecated -/
theorem attribute_iff (n : Nat) (symbol : Option S) (text : String) (p : S) (r : String) :
    deprecation E n (.attribute (some p)) symbol text = some (some r) ↔ SymbolDeprecated E p r := by
  simp [deprecation, symbol_iff]

/-- **C105** Nothing is reported in `{ [key]: name }`; and if no type is known, only what the name itself stands for -/
theorem binding_otherwise (n : Nat) (b : Binding T) (symbol : Option S) (text : String) :
    (b.source E = none → deprecation E n (.binding b) symbol text = search E n true symbol) ∧
    (∀ t, b.source E = some t → b.key = .computed → deprecation E n (.binding b) symbol text = some none) := by
  constructor
  · intro h; simp [deprecation, h]
  · intro t h hk; simp [deprecation, h, hk]

omit [DecidableEq S] in
/-- **C105** What counts as a declaration: the name of a variable, class, member, import or array element; the key, not the value, of a property; anything directly under a function, an enum, an interface, a type, a signature or a parameter -/
theorem declaration_iff (p : Parent) (isName isValue : Bool) : isDeclaration p isName isValue = true ↔
    ((p = .arrayElement ∨ p = .named) ∧ isName = true) ∨ (p = .objectProperty ∧ isValue = false) ∨ p = .whole := by
  cases p <;> cases isName <;> cases isValue <;> decide

omit [DecidableEq S] in
/-- **C105** A property is shown by its name; the empty one in quotes -/
theorem shownName_iff (name : String) : (name = "" → shownName name = "\"\"") ∧ (name ≠ "" → shownName name = name) := by
  constructor <;> intro h <;> simp [shownName, h]

/-- **C105** The name of a property in an object literal is known if it is written out, or is of a literal type -/
theorem propertyName_iff (name : PropertyName) (m : String) :
    name.text = some m ↔ name = .plain m ∨ name = .computedLiteral m ∨ name = .computed (some m) := by
  cases name <;> simp [PropertyName.text]

end

/-! ### Examples -/

/-- Symbols: 0 is `export { 1 }`, with 2 in between, 3 is deprecated; 4 and 5 are exported from each other.  A type is `0` or `1`. -/
def sample : Checker Nat Nat Nat where
  isAlias s := s = 0 ∨ s = 2 ∨ s = 4 ∨ s = 5
  declarations s := [s]
  deprecated d := d = 3
  docs d := if d = 3 then [[.other], [.other, .deprecated ["use", " y"], .deprecated ["z"]]] else []
  aliased s := if s = 4 ∨ s = 5 then some 9 else some 3
  declared _ := true
  immediate s := if s = 0 then some 2 else if s = 2 then some 3 else if s = 4 then some 5 else some 4
  property t n := if t = 0 ∧ n = "in" then some 6 else if t = 1 ∧ n = "x" then some 3 else none
  typeOf s := if s = 6 then 1 else 0
  functionLike d := d = 7
  shorthandValue _ := none
  deprecatedSymbol s := s = 3

theorem sample_resolved : Resolved sample := by
  intro s t _ h
  simp only [sample] at h ⊢
  split at h <;> cases h <;> rfl

example : search sample 2 true (some 0) = some (some "use y") := by decide
example : search sample 3 false (some 0) = some none := by decide
example : Says sample true 0 "use y" := (search_found sample sample_resolved true 0 _).1 ⟨2, by decide⟩
example : Silent sample false 0 := (search_silent sample sample_resolved false 0).1 ⟨3, by decide⟩
example : Silent sample true 8 := (search_silent sample sample_resolved true 8).1 ⟨3, by decide⟩
/-- a circle -/
theorem sample_circle : Chain sample 4 [4, 5] 4 := .next (y := 5) (by decide) rfl rfl (.next (y := 4) (by decide) rfl rfl (.start 4))
example (n : Nat) : search sample n true (some 4) = none :=
  circular_forever sample sample_resolved true 4 [4, 5] (by simp) sample_circle (by simp [Current, sample]) n
/-- no circle from 0 -/
example : ∃ n v, search sample n true (some 0) = some v := by
  refine search_ends sample sample_resolved true 0 2 fun b x h => ?_
  cases h with
  | start => simp
  | next h1 h2 h3 h =>
    cases h3
    cases h with
    | start => simp
    | next h1 h2 h3 h =>
      cases h3
      cases h with
      | start => simp
      | next h1 h2 h3 h => cases h1
example : call sample 3 (some (some 3)) none = some (some "use y") := by decide
example : call sample 3 (some none) (some 0) = some (some "use y") := by decide
/-- another overload: the function's first declaration is 7 -/
example : call sample 3 (some (some 8)) (some 7) = some none := other_overload sample 3 7 8 (by decide) (by decide) (by decide)
example : source sample (nested (.variable (some 0)) ["in"]) = some 1 := by
  rw [destructured_type sample 0 ["in"] (by decide)]; decide
/-- `const { in: { x: a = b } } = o` -/
def sampleBinding : Binding Nat := { role := .key, key := .named "x", array := false, place := .element false (.named "in") (.variable (some 0)), patternType := none }
example : deprecation sample 1 (.binding sampleBinding) (some 8) "x" = some (some "use y") ∧
    deprecation sample 1 (.binding { sampleBinding with role := .initializer }) (some 8) "b" = some (some "use y") :=
  all_parts sample 1 sampleBinding _ 8 "x" "b" 1 3 "x" rfl (by decide) rfl (by decide) "use y" ((symbol_iff sample 3 _).1 (by decide)) (by decide)
/-- `const { in: { a = x } } = o` with a local variable `x` -/
example : deprecation sample 1 (.binding { sampleBinding with key := .missing, role := .initializer }) (some 8) "x" = some (some "use y") :=
  default_reported sample 1 { sampleBinding with key := .missing } 8 "x" 1 3 (by decide) rfl (by decide) "use y" ((symbol_iff sample 3 _).1 (by decide)) (by decide)
/-- the hypotheses of `destructured_iff` -/
example : ∃ n, deprecation sample n (.binding sampleBinding) (some 8) "x" = some (some "use y") :=
  (destructured_iff sample sample_resolved sampleBinding (some 8) "x" 1 (by decide) (by decide) _).2
    ((propertyUse_iff sample sample_resolved _ _ _).1 ⟨1, by decide⟩)
example : checkElement sample (some "x") 1 false = some "use y" := by decide
example : checkProperty sample (PropertyName.plain "x").text (some 1) false = some "use y" := by decide
example : insideImport [.other, .importDeclaration, .sourceFile] = true := by decide
example : insideImport [.other, .block, .importDeclaration] = false := by decide
example : callLike [.accessName, .callee, .other] = some 1 := by decide
/-- a use of 0 in a block -/
example : check sample 3 { isExport := .none, parent := .other, isName := false, isValue := false, up := [.other, .block], use := .other, symbol := some 0, text := "f", allowed := false } = some (some "use y") := by decide
example : isFunction sample 7 = true ∧ isFunction sample 0 = false := by decide
/-- `[…]` of a type without a property `0` -/
example : Binding.source sample { sampleBinding with array := true } = some 1 := by decide
example : Binding.source sample { sampleBinding with place := .element true .missing .other, patternType := some 1 } = some 1 := by decide
example : message id "f" "use y" = ("deprecatedWithReason", "`f` is deprecated. use y") := by decide

end Tsgolint.Deprecated
