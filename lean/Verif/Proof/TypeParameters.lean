import Verif.Spec.TypeParameters
/-! # Counting uses of type parameters: lemmas -/
namespace Tsgolint.TypeParameters
variable {T S N : Type} [DecidableEq T] [DecidableEq S] [DecidableEq N]

/-! ## What visits preserve -/

/-- A relation between the states before and after that all steps respect. -/
structure Steps (targets : List S) (R : State T S N → State T S N → Prop) : Prop where
  refl : ∀ s, R s s
  trans : ∀ a b c, R a b → R b c → R a c
  bump : ∀ s t, R s (s.bump t)
  use : ∀ s x m, R s (s.use targets x m)
  seen : ∀ s c, c ∉ s.constraints → R s { s with constraints := c :: s.constraints }
  defaulted : ∀ s d, s.default = none → R s { s with default := some d }

theorem visitAll_of {f : Visit T → State T S N → Option (State T S N)} {R : State T S N → State T S N → Prop} (refl : ∀ s, R s s)
    (trans : ∀ a b c, R a b → R b c → R a c) (h : ∀ v s s', f v s = some s' → R s s') : ∀ vs s s', visitAll f vs s = some s' → R s s' := by
  intro vs
  induction vs with
  | nil => intro s s' e; simp only [visitAll, Option.some.injEq] at e; subst e; exact refl _
  | cons v vs ih =>
    intro s s' e
    rw [visitAll] at e
    split at e
    · simp only [Option.some.injEq] at e; subst e; exact refl _
    · obtain ⟨u, e1, e2⟩ := Option.bind_eq_some_iff.1 e
      exact trans _ _ _ (h _ _ _ e1) (ih _ _ e2)

theorem visit_of {targets : List S} {R : State T S N → State T S N → Prop} (hR : Steps targets R) (E : Env T S N) (fc : Bool) :
    ∀ n v s s', visit E fc targets n v s = some s' → R s s' := by
  intro n
  induction n with
  | zero => intro v s s' e; simp [visit] at e
  | succ n ih =>
    intro v s s' e
    rw [visit] at e
    split at e
    · simp only [Option.some.injEq] at e; subst e; exact hR.refl _
    · split at e
      · simp only [Option.some.injEq] at e; subst e; exact hR.bump _ _
      · split at e
        · rename_i d _
          obtain ⟨u, e1, e2⟩ := Option.bind_eq_some_iff.1 e
          refine hR.trans _ _ _ (hR.bump s v.type) (hR.trans _ _ _ (hR.use _ d.symbol v.many) (hR.trans _ u _ ?_ ?_))
          · unfold visitConstraint at e1
            split at e1
            · split at e1
              · simp only [Option.some.injEq] at e1; subst e1; exact hR.refl _
              · rename_i hc
                exact hR.trans _ _ _ (hR.seen _ _ (by simpa using hc)) (ih _ _ _ e1)
            · simp only [Option.some.injEq] at e1; subst e1; exact hR.refl _
          · unfold visitDefault at e2
            split at e2
            · split at e2
              · simp only [Option.some.injEq] at e2; subst e2; exact hR.refl _
              · rename_i hc
                exact hR.trans _ _ _ (hR.defaulted _ _ (by simpa using hc)) (ih _ _ _ e2)
            · simp only [Option.some.injEq] at e2; subst e2; exact hR.refl _
        · simp only [Option.some.injEq] at e; subst e; exact hR.bump _ _
        · exact hR.trans _ _ _ (hR.bump _ _) (visitAll_of hR.refl hR.trans ih _ _ _ e)

/-- Counts, usages and what has been seen only grow; the targets left only get fewer. -/
structure Grows (s s' : State T S N) : Prop where
  counts : ∀ x, s.counts x ≤ s'.counts x
  usages : ∀ t, s.usages t ≤ s'.usages t
  remaining : s'.remaining ≤ s.remaining
  constraints : ∃ new, s'.constraints = new ++ s.constraints
  default : ∀ d, s.default = some d → s'.default = some d

omit [DecidableEq T] [DecidableEq N] in
theorem use_counts (targets : List S) (s : State T S N) (x : S) (m : Bool) (y : S) : s.counts y ≤ (s.use targets x m).counts y := by
  unfold State.use
  split <;> try exact Nat.le_refl _
  split <;> try exact Nat.le_refl _
  split <;> try exact Nat.le_refl _
  simp only
  split
  · rename_i e; subst e; split <;> omega
  · exact Nat.le_refl _

omit [DecidableEq T] [DecidableEq N] in
theorem use_remaining (targets : List S) (s : State T S N) (x : S) (m : Bool) : (s.use targets x m).remaining ≤ s.remaining := by
  unfold State.use
  split <;> try exact Nat.le_refl _
  split <;> try exact Nat.le_refl _
  split <;> try exact Nat.le_refl _
  simp only
  split <;> split <;> omega

omit [DecidableEq T] [DecidableEq N] in
theorem use_same (targets : List S) (s : State T S N) (x : S) (m : Bool) :
    (s.use targets x m).usages = s.usages ∧ (s.use targets x m).constraints = s.constraints ∧ (s.use targets x m).default = s.default := by
  unfold State.use
  split
  · exact ⟨rfl, rfl, rfl⟩
  · split
    · exact ⟨rfl, rfl, rfl⟩
    · split <;> exact ⟨rfl, rfl, rfl⟩

theorem Grows.rfl' (s : State T S N) : Grows s s := ⟨fun _ => Nat.le_refl _, fun _ => Nat.le_refl _, Nat.le_refl _, ⟨[], rfl⟩, fun _ h => h⟩

theorem grows_steps (targets : List S) : Steps targets (Grows (T := T) (N := N)) where
  refl := Grows.rfl'
  trans a b c h h' := ⟨fun x => Nat.le_trans (h.counts x) (h'.counts x), fun x => Nat.le_trans (h.usages x) (h'.usages x), Nat.le_trans h'.remaining h.remaining,
    by obtain ⟨n, e⟩ := h.constraints; obtain ⟨m, e'⟩ := h'.constraints; exact ⟨m ++ n, by rw [e', e, List.append_assoc]⟩, fun d hd => h'.default _ (h.default _ hd)⟩
  bump s t := ⟨fun _ => Nat.le_refl _, fun x => by simp only [State.bump]; split <;> omega, Nat.le_refl _, ⟨[], rfl⟩, fun _ h => h⟩
  use s x m := by
    obtain ⟨h1, h2, h3⟩ := use_same targets s x m
    exact ⟨use_counts _ _ _ _, fun t => by rw [h1]; exact Nat.le_refl _, use_remaining _ _ _ _, ⟨[], by rw [h2]; rfl⟩, fun d h => by rw [h3]; exact h⟩
  seen s c _ := ⟨fun _ => Nat.le_refl _, fun _ => Nat.le_refl _, Nat.le_refl _, ⟨[c], rfl⟩, fun _ h => h⟩
  defaulted s d h := ⟨fun _ => Nat.le_refl _, fun _ => Nat.le_refl _, Nat.le_refl _, ⟨[], rfl⟩, fun _ h' => by rw [h] at h'; cases h'⟩

/-- The number of targets left is right. -/
def Right (targets : List S) (c : S → Nat) (remaining : Nat) : Prop := remaining = targets.countP fun x => decide (c x ≤ 2)

omit [DecidableEq S] in
theorem countP_change (l : List S) (hn : l.Nodup) (x : S) (hx : x ∈ l) (p q : S → Bool) (hp : p x = true) (hq : q x = false) (h : ∀ y, y ≠ x → q y = p y) :
    l.countP q + 1 = l.countP p := by
  induction l with
  | nil => cases hx
  | cons a l ih =>
    simp only [List.nodup_cons] at hn
    by_cases ha : a = x
    · subst ha
      have : l.countP q = l.countP p := List.countP_congr fun y hy => by rw [h y (fun e => hn.1 (e ▸ hy))]
      simp [List.countP_cons, hp, hq, this]
    · have hx' : x ∈ l := by rcases List.mem_cons.1 hx with e | e; exact absurd e.symm ha; exact e
      have := ih hn.2 hx'
      simp only [List.countP_cons, h a ha]
      omega

omit [DecidableEq S] in
theorem countP_same (l : List S) (x : S) (p q : S → Bool) (h : ∀ y, q y = p y) : l.countP q = l.countP p := List.countP_congr fun y _ => by rw [h y]

omit [DecidableEq T] [DecidableEq N] in
theorem use_right (targets : List S) (hn : targets.Nodup) (s : State T S N) (x : S) (m : Bool) (h : Right targets s.counts s.remaining) :
    Right targets (s.use targets x m).counts (s.use targets x m).remaining := by
  unfold State.use
  split <;> try exact h
  split <;> try exact h
  split <;> try exact h
  rename_i h0 hc h2
  have hx : x ∈ targets := by simpa using hc
  unfold Right at h ⊢
  simp only
  generalize hn' : (s.counts x + if m = true then 2 else 1) = k
  by_cases hk : k > 2
  · have := countP_change targets hn x hx (fun y => decide (s.counts y ≤ 2)) (fun y => decide ((if y = x then k else s.counts y) ≤ 2)) (by simpa using h2) (by simpa using hk)
      (fun y hy => by simp [hy])
    simp only [hk, if_true]
    omega
  · rw [if_neg hk, h]
    refine List.countP_congr fun y _ => ?_
    by_cases hy : y = x
    · subst hy; simp only [if_true, decide_eq_true_eq]; omega
    · simp [hy]

theorem right_steps (targets : List S) (hn : targets.Nodup) :
    Steps targets (fun s s' : State T S N => Right targets s.counts s.remaining → Right targets s'.counts s'.remaining) where
  refl _ h := h
  trans _ _ _ h h' := fun x => h' (h x)
  bump _ _ h := h
  use s x m h := use_right targets hn s x m h
  seen _ _ _ h := h
  defaulted _ _ _ h := h

omit [DecidableEq S] in
theorem Right.live {targets : List S} {c : S → Nat} {r : Nat} (h : Right targets c r) {x : S} (hx : x ∈ targets) (h2 : c x ≤ 2) : r ≠ 0 := by
  rw [h]
  have : 0 < targets.countP fun x => decide (c x ≤ 2) := List.countP_pos_iff.2 ⟨x, hx, by simpa using h2⟩
  omega

omit [DecidableEq S] in
theorem Right.done {targets : List S} {c : S → Nat} (h : Right targets c 0) {x : S} (hx : x ∈ targets) : 2 < c x := by
  rcases Nat.lt_or_ge 2 (c x) with h2 | h2
  · exact h2
  · exact absurd rfl (h.live hx h2)

theorem visit_grows (E : Env T S N) (fc : Bool) (targets : List S) {n : Nat} {v : Visit T} {s s' : State T S N} (h : visit E fc targets n v s = some s') : Grows s s' :=
  visit_of (grows_steps targets) E fc n v s s' h

theorem visitAll_grows (E : Env T S N) (fc : Bool) (targets : List S) {n : Nat} {vs : List (Visit T)} {s s' : State T S N}
    (h : visitAll (visit E fc targets n) vs s = some s') : Grows s s' :=
  visitAll_of Grows.rfl' (grows_steps targets).trans (fun _ _ _ => visit_grows E fc targets) vs s s' h

theorem visitConstraint_grows (E : Env T S N) (fc : Bool) (targets : List S) {n : Nat} {c : Option N} {s s' : State T S N}
    (h : visitConstraint E (visit E fc targets n) c s = some s') : Grows s s' := by
  unfold visitConstraint at h
  split at h
  · split at h
    · simp only [Option.some.injEq] at h; subst h; exact Grows.rfl' _
    · rename_i hc
      exact (grows_steps targets).trans _ _ _ ((grows_steps targets).seen _ _ (by simpa using hc)) (visit_grows E fc targets h)
  · simp only [Option.some.injEq] at h; subst h; exact Grows.rfl' _

theorem visitDefault_grows (E : Env T S N) (fc : Bool) (targets : List S) {n : Nat} {c : Option T} {s s' : State T S N}
    (h : visitDefault (visit E fc targets n) c s = some s') : Grows s s' := by
  unfold visitDefault at h
  split at h
  · split at h
    · simp only [Option.some.injEq] at h; subst h; exact Grows.rfl' _
    · rename_i hc
      exact (grows_steps targets).trans _ _ _ ((grows_steps targets).defaulted _ _ (by simpa using hc)) (visit_grows E fc targets h)
  · simp only [Option.some.injEq] at h; subst h; exact Grows.rfl' _

/-- A visit that goes on to the end, step by step. -/
theorem visit_succ {E : Env T S N} {fc : Bool} {targets : List S} {n : Nat} {v : Visit T} {s s' : State T S N} (h : visit E fc targets (n + 1) v s = some s')
    (hr : s'.remaining ≠ 0) :
    s.remaining ≠ 0 ∧
    ((9 ≤ s.usages v.type ∧ s' = s.bump v.type) ∨
     (s.usages v.type < 9 ∧
      ((∃ d u, (E.facts v.type).param = some (some d) ∧ visitConstraint E (visit E fc targets n) d.constraint ((s.bump v.type).use targets d.symbol v.many) = some u ∧
          visitDefault (visit E fc targets n) d.default u = some s') ∨
       ((E.facts v.type).param = some none ∧ s' = s.bump v.type) ∨
       ((E.facts v.type).param = none ∧ visitAll (visit E fc targets n) (parts E fc v) (s.bump v.type) = some s')))) := by
  have hg := (visit_grows E fc targets h).remaining
  have hs : s.remaining ≠ 0 := by omega
  refine ⟨hs, ?_⟩
  rw [visit, if_neg hs] at h
  have hb : (s.bump v.type).usages v.type = s.usages v.type + 1 := by simp [State.bump]
  rw [hb] at h
  split at h
  · rename_i h9
    simp only [Option.some.injEq] at h
    exact .inl ⟨by omega, h.symm⟩
  · rename_i h9
    refine .inr ⟨by omega, ?_⟩
    split at h
    · rename_i d hd
      obtain ⟨u, e1, e2⟩ := Option.bind_eq_some_iff.1 h
      exact .inl ⟨d, u, hd, e1, e2⟩
    · rename_i hd
      simp only [Option.some.injEq] at h
      exact .inr (.inl ⟨hd, h.symm⟩)
    · rename_i hd
      exact .inr (.inr ⟨hd, h⟩)

theorem visitAll_cons {E : Env T S N} {fc : Bool} {targets : List S} {n : Nat} {v : Visit T} {vs : List (Visit T)} {s s' : State T S N}
    (h : visitAll (visit E fc targets n) (v :: vs) s = some s') (hr : s'.remaining ≠ 0) :
    ∃ u, visit E fc targets n v s = some u ∧ visitAll (visit E fc targets n) vs u = some s' ∧ u.remaining ≠ 0 := by
  have hg := (visitAll_grows E fc targets h).remaining
  rw [visitAll, if_neg (by omega)] at h
  obtain ⟨u, e1, e2⟩ := Option.bind_eq_some_iff.1 h
  have := (visitAll_grows E fc targets e2).remaining
  exact ⟨u, e1, e2, by omega⟩

theorem visitConstraint_cases {E : Env T S N} {f : Visit T → State T S N → Option (State T S N)} {c : Option N} {s s' : State T S N}
    (h : visitConstraint E f c s = some s') :
    ((∀ x, c = some x → x ∈ s.constraints) ∧ s' = s) ∨
    ∃ x, c = some x ∧ x ∉ s.constraints ∧ f ⟨E.constraintType x, false, false⟩ { s with constraints := x :: s.constraints } = some s' := by
  unfold visitConstraint at h
  split at h
  · split at h
    · rename_i x hc
      simp only [Option.some.injEq] at h
      exact .inl ⟨fun y hy => by simp only [Option.some.injEq] at hy; subst hy; simpa using hc, h.symm⟩
    · rename_i x hc
      exact .inr ⟨x, rfl, by simpa using hc, h⟩
  · simp only [Option.some.injEq] at h
    exact .inl ⟨fun y hy => by simp at hy, h.symm⟩

theorem visitDefault_cases {f : Visit T → State T S N → Option (State T S N)} {c : Option T} {s s' : State T S N}
    (h : visitDefault f c s = some s') :
    ((c ≠ none → s.default ≠ none) ∧ s' = s) ∨
    ∃ x, c = some x ∧ s.default = none ∧ f ⟨x, false, false⟩ { s with default := some x } = some s' := by
  unfold visitDefault at h
  split at h
  · split at h
    · rename_i x hc
      simp only [Option.some.injEq] at h
      exact .inl ⟨fun _ e => by simp [e] at hc, h.symm⟩
    · rename_i x hc
      exact .inr ⟨x, rfl, by simpa using hc, h⟩
  · simp only [Option.some.injEq] at h
    exact .inl ⟨fun y => absurd rfl y, h.symm⟩

/-! ## Parts -/

omit [DecidableEq T] [DecidableEq S] [DecidableEq N] in
theorem parts_types (E : Env T S N) (fc : Bool) (v w : Visit T) (h : v.type = w.type) :
    (parts E fc v).map (·.type) = (parts E fc w).map (·.type) := by
  obtain ⟨t, a, b⟩ := v
  obtain ⟨t', a', b'⟩ := w
  simp only at h
  subst h
  unfold parts
  simp only
  split
  · rfl
  · split
    · simp [Function.comp_def]
    · split
      · simp
      · split
        · simp [Function.comp_def]
        · split
          · simp [Function.comp_def]
          · split
            · simp
            · split
              · rfl
              · simp [Function.comp_def]

omit [DecidableEq T] [DecidableEq S] [DecidableEq N] in
theorem inside_iff (E : Env T S N) (fc : Bool) (v : Visit T) (c : T) :
    Inside E fc v.type c ↔ (E.facts v.type).param = none ∧ ∃ p ∈ parts E fc v, p.type = c := by
  refine ⟨fun ⟨h, a, b, p, hp, e⟩ => ⟨h, ?_⟩, fun ⟨h, p, hp, e⟩ => ⟨h, v.many, v.returned, p, hp, e⟩⟩
  have : c ∈ (parts E fc ⟨v.type, a, b⟩).map (·.type) := List.mem_map.2 ⟨p, hp, e⟩
  rw [parts_types E fc ⟨v.type, a, b⟩ v rfl] at this
  exact List.mem_map.1 this

/-! ## Visits of a type and of its parts -/

/-- The one type has been visited as often as the other, up to the limit, but for `e` visits to come. -/
def Owes (t c : T) (e : Nat) (s : State T S N) : Prop := min 9 (s.usages t) ≤ s.usages c + e

theorem owes_list {E : Env T S N} {fc : Bool} {targets : List S} {t c : T} {n : Nat}
    (ih : ∀ (v : Visit T) (s s' : State T S N) (e : Nat), visit E fc targets n v s = some s' → s'.remaining ≠ 0 →
      (Owes t c e s → Owes t c e s') ∧ (v.type = c → Owes t c (e + 1) s → Owes t c e s')) :
    ∀ (vs : List (Visit T)) (s s' : State T S N) (e : Nat), visitAll (visit E fc targets n) vs s = some s' → s'.remaining ≠ 0 →
      (Owes t c e s → Owes t c e s') ∧ ((∃ v ∈ vs, v.type = c) → Owes t c (e + 1) s → Owes t c e s') := by
  intro vs
  induction vs with
  | nil =>
    intro s s' e h hr
    simp only [visitAll, Option.some.injEq] at h
    subst h
    exact ⟨id, fun ⟨v, hv, _⟩ => by cases hv⟩
  | cons v vs ihl =>
    intro s s' e h hr
    obtain ⟨u, h1, h2, hu⟩ := visitAll_cons h hr
    refine ⟨fun ho => (ihl u s' e h2 hr).1 ((ih v s u e h1 hu).1 ho), fun ⟨w, hw, hc⟩ ho => ?_⟩
    rcases List.mem_cons.1 hw with rfl | hw
    · exact (ihl u s' e h2 hr).1 ((ih w s u e h1 hu).2 hc ho)
    · exact (ihl u s' e h2 hr).2 ⟨w, hw, hc⟩ ((ih v s u (e + 1) h1 hu).1 ho)

theorem owes (E : Env T S N) (fc : Bool) (targets : List S) (t c : T) (hi : Inside E fc t c) (hne : c ≠ t) : ∀ (n : Nat) (v : Visit T) (s s' : State T S N) (e : Nat),
    visit E fc targets n v s = some s' → s'.remaining ≠ 0 →
      (Owes t c e s → Owes t c e s') ∧ (v.type = c → Owes t c (e + 1) s → Owes t c e s') := by
  intro n
  induction n with
  | zero => intro v s s' e h; simp [visit] at h
  | succ n ih =>
    -- it is enough to follow the visit after counting it
    have key : ∀ (v : Visit T) (s s' : State T S N) (e : Nat), visit E fc targets (n + 1) v s = some s' → s'.remaining ≠ 0 →
        ((v.type ≠ t ∨ 9 ≤ s.usages v.type) → Owes t c e (s.bump v.type) → Owes t c e s') ∧ (v.type = t → s.usages v.type < 9 → Owes t c (e + 1) (s.bump v.type) → Owes t c e s') := by
      intro v s s' e h hr
      obtain ⟨_, hv⟩ := visit_succ h hr
      rcases hv with ⟨h9, rfl⟩ | ⟨h9, ⟨d, u, hd, e1, e2⟩ | ⟨hd, rfl⟩ | ⟨hd, e1⟩⟩
      · exact ⟨fun _ => id, fun _ h => absurd h (by omega)⟩
      · refine ⟨fun _ ho => ?_, fun ht => ?_⟩
        · have hg := (visitDefault_grows E fc targets e2).remaining
          have ho1 : Owes t c e u := by
            have ho' : Owes t c e ((s.bump v.type).use targets d.symbol v.many) := by
              unfold Owes; rw [(use_same targets _ d.symbol v.many).1]; exact ho
            rcases visitConstraint_cases e1 with ⟨_, rfl⟩ | ⟨x, _, _, hx⟩
            · exact ho'
            · exact (ih _ _ _ _ hx (by omega)).1 ho'
          rcases visitDefault_cases e2 with ⟨_, rfl⟩ | ⟨x, _, _, hx⟩
          · exact ho1
          · exact (ih _ _ _ _ hx hr).1 ho1
        · rw [ht, hi.1] at hd; cases hd
      · refine ⟨fun _ => id, fun ht => ?_⟩
        rw [ht, hi.1] at hd; cases hd
      · refine ⟨fun _ ho => (owes_list ih _ _ _ _ e1 hr).1 ho, fun ht _ ho => (owes_list ih _ _ _ _ e1 hr).2 ?_ ho⟩
        subst ht
        exact ((inside_iff E fc v c).1 hi).2
    intro v s s' e h hr
    obtain ⟨k1, k2⟩ := key v s s' e h hr
    by_cases ht : v.type = t
    · refine ⟨fun ho => ?_, fun hc => absurd (hc ▸ ht) hne⟩
      rcases Nat.lt_or_ge (s.usages v.type) 9 with h9 | h9
      · refine k2 ht h9 ?_
        unfold Owes at ho ⊢
        simp only [State.bump, ht, if_true, if_neg hne]
        omega
      · refine k1 (.inr h9) ?_
        unfold Owes at ho ⊢
        simp only [State.bump, ht, if_true, if_neg hne]
        subst ht
        omega
    · refine ⟨fun ho => k1 (.inl ht) ?_, fun hc ho => k1 (.inl ht) ?_⟩
      · unfold Owes at ho ⊢
        simp only [State.bump, if_neg (Ne.symm ht)]
        split <;> omega
      · unfold Owes at ho ⊢
        simp only [State.bump, hc, if_neg (Ne.symm hne), if_true]
        omega

/-- The type parameter has been counted whenever it was visited. -/
def Counted (x : S) (t : T) (s : State T S N) : Prop := min 3 (s.usages t) ≤ s.counts x

theorem counted (E : Env T S N) (fc : Bool) (targets : List S) (x : S) (hx : x ∈ targets) (t : T) (hp : IsParam E x t) : ∀ (n : Nat) (v : Visit T) (s s' : State T S N),
    visit E fc targets n v s = some s' → s'.remaining ≠ 0 → Counted x t s → Counted x t s' := by
  intro n
  induction n with
  | zero => intro v s s' h; simp [visit] at h
  | succ n ih =>
    intro v s s' h hr hc
    obtain ⟨hs0, hv⟩ := visit_succ h hr
    have hbump : v.type ≠ t ∨ 9 ≤ s.usages v.type → Counted x t (s.bump v.type) := by
      intro hh
      unfold Counted at hc ⊢
      simp only [State.bump]
      split
      · rename_i e
        rcases hh with hh | hh
        · exact absurd e.symm hh
        · subst e; omega
      · exact hc
    have hlist : ∀ (vs : List (Visit T)) (s s' : State T S N), visitAll (visit E fc targets n) vs s = some s' → s'.remaining ≠ 0 → Counted x t s → Counted x t s' := by
      intro vs
      induction vs with
      | nil => intro s s' h _ hc; simp only [visitAll, Option.some.injEq] at h; subst h; exact hc
      | cons w ws ihl =>
        intro s s' h hr hc
        obtain ⟨u, h1, h2, hu⟩ := visitAll_cons h hr
        exact ihl u s' h2 hr (ih w s u h1 hu hc)
    rcases hv with ⟨h9, rfl⟩ | ⟨h9, ⟨d, u, hd, e1, e2⟩ | ⟨hd, rfl⟩ | ⟨hd, e1⟩⟩
    · exact hbump (.inr h9)
    · have h0 : Counted x t ((s.bump v.type).use targets d.symbol v.many) := by
        by_cases ht : v.type = t
        · obtain ⟨d', hd', hx'⟩ := hp
          rw [ht, hd'] at hd
          simp only [Option.some.injEq] at hd
          subst hd
          subst hx'
          unfold Counted at hc ⊢
          rw [(use_same targets _ _ _).1]
          simp only [State.bump, ht, if_true, State.use, if_neg hs0]
          have : targets.contains d'.symbol = true := by simpa using hx
          rw [this]
          simp only [Bool.not_true, Bool.false_eq_true, if_false]
          split
          · change _ ≤ s.counts d'.symbol; omega
          · simp only [if_true]; split <;> omega
        · have := hbump (.inl ht)
          unfold Counted at this ⊢
          rw [(use_same targets _ _ _).1]
          exact Nat.le_trans this (use_counts _ _ _ _ _)
      have hg := (visitDefault_grows E fc targets e2).remaining
      have h1 : Counted x t u := by
        rcases visitConstraint_cases e1 with ⟨_, rfl⟩ | ⟨y, _, _, hy⟩
        · exact h0
        · exact ih _ _ _ hy (by omega) h0
      rcases visitDefault_cases e2 with ⟨_, rfl⟩ | ⟨y, _, _, hy⟩
      · exact h1
      · exact ih _ _ _ hy hr h1
    · refine hbump (.inl fun ht => ?_)
      obtain ⟨d', hd', _⟩ := hp
      rw [ht, hd'] at hd; cases hd
    · refine hlist _ _ _ e1 hr (hbump (.inl fun ht => ?_))
      obtain ⟨d', hd', _⟩ := hp
      rw [ht, hd'] at hd; cases hd

/-- A whole collection that is not ended early: all parts of types are visited as often as these, up to the limit. -/
theorem all_visited (E : Env T S N) (fc : Bool) (targets : List S) {n : Nat} {vs : List (Visit T)} {s s' : State T S N}
    (h : visitAll (visit E fc targets n) vs s = some s') (hr : s'.remaining ≠ 0) (h0 : ∀ t, s.usages t = 0) (t c : T) (hi : Inside E fc t c) :
    min 9 (s'.usages t) ≤ s'.usages c := by
  by_cases hne : c = t
  · subst hne; omega
  · exact (owes_list (owes E fc targets t c hi hne n) vs s s' 0 h hr).1 (by unfold Owes; rw [h0 t]; omega)

/-- No type in which the type parameter occurs is left out, if this is used at most twice. -/
theorem not_cut (E : Env T S N) (fc : Bool) (targets : List S) {n : Nat} {vs : List (Visit T)} {s s' : State T S N}
    (h : visitAll (visit E fc targets n) vs s = some s') (hr : s'.remaining ≠ 0) (h0 : ∀ t, s.usages t = 0) (x : S) (hx : x ∈ targets) (h2 : s'.counts x ≤ 2) (t : T)
    (ho : Occurs E fc x t) : s'.usages t < 9 := by
  induction ho with
  | @here t hp =>
    have : Counted x t s' := by
      have hl : ∀ (vs : List (Visit T)) (s s' : State T S N), visitAll (visit E fc targets n) vs s = some s' → s'.remaining ≠ 0 → Counted x t s → Counted x t s' := by
        intro vs
        induction vs with
        | nil => intro s s' h _ hc; simp only [visitAll, Option.some.injEq] at h; subst h; exact hc
        | cons w ws ihl =>
          intro s s' h hr hc
          obtain ⟨u, h1, h2, hu⟩ := visitAll_cons h hr
          exact ihl u s' h2 hr (counted E fc targets x hx t hp n w s u h1 hu hc)
      exact hl vs s s' h hr (by unfold Counted; rw [h0]; omega)
    unfold Counted at this
    omega
  | inside hi _ ih =>
    have := all_visited E fc targets h hr h0 _ _ hi
    omega

/-! ## Totals -/

section
omit [DecidableEq T] [DecidableEq S] [DecidableEq N]
variable {E : Env T S N} {fc : Bool} {x : S}

theorem Totals.append {a b : List (Visit T)} {k l : Nat} (ha : Totals E fc x a k) (hb : Totals E fc x b l) : Totals E fc x (a ++ b) (k + l) := by
  induction a generalizing k with
  | nil => cases ha; simpa using hb
  | cons v a ih =>
    cases ha with
    | @cons _ _ i j h1 h2 =>
      have := Totals.cons h1 (ih h2)
      rw [Nat.add_assoc]
      exact this

theorem Totals.split {a b : List (Visit T)} {k : Nat} (h : Totals E fc x (a ++ b) k) : ∃ i j, Totals E fc x a i ∧ Totals E fc x b j ∧ k = i + j := by
  induction a generalizing k with
  | nil => exact ⟨0, k, .nil, h, by omega⟩
  | cons v a ih =>
    cases h with
    | @cons _ _ i j h1 h2 =>
      obtain ⟨p, q, hp, hq, e⟩ := ih h2
      exact ⟨i + p, q, .cons h1 hp, hq, by omega⟩

theorem Totals.single {v : Visit T} {k : Nat} (h : Total E fc x v k) : Totals E fc x [v] k := by
  have := Totals.cons h .nil
  simpa using this

theorem Totals.of_single {v : Visit T} {k : Nat} (h : Totals E fc x [v] k) : Total E fc x v k := by
  cases h with
  | @cons _ _ i j h1 h2 => cases h2; exact h1

theorem Totals.perm {a b : List (Visit T)} (hp : a.Perm b) {k : Nat} (h : Totals E fc x a k) : Totals E fc x b k := by
  induction hp generalizing k with
  | nil => exact h
  | cons v _ ih => cases h with | cons h1 h2 => exact .cons h1 (ih h2)
  | swap v w l =>
    cases h with
    | @cons _ _ i j h1 h2 =>
      cases h2 with
      | @cons _ _ i' j' h3 h4 =>
        have := Totals.cons h3 (Totals.cons h1 h4)
        have e : i + (i' + j') = i' + (i + j') := by omega
        rw [e]; exact this
  | trans _ _ ih1 ih2 => exact ih2 (ih1 h)

theorem Totals.none (l : List (Visit T)) (h : ∀ v ∈ l, ¬Occurs E fc x v.type) : Totals E fc x l 0 := by
  induction l with
  | nil => exact .nil
  | cons v l ih => exact Totals.cons (k := 0) (l := 0) (.absent (h v (by simp))) (ih fun w hw => h w (List.mem_cons_of_mem _ hw))

theorem param_occurs {t : T} {d : Decl T S N} (hd : (E.facts t).param = some (some d)) : Occurs E fc x t ↔ d.symbol = x := by
  refine ⟨fun h => ?_, fun h => .here ⟨d, hd, h⟩⟩
  cases h with
  | here hp => obtain ⟨d', hd', e⟩ := hp; rw [hd] at hd'; cases hd'; exact e
  | inside hi _ => rw [hi.1] at hd; cases hd

theorem this_occurs {t : T} (hd : (E.facts t).param = some .none) : ¬Occurs E fc x t := by
  intro h
  cases h with
  | here hp => obtain ⟨d', hd', e⟩ := hp; rw [hd] at hd'; cases hd'
  | inside hi _ => rw [hi.1] at hd; cases hd

/-- The parts of a type together. -/
theorem Total.parts {v : Visit T} {k : Nat} (h : Total E fc x v k) (hd : (E.facts v.type).param = .none) : Totals E fc x (parts E fc v) k := by
  cases h with
  | absent ha =>
    exact Totals.none _ fun p hp ho => ha (.inside ((inside_iff E fc v p.type).2 ⟨hd, p, hp, rfl⟩) ho)
  | here hp => obtain ⟨d', hd', e⟩ := hp; rw [hd] at hd'; cases hd'
  | inside _ h => exact h

theorem Total.param {v : Visit T} {k : Nat} (h : Total E fc x v k) (hp : IsParam E x v.type) : k = if v.many then 2 else 1 := by
  cases h with
  | absent ha => exact absurd (.here hp) ha
  | here => rfl
  | inside hd _ => obtain ⟨d', hd', e⟩ := hp; rw [hd] at hd'; cases hd'

mutual
theorem Total.zero : ∀ {v : Visit T} {k : Nat}, Total E fc x v k → ¬Occurs E fc x v.type → k = 0
  | _, _, .absent _, _ => rfl
  | _, _, .here hp, h => absurd (.here hp) h
  | v, _, .inside hd ht, h => Totals.zero ht fun p hp ho => h (.inside ((inside_iff E fc v p.type).2 ⟨hd, p, hp, rfl⟩) ho)
theorem Totals.zero : ∀ {vs : List (Visit T)} {k : Nat}, Totals E fc x vs k → (∀ v ∈ vs, ¬Occurs E fc x v.type) → k = 0
  | _, _, .nil, _ => rfl
  | _, _, .cons h1 h2, h => by
    rw [Total.zero h1 (h _ (by simp)), Totals.zero h2 fun w hw => h w (List.mem_cons_of_mem _ hw)]
end

mutual
theorem Total.unique : ∀ {v : Visit T} {k l : Nat}, Total E fc x v k → Total E fc x v l → k = l
  | _, _, _, .absent ha, h => (Total.zero h ha).symm
  | _, _, _, .here hp, h => (Total.param h hp).symm
  | _, _, _, .inside hd ht, h => Totals.unique ht (Total.parts h hd)
theorem Totals.unique : ∀ {vs : List (Visit T)} {k l : Nat}, Totals E fc x vs k → Totals E fc x vs l → k = l
  | _, _, _, .nil, h => by cases h; rfl
  | _, _, _, .cons h1 h2, h => by
    cases h with
    | cons h1' h2' => rw [Total.unique h1 h1', Totals.unique h2 h2']
end

end

/-! ## The counts are the totals -/

/-- What was newly looked at besides parts: constraints and a default, with their total. -/
def Extra (E : Env T S N) (fc : Bool) (x : S) (s s' : State T S N) (l : Nat) : Prop :=
  ∃ (new : List N) (d : Option T) (a b : Nat), s'.constraints = new ++ s.constraints ∧
    ((d = none ∧ s'.default = s.default) ∨ (d ≠ none ∧ s.default = none ∧ s'.default = d)) ∧
    Totals E fc x (new.map fun c => ⟨E.constraintType c, false, false⟩) a ∧ Totals E fc x (d.toList.map (⟨·, false, false⟩)) b ∧ l = a + b

omit [DecidableEq T] [DecidableEq S] [DecidableEq N] in
theorem Extra.same {E : Env T S N} {fc : Bool} {x : S} {s s' : State T S N} (h1 : s'.constraints = s.constraints) (h2 : s'.default = s.default) : Extra E fc x s s' 0 :=
  ⟨[], none, 0, 0, h1, .inl ⟨rfl, h2⟩, .nil, .nil, rfl⟩

omit [DecidableEq T] [DecidableEq S] [DecidableEq N] in
theorem Extra.trans {E : Env T S N} {fc : Bool} {x : S} {s u s' : State T S N} {l m : Nat} (h : Extra E fc x s u l) (h' : Extra E fc x u s' m) : Extra E fc x s s' (l + m) := by
  obtain ⟨new, d, a, b, hc, hd, ha, hb, rfl⟩ := h
  obtain ⟨new', d', a', b', hc', hd', ha', hb', rfl⟩ := h'
  have hN : Totals E fc x ((new' ++ new).map fun c => ⟨E.constraintType c, false, false⟩) (a' + a) := by
    rw [List.map_append]; exact ha'.append ha
  have hcc : s'.constraints = (new' ++ new) ++ s.constraints := by rw [hc', hc, List.append_assoc]
  rcases hd with ⟨rfl, hd⟩ | ⟨hd, hd0, hd1⟩
  · cases hb
    refine ⟨new' ++ new, d', a' + a, b', hcc, ?_, hN, hb', by omega⟩
    rw [← hd]; exact hd'
  · rcases hd' with ⟨rfl, hd'⟩ | ⟨hd', hd0', _⟩
    · cases hb'
      exact ⟨new' ++ new, d, a' + a, b, hcc, .inr ⟨hd, hd0, by rw [hd', hd1]⟩, hN, hb, by omega⟩
    · rw [hd1] at hd0'; exact absurd hd0' hd

theorem totals_list {E : Env T S N} {fc : Bool} {targets : List S} {x : S} {n : Nat}
    (ih : ∀ (v : Visit T) (s s' : State T S N), visit E fc targets n v s = some s' → s'.remaining ≠ 0 → (∀ t, Occurs E fc x t → s'.usages t ≤ 9) → s'.counts x ≤ 2 →
      ∃ k l, Total E fc x v k ∧ Extra E fc x s s' l ∧ s'.counts x = s.counts x + k + l) :
    ∀ (vs : List (Visit T)) (s s' : State T S N), visitAll (visit E fc targets n) vs s = some s' → s'.remaining ≠ 0 → (∀ t, Occurs E fc x t → s'.usages t ≤ 9) → s'.counts x ≤ 2 →
      ∃ k l, Totals E fc x vs k ∧ Extra E fc x s s' l ∧ s'.counts x = s.counts x + k + l := by
  intro vs
  induction vs with
  | nil =>
    intro s s' h _ _ _
    simp only [visitAll, Option.some.injEq] at h
    subst h
    exact ⟨0, 0, .nil, .same rfl rfl, rfl⟩
  | cons v vs ihl =>
    intro s s' h hr hu h2
    obtain ⟨u, h1, h3, hur⟩ := visitAll_cons h hr
    have hg := visitAll_grows E fc targets h3
    obtain ⟨k, l, hk, hl, e⟩ := ih v s u h1 hur (fun t ht => Nat.le_trans (hg.usages t) (hu t ht)) (Nat.le_trans (hg.counts x) h2)
    obtain ⟨k', l', hk', hl', e'⟩ := ihl u s' h3 hr hu h2
    exact ⟨k + k', l + l', .cons hk hk', hl.trans hl', by omega⟩

theorem totals (E : Env T S N) (fc : Bool) (targets : List S) (x : S) (hx : x ∈ targets) : ∀ (n : Nat) (v : Visit T) (s s' : State T S N),
    visit E fc targets n v s = some s' → s'.remaining ≠ 0 → (∀ t, Occurs E fc x t → s'.usages t ≤ 9) → s'.counts x ≤ 2 →
      ∃ k l, Total E fc x v k ∧ Extra E fc x s s' l ∧ s'.counts x = s.counts x + k + l := by
  intro n
  induction n with
  | zero => intro v s s' h; simp [visit] at h
  | succ n ih =>
    intro v s s' h hr hu h2
    obtain ⟨hs0, hv⟩ := visit_succ h hr
    rcases hv with ⟨h9, rfl⟩ | ⟨h9, ⟨d, u, hd, e1, e2⟩ | ⟨hd, rfl⟩ | ⟨hd, e1⟩⟩
    · refine ⟨0, 0, .absent fun ho => ?_, .same rfl rfl, rfl⟩
      have := hu _ ho
      simp only [State.bump, if_true] at this
      omega
    · have hg2 := visitDefault_grows E fc targets e2
      have hg1 := visitConstraint_grows E fc targets e1
      obtain ⟨u1, u2, u3⟩ := use_same targets (s.bump v.type) d.symbol v.many
      -- the type parameter itself
      have hk : ∃ k, Total E fc x v k ∧ ((s.bump v.type).use targets d.symbol v.many).counts x = s.counts x + k := by
        by_cases hdx : d.symbol = x
        · subst hdx
          refine ⟨_, .here ⟨d, hd, rfl⟩, ?_⟩
          have hle : s.counts d.symbol ≤ 2 := Nat.le_trans ((visit_grows E fc targets h).counts _) h2
          have hct : targets.contains d.symbol = true := by simpa using hx
          have hn2 : ¬(s.bump v.type).counts d.symbol > 2 := by simp only [State.bump]; omega
          have hn0 : ¬(s.bump v.type).remaining = 0 := hs0
          rw [State.use, if_neg hn0, hct]
          simp only [Bool.not_true, Bool.false_eq_true, if_false]
          rw [if_neg hn2]
          simp [State.bump]
        · refine ⟨0, .absent fun ho => hdx ((param_occurs hd).1 ho), ?_⟩
          unfold State.use
          split
          · rfl
          · split
            · rfl
            · split
              · rfl
              · simp only [if_neg (Ne.symm hdx), Nat.add_zero]; rfl
      obtain ⟨k, hk, ek⟩ := hk
      have hc : ∃ l, Extra E fc x s u l ∧ u.counts x = s.counts x + k + l := by
        rcases visitConstraint_cases e1 with ⟨_, rfl⟩ | ⟨c, _, _, hc⟩
        · exact ⟨0, .same u2 u3, by omega⟩
        · obtain ⟨k', l', hk', hl', e'⟩ := ih _ _ _ hc (by have := hg2.remaining; omega) (fun t ht => Nat.le_trans (hg2.usages t) (hu t ht)) (Nat.le_trans (hg2.counts x) h2)
          refine ⟨k' + l', Extra.trans (u := { (s.bump v.type).use targets d.symbol v.many with constraints := c :: ((s.bump v.type).use targets d.symbol v.many).constraints }) ?_ hl', ?_⟩
          · exact ⟨[c], none, k', 0, by simp only [u2]; rfl, .inl ⟨rfl, u3⟩, .single hk', .nil, rfl⟩
          · rw [e']; simp only [ek]; omega
      obtain ⟨l, hl, el⟩ := hc
      have hdf : ∃ m, Extra E fc x u s' m ∧ s'.counts x = u.counts x + m := by
        rcases visitDefault_cases e2 with ⟨_, rfl⟩ | ⟨y, _, hy0, hy⟩
        · exact ⟨0, .same rfl rfl, rfl⟩
        · obtain ⟨k', l', hk', hl', e'⟩ := ih _ _ _ hy hr hu h2
          refine ⟨k' + l', Extra.trans (u := { u with default := some y }) ?_ hl', ?_⟩
          · exact ⟨[], some y, 0, k', rfl, .inr ⟨by simp, hy0, rfl⟩, .nil, .single hk', by omega⟩
          · rw [e']; simp only; omega
      obtain ⟨m, hm, em⟩ := hdf
      exact ⟨k, l + m, hk, hl.trans hm, by omega⟩
    · exact ⟨0, 0, .absent (this_occurs hd), .same rfl rfl, rfl⟩
    · obtain ⟨k, l, hk, hl, e⟩ := totals_list ih _ _ _ e1 hr hu h2
      exact ⟨k, l, .inside hd hk, hl, e⟩

/-! ## What is visited is what is reached -/

/-- A visit, step by step, also if it ends early. -/
theorem visit_cases {E : Env T S N} {fc : Bool} {targets : List S} {n : Nat} {v : Visit T} {s s' : State T S N} (h : visit E fc targets (n + 1) v s = some s') :
    s' = s ∨ s' = s.bump v.type ∨
      (∃ d u, (E.facts v.type).param = some (some d) ∧ visitConstraint E (visit E fc targets n) d.constraint ((s.bump v.type).use targets d.symbol v.many) = some u ∧
          visitDefault (visit E fc targets n) d.default u = some s') ∨
      ((E.facts v.type).param = none ∧ visitAll (visit E fc targets n) (parts E fc v) (s.bump v.type) = some s') := by
  rw [visit] at h
  split at h
  · simp only [Option.some.injEq] at h; exact .inl h.symm
  · split at h
    · simp only [Option.some.injEq] at h
      exact .inr (.inl h.symm)
    · split at h
      · rename_i d hd
        obtain ⟨u, e1, e2⟩ := Option.bind_eq_some_iff.1 h
        exact .inr (.inr (.inl ⟨d, u, hd, e1, e2⟩))
      · simp only [Option.some.injEq] at h
        exact .inr (.inl h.symm)
      · rename_i hd
        exact .inr (.inr (.inr ⟨hd, h⟩))

/-- A set of types closed under what is followed; `D` is the default followed. -/
structure Closed (E : Env T S N) (fc : Bool) (D : Option T) (P : T → Prop) : Prop where
  inside : ∀ t c, P t → Inside E fc t c → P c
  constraint : ∀ t d c, P t → (E.facts t).param = some (some d) → d.constraint = some c → P (E.constraintType c)
  default : ∀ t d y, P t → (E.facts t).param = some (some d) → d.default = some y → D = some y → P y

/-- Only such types have been visited. -/
structure Within (E : Env T S N) (P : T → Prop) (s s' : State T S N) : Prop where
  usages : ∀ t, 1 ≤ s'.usages t → 1 ≤ s.usages t ∨ P t
  constraints : ∀ c ∈ s'.constraints, c ∈ s.constraints ∨ ∃ t d, P t ∧ (E.facts t).param = some (some d) ∧ d.constraint = some c
  default : ∀ y, s'.default = some y → s.default = some y ∨ ∃ t d, P t ∧ (E.facts t).param = some (some d) ∧ d.default = some y

omit [DecidableEq T] [DecidableEq S] [DecidableEq N] in
theorem Within.rfl' (E : Env T S N) (P : T → Prop) (s : State T S N) : Within E P s s := ⟨fun _ h => .inl h, fun _ h => .inl h, fun _ h => .inl h⟩

omit [DecidableEq T] [DecidableEq S] [DecidableEq N] in
theorem Within.trans {E : Env T S N} {P : T → Prop} {s u s' : State T S N} (h : Within E P s u) (h' : Within E P u s') : Within E P s s' where
  usages t ht := (h'.usages t ht).elim (h.usages t) .inr
  constraints c hc := (h'.constraints c hc).elim (h.constraints c) .inr
  default y hy := (h'.default y hy).elim (h.default y) .inr

theorem within_list {E : Env T S N} {fc : Bool} {targets : List S} {D : Option T} {P : T → Prop} {n : Nat}
    (ih : ∀ (v : Visit T) (s s' : State T S N), visit E fc targets n v s = some s' → P v.type → (∀ y, s'.default = some y → D = some y) → Within E P s s') :
    ∀ (vs : List (Visit T)) (s s' : State T S N), visitAll (visit E fc targets n) vs s = some s' → (∀ v ∈ vs, P v.type) → (∀ y, s'.default = some y → D = some y) →
      Within E P s s' := by
  intro vs
  induction vs with
  | nil => intro s s' h _ _; simp only [visitAll, Option.some.injEq] at h; subst h; exact .rfl' _ _ _
  | cons v vs ihl =>
    intro s s' h hp hd
    rw [visitAll] at h
    split at h
    · simp only [Option.some.injEq] at h; subst h; exact .rfl' _ _ _
    · obtain ⟨u, e1, e2⟩ := Option.bind_eq_some_iff.1 h
      exact (ih v s u e1 (hp v (by simp)) fun y hy => hd y ((visitAll_grows E fc targets e2).default y hy)).trans
        (ihl u s' e2 (fun w hw => hp w (List.mem_cons_of_mem _ hw)) hd)

theorem within (E : Env T S N) (fc : Bool) (targets : List S) (D : Option T) (P : T → Prop) (hP : Closed E fc D P) : ∀ (n : Nat) (v : Visit T) (s s' : State T S N),
    visit E fc targets n v s = some s' → P v.type → (∀ y, s'.default = some y → D = some y) → Within E P s s' := by
  intro n
  induction n with
  | zero => intro v s s' h; simp [visit] at h
  | succ n ih =>
    intro v s s' h hp hd
    have hb : Within E P s (s.bump v.type) := by
      refine ⟨fun t ht => ?_, fun _ h => .inl h, fun _ h => .inl h⟩
      by_cases e : t = v.type
      · subst e; exact .inr hp
      · simp only [State.bump, if_neg e] at ht; exact .inl ht
    rcases visit_cases h with rfl | rfl | ⟨d, u, hf, e1, e2⟩ | ⟨hf, e1⟩
    · exact .rfl' _ _ _
    · exact hb
    · obtain ⟨u1, u2, u3⟩ := use_same targets (s.bump v.type) d.symbol v.many
      have hu : Within E P s ((s.bump v.type).use targets d.symbol v.many) :=
        ⟨fun t ht => by rw [u1] at ht; exact hb.usages t ht, fun c hc => by rw [u2] at hc; exact hb.constraints c hc, fun y hy => by rw [u3] at hy; exact hb.default y hy⟩
      have hg := visitDefault_grows E fc targets e2
      refine Within.trans (u := u) (hu.trans ?_) ?_
      · rcases visitConstraint_cases e1 with ⟨_, rfl⟩ | ⟨c, hc, _, hv⟩
        · exact .rfl' _ _ _
        · refine Within.trans ?_ (ih _ _ _ hv (hP.constraint _ _ _ hp hf hc) fun y hy => hd y (hg.default y hy))
          refine ⟨fun t ht => .inl ht, fun c' hc' => ?_, fun _ h => .inl h⟩
          rcases List.mem_cons.1 hc' with rfl | hc'
          · exact .inr ⟨_, d, hp, hf, hc⟩
          · exact .inl hc'
      · rcases visitDefault_cases e2 with ⟨_, rfl⟩ | ⟨y, hy, _, hv⟩
        · exact .rfl' _ _ _
        · have hD : D = some y := hd y ((visit_grows E fc targets hv).default y rfl)
          refine Within.trans ?_ (ih _ _ _ hv (hP.default _ _ _ hp hf hy hD) hd)
          refine ⟨fun t ht => .inl ht, fun c' hc' => .inl hc', fun z hz => ?_⟩
          simp only [Option.some.injEq] at hz
          subst hz
          exact .inr ⟨_, d, hp, hf, hy⟩
    · refine hb.trans (within_list ih _ _ _ e1 (fun w hw => hP.inside _ _ hp ((inside_iff E fc v w.type).2 ⟨hf, w, hw, rfl⟩)) hd)

/-- What is seen has been visited, and what a type parameter has is seen. -/
structure Complete (E : Env T S N) (s s' : State T S N) : Prop where
  constraints : ∀ c ∈ s'.constraints, c ∈ s.constraints ∨ 1 ≤ s'.usages (E.constraintType c)
  default : ∀ y, s'.default = some y → s.default = some y ∨ 1 ≤ s'.usages y
  param : ∀ t d, (E.facts t).param = some (some d) → 1 ≤ s'.usages t →
    1 ≤ s.usages t ∨ ((∀ c, d.constraint = some c → c ∈ s'.constraints) ∧ (d.default ≠ none → s'.default ≠ none))

omit [DecidableEq T] [DecidableEq S] [DecidableEq N] in
theorem Complete.rfl' (E : Env T S N) (s : State T S N) : Complete E s s := ⟨fun _ h => .inl h, fun _ h => .inl h, fun _ _ _ h => .inl h⟩

omit [DecidableEq T] [DecidableEq S] [DecidableEq N] in
theorem Complete.trans {E : Env T S N} {s u s' : State T S N} (h : Complete E s u) (h' : Complete E u s') (hg : Grows u s') : Complete E s s' where
  constraints c hc := (h'.constraints c hc).elim (fun hc => (h.constraints c hc).imp id fun h => Nat.le_trans h (hg.usages _)) .inr
  default y hy := (h'.default y hy).elim (fun hy => (h.default y hy).imp id fun h => Nat.le_trans h (hg.usages _)) .inr
  param t d hf ht := (h'.param t d hf ht).elim (fun ht => (h.param t d hf ht).imp id fun ⟨h1, h2⟩ => by
    obtain ⟨new, e⟩ := hg.constraints
    refine ⟨fun c hc => by rw [e]; exact List.mem_append.2 (.inr (h1 c hc)), fun hn => ?_⟩
    cases hu : u.default with
    | none => exact absurd hu (h2 hn)
    | some y => rw [hg.default y hu]; simp) .inr

theorem visit_visits (E : Env T S N) (fc : Bool) (targets : List S) {n : Nat} {v : Visit T} {s s' : State T S N} (h : visit E fc targets n v s = some s')
    (hr : s'.remaining ≠ 0) : 1 ≤ s'.usages v.type := by
  cases n with
  | zero => simp [visit] at h
  | succ n =>
    have hb : (s.bump v.type).usages v.type = s.usages v.type + 1 := by simp [State.bump]
    obtain ⟨_, hv⟩ := visit_succ h hr
    rcases hv with ⟨h9, rfl⟩ | ⟨h9, ⟨d, u, hd, e1, e2⟩ | ⟨hd, rfl⟩ | ⟨hd, e1⟩⟩
    · omega
    · have h1 := (visitDefault_grows E fc targets e2).usages v.type
      have h2 := (visitConstraint_grows E fc targets e1).usages v.type
      rw [(use_same targets _ _ _).1] at h2
      omega
    · omega
    · have := (visitAll_grows E fc targets e1).usages v.type
      omega

theorem complete_list {E : Env T S N} {fc : Bool} {targets : List S} {n : Nat}
    (ih : ∀ (v : Visit T) (s s' : State T S N), visit E fc targets n v s = some s' → s'.remaining ≠ 0 → Complete E s s') :
    ∀ (vs : List (Visit T)) (s s' : State T S N), visitAll (visit E fc targets n) vs s = some s' → s'.remaining ≠ 0 →
      Complete E s s' ∧ ∀ v ∈ vs, 1 ≤ s'.usages v.type := by
  intro vs
  induction vs with
  | nil => intro s s' h _; simp only [visitAll, Option.some.injEq] at h; subst h; exact ⟨.rfl' _ _, fun v hv => by cases hv⟩
  | cons v vs ihl =>
    intro s s' h hr
    obtain ⟨u, e1, e2, hu⟩ := visitAll_cons h hr
    have hg := visitAll_grows E fc targets e2
    obtain ⟨c1, c2⟩ := ihl u s' e2 hr
    refine ⟨(ih v s u e1 hu).trans c1 hg, List.forall_mem_cons.2 ⟨Nat.le_trans (visit_visits E fc targets e1 hu) (hg.usages _), c2⟩⟩

theorem complete (E : Env T S N) (fc : Bool) (targets : List S) : ∀ (n : Nat) (v : Visit T) (s s' : State T S N),
    visit E fc targets n v s = some s' → s'.remaining ≠ 0 → Complete E s s' := by
  intro n
  induction n with
  | zero => intro v s s' h; simp [visit] at h
  | succ n ih =>
    intro v s s' h hr
    obtain ⟨_, hv⟩ := visit_succ h hr
    have hbother : (∀ d, (E.facts v.type).param ≠ some (some d)) ∨ 9 ≤ s.usages v.type → Complete E s (s.bump v.type) := by
      intro hh
      refine ⟨fun _ h => .inl h, fun _ h => .inl h, fun t d hf ht => ?_⟩
      by_cases e : t = v.type
      · subst e
        rcases hh with hh | hh
        · exact absurd hf (hh d)
        · exact .inl (by omega)
      · simp only [State.bump, if_neg e] at ht; exact .inl ht
    rcases hv with ⟨h9, rfl⟩ | ⟨h9, ⟨d, u, hd, e1, e2⟩ | ⟨hd, rfl⟩ | ⟨hd, e1⟩⟩
    · exact hbother (.inr h9)
    · obtain ⟨u1, u2, u3⟩ := use_same targets (s.bump v.type) d.symbol v.many
      have hg2 := visitDefault_grows E fc targets e2
      have hg1 := visitConstraint_grows E fc targets e1
      have hur : u.remaining ≠ 0 := by have := hg2.remaining; omega
      -- the constraint
      have hc : (∀ c ∈ u.constraints, c ∈ s.constraints ∨ 1 ≤ u.usages (E.constraintType c)) ∧ (∀ c, d.constraint = some c → c ∈ u.constraints) ∧
          (∀ y, u.default = some y → s.default = some y ∨ 1 ≤ u.usages y) ∧
          (∀ t d', (E.facts t).param = some (some d') → 1 ≤ u.usages t → t = v.type ∨ 1 ≤ s.usages t ∨
            ((∀ c, d'.constraint = some c → c ∈ u.constraints) ∧ (d'.default ≠ none → u.default ≠ none))) := by
        rcases visitConstraint_cases e1 with ⟨hs, rfl⟩ | ⟨c, hc, hcn, hv⟩
        · refine ⟨fun c hc => ?_, hs, fun y hy => ?_, fun t d' _ ht => ?_⟩
          · rw [u2] at hc; exact .inl hc
          · rw [u3] at hy; exact .inl hy
          · by_cases e : t = v.type
            · exact .inl e
            · rw [u1] at ht; simp only [State.bump, if_neg e] at ht; exact .inr (.inl ht)
        · have hcm := ih _ _ _ hv hur
          have hvis := visit_visits E fc targets hv hur
          obtain ⟨new, en⟩ := (visit_grows E fc targets hv).constraints
          refine ⟨fun c' hc' => ?_, fun c' hc' => ?_, fun y hy => ?_, fun t d' hf ht => ?_⟩
          · rcases hcm.constraints c' hc' with h | h
            · rcases List.mem_cons.1 h with rfl | h
              · exact .inr hvis
              · rw [u2] at h; exact .inl h
            · exact .inr h
          · rw [hc] at hc'; simp only [Option.some.injEq] at hc'; subst hc'; rw [en]; simp
          · rcases hcm.default y hy with h | h
            · rw [u3] at h; exact .inl h
            · exact .inr h
          · by_cases e : t = v.type
            · exact .inl e
            · rcases hcm.param t d' hf ht with h | h
              · rw [u1] at h; simp only [State.bump, if_neg e] at h; exact .inr (.inl h)
              · exact .inr (.inr h)
      obtain ⟨c1, c2, c3, c4⟩ := hc
      rcases visitDefault_cases e2 with ⟨hs, rfl⟩ | ⟨y, hy, hy0, hv⟩
      · refine ⟨c1, c3, fun t d' hf ht => ?_⟩
        rcases c4 t d' hf ht with rfl | h
        · rw [hd] at hf; simp only [Option.some.injEq] at hf; subst hf
          exact .inr ⟨c2, hs⟩
        · exact h
      · have hcm := ih _ _ _ hv hr
        have hvis := visit_visits E fc targets hv hr
        have hg := visit_grows E fc targets hv
        obtain ⟨new, en⟩ := hg.constraints
        have hdef : s'.default ≠ none := by rw [hg.default y rfl]; simp
        refine ⟨fun c hc => ?_, fun z hz => ?_, fun t d' hf ht => ?_⟩
        · rcases hcm.constraints c hc with h | h
          · exact (c1 c h).imp id fun h => Nat.le_trans h (hg.usages _)
          · exact .inr h
        · rcases hcm.default z hz with h | h
          · simp only [Option.some.injEq] at h; subst h; exact .inr hvis
          · exact .inr h
        · by_cases e : t = v.type
          · subst e
            rw [hd] at hf; simp only [Option.some.injEq] at hf; subst hf
            exact .inr ⟨fun c hc => by rw [en]; exact List.mem_append.2 (.inr (c2 c hc)), fun _ => hdef⟩
          · rcases hcm.param t d' hf ht with h | h
            · rcases c4 t d' hf h with h | h | ⟨h, _⟩
              · exact absurd h e
              · exact .inl h
              · exact .inr ⟨fun c hc => by rw [en]; exact List.mem_append.2 (.inr (h c hc)), fun _ => hdef⟩
            · exact .inr h
    · exact hbother (.inl fun d h => by rw [hd] at h; cases h)
    · exact (hbother (.inl fun d h => by rw [hd] at h; cases h)).trans (complete_list ih _ _ _ e1 hr).1 (visitAll_grows E fc targets e1)

end Tsgolint.TypeParameters
