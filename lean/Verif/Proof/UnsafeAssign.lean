import Verif.Spec.TypeGraph
/-! # The unsafe assignment check: invariant of the search, and termination -/
namespace Tsgolint.TypeGraph
variable {T : Type} [DecidableEq T] {shape : T → Shape T} {newMap : Bool}

/-- The pair is in the visited map. -/
def Seen (v : Visited T) (a b : T) : Prop := ∃ l, v a = some l ∧ b ∈ l

/-- One step of `Compared`. -/
def Next (shape : T → Shape T) (newMap : Bool) (a b x y : T) : Prop :=
  newMap = false ∧ ∃ target as bs, ∃ i : Nat, shape a = .ref target (some as) ∧ shape b = .ref target (some bs) ∧ as[i]? = some x ∧ bs[i]? = some y

/-- Nothing is left to do for the pair. -/
def Done (shape : T → Shape T) (v : Visited T) (a b : T) : Prop := Seen v a b ∨ (shape a = .any ∧ shape b = .unknown)

def Mono (v v' : Visited T) : Prop := ∀ a b, Seen v a b → Seen v' a b

/-- The pairs added on the way from `v` to `v'` are fine and what is below them has been dealt with. -/
def ClosedNew (shape : T → Shape T) (newMap : Bool) (v v' : Visited T) : Prop :=
  ∀ a b, Seen v' a b → Seen v a b ∨ (¬ UnsafeAt shape a b ∧ ∀ x y, Next shape newMap a b x y → Done shape v' x y)

omit [DecidableEq T] in
theorem Compared.trans {t r a b x y : T} (h1 : Compared shape newMap t r a b) (h2 : Compared shape newMap a b x y) :
    Compared shape newMap t r x y := by
  induction h2 with
  | self => exact h1
  | arg i _ hn ha hb hx hy ih => exact .arg i ih hn ha hb hx hy

omit [DecidableEq T] in
theorem Next.compared {a b x y : T} (h : Next shape newMap a b x y) : Compared shape newMap a b x y := by
  obtain ⟨hn, target, as, bs, i, ha, hb, hx, hy⟩ := h
  exact .arg i .self hn ha hb hx hy

omit [DecidableEq T] in
theorem Done.mono {v v' : Visited T} (h : Mono v v') {a b : T} (hd : Done shape v a b) : Done shape v' a b :=
  hd.elim (fun hs => Or.inl (h a b hs)) Or.inr

omit [DecidableEq T] in
theorem ClosedNew.trans {v1 v2 v3 : Visited T} (h1 : ClosedNew shape newMap v1 v2) (h2 : ClosedNew shape newMap v2 v3) (hm : Mono v2 v3) :
    ClosedNew shape newMap v1 v3 := by
  intro a b hs
  rcases h2 a b hs with h | h
  · rcases h1 a b h with h | h
    · exact Or.inl h
    · exact Or.inr ⟨h.1, fun x y hn => (h.2 x y hn).mono hm⟩
  · exact Or.inr h

/-- What a finished call guarantees. -/
def CallOk (shape : T → Shape T) (newMap : Bool) (v : Visited T) (t r : T) (o : Outcome T) (v' : Visited T) : Prop :=
  Mono v v' ∧ match o with
    | .safe => Done shape v' t r ∧ ClosedNew shape newMap v v'
    | .bad r' t' => r' = r ∧ t' = t ∧ ∃ a b, Compared shape newMap t r a b ∧ UnsafeAt shape a b
    | .panic => ∃ a b, Compared shape newMap t r a b ∧ Mismatch shape a b

/-- What the finished loop guarantees. -/
def LoopOk (shape : T → Shape T) (newMap : Bool) (v : Visited T) (t r : T) (as rs : List T) (o : Outcome T) (v' : Visited T) : Prop :=
  Mono v v' ∧ match o with
    | .safe => (∀ (i : Nat) x y, as[i]? = some x → rs[i]? = some y → Done shape v' x y) ∧ ClosedNew shape newMap v v'
    | .bad r' t' => r' = r ∧ t' = t ∧ ∃ (i : Nat), ∃ x y a b, as[i]? = some x ∧ rs[i]? = some y ∧ Compared shape newMap x y a b ∧ UnsafeAt shape a b
    | .panic => rs.length < as.length ∨ ∃ (i : Nat), ∃ x y a b, as[i]? = some x ∧ rs[i]? = some y ∧ Compared shape newMap x y a b ∧ Mismatch shape a b

theorem argsLoop_ok {f : Visited T → T → T → Option (Outcome T × Visited T)}
    (hf : ∀ v a b o v', f v a b = some (o, v') → CallOk shape newMap v a b o v') (t r : T) :
    ∀ (as rs : List T) (v : Visited T) (o : Outcome T) (v' : Visited T), argsLoop f t r as rs v = some (o, v') →
      LoopOk shape newMap v t r as rs o v' := by
  intro as
  induction as with
  | nil =>
    intro rs v o v' h
    simp [argsLoop] at h
    obtain ⟨rfl, rfl⟩ := h
    exact ⟨fun _ _ h => h, by simp, fun a b h => Or.inl h⟩
  | cons a as ih =>
    intro rs v o v' h
    cases rs with
    | nil =>
      simp [argsLoop] at h
      obtain ⟨rfl, rfl⟩ := h
      exact ⟨fun _ _ h => h, Or.inl (by simp)⟩
    | cons b rs =>
      simp only [argsLoop] at h
      split at h
      · simp at h
      · rename_i v1 h1
        obtain ⟨hm1, hd1, hc1⟩ := hf _ _ _ _ _ h1
        have h2 := ih rs v1 o v' h
        obtain ⟨hm2, h2⟩ := h2
        refine ⟨fun x y hs => hm2 x y (hm1 x y hs), ?_⟩
        cases o with
        | safe =>
          obtain ⟨hd2, hc2⟩ := h2
          refine ⟨?_, hc1.trans hc2 hm2⟩
          intro i x y hx hy
          cases i with
          | zero => simp at hx hy; subst hx; subst hy; exact hd1.mono hm2
          | succ i => simp at hx hy; exact hd2 i x y hx hy
        | bad r' t' =>
          obtain ⟨e1, e2, i, x, y, p, q, hx, hy, hpq⟩ := h2
          exact ⟨e1, e2, i + 1, x, y, p, q, by simpa using hx, by simpa using hy, hpq⟩
        | panic =>
          rcases h2 with h2 | ⟨i, x, y, p, q, hx, hy, hpq⟩
          · exact Or.inl (by simpa using h2)
          · exact Or.inr ⟨i + 1, x, y, p, q, by simpa using hx, by simpa using hy, hpq⟩
      · rename_i r' t' v1 h1
        obtain ⟨hm1, _, _, p, q, hpq⟩ := hf _ _ _ _ _ h1
        simp at h
        obtain ⟨rfl, rfl⟩ := h
        exact ⟨hm1, rfl, rfl, 0, a, b, p, q, by simp, by simp, hpq⟩
      · rename_i v1 h1
        obtain ⟨hm1, p, q, hpq⟩ := hf _ _ _ _ _ h1
        simp at h
        obtain ⟨rfl, rfl⟩ := h
        exact ⟨hm1, Or.inr ⟨0, a, b, p, q, by simp, by simp, hpq⟩⟩

theorem seen_addSeen (v : Visited T) (t r a b : T) : Seen (addSeen v t r) a b ↔ Seen v a b ∨ (a = t ∧ b = r) := by
  unfold Seen addSeen
  by_cases h : a = t
  · subst h
    cases hv : v a with
    | none => simp
    | some l => simp
  · simp [h]

theorem seen_test (v : Visited T) (t r : T) :
    isSeen v t r = true ↔ Seen v t r := by
  unfold Seen isSeen
  cases hv : v t with
  | none => simp
  | some l => simp

/-- The worker with the early exits named. -/
theorem unsafeWorker_succ (shape : T → Shape T) (newMap : Bool) (n : Nat) (v : Visited T) (t r : T) :
    (shape t = .any ∧ shape r = .unknown ∧ unsafeWorker shape newMap (n + 1) v t r = some (.safe, v)) ∨
    (UnsafeAt shape t r ∧ unsafeWorker shape newMap (n + 1) v t r = some (.bad r t, v)) ∨
    (¬ UnsafeAt shape t r ∧ Seen v t r ∧ unsafeWorker shape newMap (n + 1) v t r = some (.safe, v)) ∨
    (¬ UnsafeAt shape t r ∧ ¬ Seen v t r ∧ ((∀ x y, ¬ Next shape newMap t r x y) ∧ ¬ (newMap = false ∧ Mismatch shape t r) ∧
      unsafeWorker shape newMap (n + 1) v t r = some (.safe, addSeen v t r))) ∨
    (¬ UnsafeAt shape t r ∧ ¬ Seen v t r ∧ newMap = false ∧ ∃ target as rs, shape t = .ref target (some as) ∧ shape r = .ref target (some rs) ∧
      unsafeWorker shape newMap (n + 1) v t r = argsLoop (unsafeWorker shape newMap n) t r as rs (addSeen v t r)) := by
  by_cases h1 : shape t = .any ∧ shape r = .unknown
  · left; refine ⟨h1.1, h1.2, ?_⟩; simp [unsafeWorker, earlyExit, h1.1, h1.2]
  right
  by_cases h2 : UnsafeAt shape t r
  · left
    refine ⟨h2, ?_⟩
    obtain ⟨ha, hb, hc⟩ := h2
    cases hr : shape r <;> simp_all [unsafeWorker, earlyExit]
  right
  have early : earlyExit shape t r = none := by
    unfold earlyExit
    cases ht : shape t <;> cases hr : shape r <;> simp_all [UnsafeAt]
  by_cases h3 : Seen v t r
  · left
    refine ⟨h2, h3, ?_⟩
    unfold unsafeWorker
    simp only [early]
    rw [if_pos ((seen_test v t r).2 h3)]
  right
  have body : unsafeWorker shape newMap (n + 1) v t r = match shape t, shape r with
        | .ref target args, .ref target' args' =>
          if target ≠ target' then some (.safe, addSeen v t r)
          else if newMap then some (.safe, addSeen v t r)
          else match args, args' with
            | some as, some rs => argsLoop (unsafeWorker shape newMap n) t r as rs (addSeen v t r)
            | _, _ => some (.safe, addSeen v t r)
        | _, _ => some (.safe, addSeen v t r) := by
    rw [unsafeWorker]
    simp only [early]
    rw [if_neg (fun hh => h3 ((seen_test v t r).1 hh))]
    cases shape t <;> cases shape r <;> rfl
  by_cases h4 : newMap = false ∧ ∃ target as rs, shape t = .ref target (some as) ∧ shape r = .ref target (some rs)
  · right
    obtain ⟨hn, target, as, rs, ht, hr⟩ := h4
    refine ⟨h2, h3, hn, target, as, rs, ht, hr, ?_⟩
    rw [body, ht, hr]
    simp [hn]
  · left
    refine ⟨h2, h3, ?_, ?_, ?_⟩
    · rintro x y ⟨hn, target, as, bs, i, ha, hb, _⟩
      exact h4 ⟨hn, target, as, bs, ha, hb⟩
    · rintro ⟨hn, target, as, bs, ha, hb, _⟩
      exact h4 ⟨hn, target, as, bs, ha, hb⟩
    · rw [body]
      split
      · rename_i target args target' args' ht hr
        split
        · rfl
        · rename_i hte
          split
          · rfl
          · rename_i hnm
            split
            · rename_i as rs
              exfalso
              simp only [ne_eq, Decidable.not_not] at hte
              subst hte
              exact h4 ⟨by simpa using hnm, _, _, _, ht, hr⟩
            · rfl
      · rfl

theorem unsafeWorker_ok (n : Nat) : ∀ (v : Visited T) (t r : T) (o : Outcome T) (v' : Visited T),
    unsafeWorker shape newMap n v t r = some (o, v') → CallOk shape newMap v t r o v' := by
  induction n with
  | zero => intro v t r o v' h; simp [unsafeWorker] at h
  | succ n ih =>
    intro v t r o v' h
    rcases unsafeWorker_succ shape newMap n v t r with ⟨ht, hr, e⟩ | ⟨hu, e⟩ | ⟨hu, hs, e⟩ | ⟨hu, hs, hn, hmm, e⟩ | ⟨hu, hs, hnm, target, as, rs, ht, hr, e⟩
    · rw [e] at h; simp at h; obtain ⟨rfl, rfl⟩ := h
      exact ⟨fun _ _ h => h, Or.inr ⟨ht, hr⟩, fun a b h => Or.inl h⟩
    · rw [e] at h; simp at h; obtain ⟨rfl, rfl⟩ := h
      exact ⟨fun _ _ h => h, rfl, rfl, t, r, .self, hu⟩
    · rw [e] at h; simp at h; obtain ⟨rfl, rfl⟩ := h
      exact ⟨fun _ _ h => h, Or.inl hs, fun a b h => Or.inl h⟩
    · rw [e] at h; simp at h; obtain ⟨rfl, rfl⟩ := h
      refine ⟨fun a b h => (seen_addSeen v t r a b).2 (Or.inl h), Or.inl ((seen_addSeen v t r t r).2 (Or.inr ⟨rfl, rfl⟩)), ?_⟩
      intro a b h
      rcases (seen_addSeen v t r a b).1 h with h | ⟨rfl, rfl⟩
      · exact Or.inl h
      · exact Or.inr ⟨hu, fun x y hxy => absurd hxy (hn x y)⟩
    · rw [e] at h
      obtain ⟨hm, hl⟩ := argsLoop_ok ih t r as rs _ o v' h
      have hm0 : Mono v (addSeen v t r) := fun a b h => (seen_addSeen v t r a b).2 (Or.inl h)
      refine ⟨fun a b h => hm a b (hm0 a b h), ?_⟩
      have step : ∀ (i : Nat) x y, as[i]? = some x → rs[i]? = some y → Compared shape newMap t r x y := fun i x y hx hy =>
        .arg i .self hnm ht hr hx hy
      cases o with
      | safe =>
        obtain ⟨hd, hc⟩ := hl
        refine ⟨Or.inl (hm t r ((seen_addSeen v t r t r).2 (Or.inr ⟨rfl, rfl⟩))), ?_⟩
        intro a b h
        rcases hc a b h with h | h
        · rcases (seen_addSeen v t r a b).1 h with h | ⟨rfl, rfl⟩
          · exact Or.inl h
          · refine Or.inr ⟨hu, ?_⟩
            rintro x y ⟨_, target', as', bs', i, ha, hb, hx, hy⟩
            rw [ht] at ha; rw [hr] at hb
            cases ha; cases hb
            exact hd i x y hx hy
        · exact Or.inr h
      | bad r' t' =>
        obtain ⟨e1, e2, i, x, y, a, b, hx, hy, hc, hua⟩ := hl
        exact ⟨e1, e2, a, b, (step i x y hx hy).trans hc, hua⟩
      | panic =>
        rcases hl with hl | ⟨i, x, y, a, b, hx, hy, hc, hua⟩
        · exact ⟨t, r, .self, target, as, rs, ht, hr, hl⟩
        · exact ⟨a, b, (step i x y hx hy).trans hc, hua⟩

/-! ## Termination -/

theorem argsLoop_some {f : Visited T → T → T → Option (Outcome T × Visited T)} {P : Visited T → Prop} {U : List T}
    (hf : ∀ v a b, P v → a ∈ U → b ∈ U → ∃ o v', f v a b = some (o, v') ∧ P v') (t r : T) :
    ∀ (as rs : List T) (v : Visited T), P v → (∀ a ∈ as, a ∈ U) → (∀ b ∈ rs, b ∈ U) →
      ∃ o v', argsLoop f t r as rs v = some (o, v') ∧ P v' := by
  intro as
  induction as with
  | nil => intro rs v hv _ _; exact ⟨.safe, v, by simp [argsLoop], hv⟩
  | cons a as ih =>
    intro rs v hv ha hb
    cases rs with
    | nil => exact ⟨.panic, v, by simp [argsLoop], hv⟩
    | cons b rs =>
      obtain ⟨o, v1, h1, hv1⟩ := hf v a b hv (ha a (by simp)) (hb b (by simp))
      cases o with
      | safe =>
        obtain ⟨o2, v2, h2, hv2⟩ := ih rs v1 hv1 (fun x hx => ha x (by simp [hx])) (fun x hx => hb x (by simp [hx]))
        exact ⟨o2, v2, by simp [argsLoop, h1, h2], hv2⟩
      | bad r' t' => exact ⟨.bad r t, v1, by simp [argsLoop, h1], hv1⟩
      | panic => exact ⟨.panic, v1, by simp [argsLoop, h1], hv1⟩

/-- The pairs over `U` not visited yet. -/
noncomputable def unseen (U : List T) (v : Visited T) : List (T × T) :=
  open Classical in (U.flatMap fun a => U.map fun b => (a, b)).filter fun p => ¬ Seen v p.1 p.2

omit [DecidableEq T] in
theorem unseen_mono {U : List T} {v v' : Visited T} (h : Mono v v') : (unseen U v').length ≤ (unseen U v).length := by
  unfold unseen
  rw [← List.countP_eq_length_filter, ← List.countP_eq_length_filter]
  apply List.countP_mono_left
  intro p _ hp
  simp only [decide_eq_true_eq] at hp ⊢
  exact fun hs => hp (h _ _ hs)

theorem unseen_add {U : List T} {v : Visited T} {t r : T} (ht : t ∈ U) (hr : r ∈ U) (hs : ¬ Seen v t r) :
    (unseen U (addSeen v t r)).length < (unseen U v).length := by
  classical
  have hsub : (unseen U (addSeen v t r)) = (unseen U v).filter (fun p => p ≠ (t, r)) := by
    unfold unseen
    rw [List.filter_filter]
    congr 1
    funext p
    have := seen_addSeen v t r p.1 p.2
    by_cases h1 : Seen v p.1 p.2 <;> by_cases h2 : p = (t, r)
    · simp_all
    · simp_all
    · subst h2; simp_all
    · have h3 : ¬ (p.1 = t ∧ p.2 = r) := fun h => h2 (Prod.ext h.1 h.2)
      simp_all
  rw [hsub]
  have hmem : (t, r) ∈ unseen U v := by
    unfold unseen
    simp only [List.mem_filter, List.mem_flatMap, List.mem_map, decide_eq_true_eq]
    exact ⟨⟨t, ht, r, hr, rfl⟩, hs⟩
  rcases Nat.lt_or_ge ((unseen U v).filter (fun p => p ≠ (t, r))).length (unseen U v).length with h | h
  · exact h
  · have := List.filter_eq_self.1 (List.Sublist.eq_of_length_le List.filter_sublist h) (t, r) hmem
    simp at this

theorem unsafeWorker_some {U : List T} (hU : ClosedUnderArgs shape U) (n : Nat) : ∀ (v : Visited T) (t r : T), t ∈ U → r ∈ U →
    (unseen U v).length < n → ∃ o v', unsafeWorker shape newMap n v t r = some (o, v') ∧ Mono v v' := by
  induction n with
  | zero => intro v t r _ _ h; omega
  | succ n ih =>
    intro v t r htU hrU hlt
    rcases unsafeWorker_succ shape newMap n v t r with ⟨_, _, e⟩ | ⟨_, e⟩ | ⟨_, _, e⟩ | ⟨_, _, _, _, e⟩ | ⟨_, hs, _, target, as, rs, ht, hr, e⟩
    · exact ⟨_, _, e, fun _ _ h => h⟩
    · exact ⟨_, _, e, fun _ _ h => h⟩
    · exact ⟨_, _, e, fun _ _ h => h⟩
    · exact ⟨_, _, e, fun a b h => (seen_addSeen v t r a b).2 (Or.inl h)⟩
    · have h1 := unseen_add htU hrU hs
      obtain ⟨o, v', h2, _, h3⟩ := argsLoop_some (f := unsafeWorker shape newMap n) (U := U)
        (P := fun w => (unseen U w).length < n ∧ Mono v w) (by
          intro w a b hw ha hb
          obtain ⟨o, w', h, hm⟩ := ih w a b ha hb hw.1
          exact ⟨o, w', h, Nat.lt_of_le_of_lt (unseen_mono hm) hw.1, fun x y hxy => hm x y (hw.2 x y hxy)⟩)
        t r as rs (addSeen v t r) ⟨by omega, fun a b h => (seen_addSeen v t r a b).2 (Or.inl h)⟩
        (fun a ha => hU t htU target as ht a ha) (fun a ha => hU r hrU target rs hr a ha)
      exact ⟨o, v', by rw [e, h2], h3⟩

end Tsgolint.TypeGraph
