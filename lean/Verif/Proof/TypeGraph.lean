import Verif.Proof.UnsafeAssign
/-! # Lemmas about the recursive type helpers -/
namespace Tsgolint.TypeGraph
variable {T : Type}

/-! ## More fuel changes nothing -/

theorem someLoop_mono {σ : Type} {f g : T → σ → Option (Bool × σ)} (h : ∀ p s x, f p s = some x → g p s = some x) :
    ∀ ps s x, someLoop f ps s = some x → someLoop g ps s = some x := by
  intro ps
  induction ps with
  | nil => intro s x hx; exact hx
  | cons p ps ih =>
    intro s x hx
    simp only [someLoop] at hx ⊢
    cases hp : f p s with
    | none => simp [hp] at hx
    | some y =>
      obtain ⟨b, s'⟩ := y
      rw [hp] at hx
      rw [h p s _ hp]
      cases b with
      | true => exact hx
      | false => exact ih s' x hx

theorem everyLoop_mono {σ : Type} {f g : T → σ → Option (Bool × σ)} (h : ∀ p s x, f p s = some x → g p s = some x) :
    ∀ ps s x, everyLoop f ps s = some x → everyLoop g ps s = some x := by
  intro ps
  induction ps with
  | nil => intro s x hx; exact hx
  | cons p ps ih =>
    intro s x hx
    simp only [everyLoop] at hx ⊢
    cases hp : f p s with
    | none => simp [hp] at hx
    | some y =>
      obtain ⟨b, s'⟩ := y
      rw [hp] at hx
      rw [h p s _ hp]
      cases b with
      | false => exact hx
      | true => exact ih s' x hx

theorem unitMap_mono {f g : T → Option Bool} (h : ∀ t b, f t = some b → g t = some b) :
    ∀ p (s : Unit) x, (f p).map (fun b => (b, ())) = some x → (g p).map (fun b => (b, ())) = some x := by
  intro p s x hx
  cases hp : f p with
  | none => simp [hp] at hx
  | some b => rw [h p b hp]; rw [hp] at hx; exact hx

theorem argsLoop_mono [DecidableEq T] {f g : Visited T → T → T → Option (Outcome T × Visited T)} {t r : T}
    (h : ∀ v a b x, f v a b = some x → g v a b = some x) :
    ∀ as rs v x, argsLoop f t r as rs v = some x → argsLoop g t r as rs v = some x := by
  intro as
  induction as with
  | nil => intro rs v x hx; exact hx
  | cons a as ih =>
    intro rs v x hx
    cases rs with
    | nil => exact hx
    | cons b rs =>
      simp only [argsLoop] at hx ⊢
      cases hp : f v a b with
      | none => simp [hp] at hx
      | some y =>
        obtain ⟨o, v'⟩ := y
        rw [hp] at hx
        rw [h v a b _ hp]
        cases o with
        | safe => exact ih rs v' x hx
        | bad _ _ => exact hx
        | panic => exact hx

theorem unsafeWorker_mono [DecidableEq T] {shape : T → Shape T} {newMap : Bool} (n : Nat) : ∀ v t r x,
    unsafeWorker shape newMap n v t r = some x → unsafeWorker shape newMap (n + 1) v t r = some x := by
  induction n with
  | zero => intro v t r x h; simp [unsafeWorker] at h
  | succ n ih =>
    intro v t r x h
    rw [unsafeWorker] at h ⊢
    split at h
    · exact h
    · split at h
      · rename_i hs; rw [if_pos hs]; exact h
      · rename_i hs; rw [if_neg hs]
        simp only at h ⊢
        split at h
        · split at h
          · rename_i h1; rw [if_pos h1]; exact h
          · rename_i h1; rw [if_neg h1]
            split at h
            · rename_i h2; rw [if_pos h2]; exact h
            · rename_i h2; rw [if_neg h2]
              split at h
              · exact argsLoop_mono ih _ _ _ _ h
              · exact h
        · exact h

theorem typeRecurser_mono {σ : Type} {shape : T → Shape T} {p q : T → σ → Option (Bool × σ)}
    (h : ∀ t s x, p t s = some x → q t s = some x) (n : Nat) : ∀ t s x,
    typeRecurser shape p n t s = some x → typeRecurser shape q (n + 1) t s = some x := by
  induction n with
  | zero => intro t s x hx; simp [typeRecurser] at hx
  | succ n ih =>
    intro t s x hx
    rw [typeRecurser] at hx ⊢
    split at hx
    · exact someLoop_mono ih _ _ _ hx
    · exact someLoop_mono ih _ _ _ hx
    · exact h _ _ _ hx

theorem discriminateWorker_mono [DecidableEq T] {E : AnyEnv T} (n : Nat) : ∀ t v x,
    discriminateWorker E n t v = some x → discriminateWorker E (n + 1) t v = some x := by
  induction n with
  | zero => intro t v x h; simp [discriminateWorker] at h
  | succ n ih =>
    intro t v x h
    rw [discriminateWorker] at h ⊢
    split at h
    · rename_i h1; rw [if_pos h1]; exact h
    · rename_i h1; rw [if_neg h1]
      simp only at h ⊢
      split at h
      · exact h
      · split at h
        · rename_i h2; rw [if_pos h2]; exact h
        · rename_i h2; rw [if_neg h2]
          have key := typeRecurser_mono (shape := E.shape) (p := awaitsAny E (discriminateWorker E n))
            (q := awaitsAny E (discriminateWorker E (n + 1))) (by
            intro t s x hx
            unfold awaitsAny at hx ⊢
            split at hx
            · rename_i h1; rw [if_pos h1]; exact hx
            · rename_i h1; rw [if_neg h1]
              split at hx
              · exact hx
              · split at hx
                · simp at hx
                · rename_i hd; rw [ih _ _ _ hd]; exact hx) n t (v ++ [t])
          split at h
          · simp at h
          · rename_i hr; rw [key _ hr]; exact h
          · rename_i hr; rw [key _ hr]; exact h

theorem builtinRecurser_mono {E : BaseEnv T} {predicate : T → Matches} (n : Nat) : ∀ t b,
    builtinRecurser E predicate n t = some b → builtinRecurser E predicate (n + 1) t = some b := by
  induction n with
  | zero => intro t b h; simp [builtinRecurser] at h
  | succ n ih =>
    intro t b h
    have lift : ∀ (L : (T → Unit → Option (Bool × Unit)) → List T → Unit → Option (Bool × Unit)),
        (∀ f g : T → Unit → Option (Bool × Unit), (∀ p s x, f p s = some x → g p s = some x) → ∀ ps s x, L f ps s = some x → L g ps s = some x) →
        ∀ ps, (L (fun t (_ : Unit) => (builtinRecurser E predicate n t).map fun b => (b, ())) ps ()).map (·.1) = some b →
        (L (fun t (_ : Unit) => (builtinRecurser E predicate (n + 1) t).map fun b => (b, ())) ps ()).map (·.1) = some b := by
      intro L hL ps hx
      simp only [Option.map_eq_some_iff] at hx
      obtain ⟨a, ha, rfl⟩ := hx
      rw [hL _ _ (unitMap_mono ih) _ _ _ ha]
      rfl
    rw [builtinRecurser] at h ⊢
    simp only at h ⊢
    split at h
    · exact lift _ (fun f g hfg => someLoop_mono hfg) _ h
    · exact lift _ (fun f g hfg => everyLoop_mono hfg) _ h
    · exact ih _ _ h
    · exact h
    · split at h
      · exact h
      · exact h
      · split at h
        · exact lift _ (fun f g hfg => someLoop_mono hfg) _ h
        · exact h

theorem matches_mono {bases : T → List T} {predicate : T → Bool} (n : Nat) : ∀ t b,
    matchesTypeOrBase bases predicate n t = some b → matchesTypeOrBase bases predicate (n + 1) t = some b := by
  induction n with
  | zero => intro t b h; simp [matchesTypeOrBase] at h
  | succ n ih =>
    intro t b h
    rw [matchesTypeOrBase] at h ⊢
    split at h
    · rename_i h1; rw [if_pos h1]; exact h
    · rename_i h1; rw [if_neg h1]
      simp only [Option.map_eq_some_iff] at h ⊢
      obtain ⟨a, ha, hb⟩ := h
      exact ⟨a, someLoop_mono (unitMap_mono ih) _ _ _ ha, hb⟩

theorem getTypeName_mono {E : NameEnv T} (n : Nat) : ∀ t b, getTypeName E n t = some b → getTypeName E (n + 1) t = some b := by
  induction n with
  | zero => intro t b h; simp [getTypeName] at h
  | succ n ih =>
    intro t b h
    have lift : ∀ p (s : Unit) x, (getTypeName E n p).map (fun s => (decide (s = "string"), ())) = some x →
        (getTypeName E (n + 1) p).map (fun s => (decide (s = "string"), ())) = some x := by
      intro p s x hx
      cases hp : getTypeName E n p with
      | none => simp [hp] at hx
      | some y => rw [ih _ _ hp]; rw [hp] at hx; exact hx
    rw [getTypeName] at h ⊢
    split at h
    · rename_i h1; rw [if_pos h1]; exact h
    · rename_i h1; rw [if_neg h1]
      split at h
      · split at h
        · exact ih _ _ h
        · exact h
      · simp only [Option.map_eq_some_iff] at h ⊢
        obtain ⟨a, ha, hb⟩ := h
        exact ⟨a, everyLoop_mono lift _ _ _ ha, hb⟩
      · simp only [Option.map_eq_some_iff] at h ⊢
        obtain ⟨a, ha, hb⟩ := h
        exact ⟨a, someLoop_mono lift _ _ _ ha, hb⟩
      · exact h

/-- A function of fuel that keeps its result when given more. -/
theorem mono_le {α : Type} {f : Nat → Option α} (h : ∀ n x, f n = some x → f (n + 1) = some x) {n m : Nat} (hnm : n ≤ m) {x : α}
    (hx : f n = some x) : f m = some x := by
  induction hnm with
  | refl => exact hx
  | step _ ih => exact h _ _ ih

theorem mono_unique {α : Type} {f : Nat → Option α} (h : ∀ n x, f n = some x → f (n + 1) = some x) {n m : Nat} {x y : α}
    (hx : f n = some x) (hy : f m = some y) : x = y := by
  rcases Nat.le_total n m with hl | hl
  · have := mono_le h hl hx; rw [hy] at this; exact (Option.some.inj this).symm
  · have := mono_le h hl hy; rw [hx] at this; exact Option.some.inj this

/-! ## What the loops decide -/

theorem someLoop_spec {f : T → Unit → Option (Bool × Unit)} {Q : T → Prop} :
    ∀ ps b, (∀ p ∈ ps, ∀ c, f p () = some (c, ()) → (c = true ↔ Q p)) → someLoop f ps () = some (b, ()) → (b = true ↔ ∃ p ∈ ps, Q p) := by
  intro ps
  induction ps with
  | nil => intro b _ h; simp [someLoop] at h; simp [← h]
  | cons p ps ih =>
    intro b hf h
    simp only [someLoop] at h
    split at h
    · simp at h
    · rename_i s hp
      have := (hf p (by simp) true hp).1 rfl
      simp at h; subst h
      simp [this]
    · rename_i s hp
      have := hf p (by simp) false hp
      rw [ih b (fun q hq => hf q (by simp [hq])) h]
      simp only [Bool.false_eq_true, false_iff] at this
      simp [this]

theorem everyLoop_spec {f : T → Unit → Option (Bool × Unit)} {Q : T → Prop} :
    ∀ ps b, (∀ p ∈ ps, ∀ c, f p () = some (c, ()) → (c = true ↔ Q p)) → everyLoop f ps () = some (b, ()) → (b = true ↔ ∀ p ∈ ps, Q p) := by
  intro ps
  induction ps with
  | nil => intro b _ h; simp [everyLoop] at h; simp [← h]
  | cons p ps ih =>
    intro b hf h
    simp only [everyLoop] at h
    split at h
    · simp at h
    · rename_i s hp
      have := hf p (by simp) false hp
      simp at h; subst h
      simp only [Bool.false_eq_true, false_iff] at this
      simp [this]
    · rename_i s hp
      have := (hf p (by simp) true hp).1 rfl
      rw [ih b (fun q hq => hf q (by simp [hq])) h]
      simp [this]

theorem unit_map_iff {x : Option Bool} {c : Bool} : x.map (fun b => (b, ())) = some (c, ()) ↔ x = some c := by
  cases x <;> simp

theorem someLoop_total {f : T → Unit → Option (Bool × Unit)} : ∀ ps, (∀ p ∈ ps, ∃ c, f p () = some (c, ())) →
    ∃ b, someLoop f ps () = some (b, ()) := by
  intro ps
  induction ps with
  | nil => intro _; exact ⟨false, rfl⟩
  | cons p ps ih =>
    intro h
    obtain ⟨c, hc⟩ := h p (by simp)
    obtain ⟨b, hb⟩ := ih fun q hq => h q (by simp [hq])
    cases c with
    | true => exact ⟨true, by simp [someLoop, hc]⟩
    | false => exact ⟨b, by simp [someLoop, hc, hb]⟩

theorem everyLoop_total {f : T → Unit → Option (Bool × Unit)} : ∀ ps, (∀ p ∈ ps, ∃ c, f p () = some (c, ())) →
    ∃ b, everyLoop f ps () = some (b, ()) := by
  intro ps
  induction ps with
  | nil => intro _; exact ⟨true, rfl⟩
  | cons p ps ih =>
    intro h
    obtain ⟨c, hc⟩ := h p (by simp)
    obtain ⟨b, hb⟩ := ih fun q hq => h q (by simp [hq])
    cases c with
    | false => exact ⟨false, by simp [everyLoop, hc]⟩
    | true => exact ⟨b, by simp [everyLoop, hc, hb]⟩

/-- `TypeRecurser` with a predicate that has a state: what holds of the constituents for each answer; a positive answer comes with the state of the constituent that gave it. -/
theorem typeRecurser_spec_state {σ : Type} {shape : T → Shape T} {predicate : T → σ → Option (Bool × σ)} {I : σ → Prop} {Qt : T → σ → Prop} {Qf : T → Prop}
    (n : Nat) : ∀ t s b s', (∀ c s b s', Constituent shape t c → I s → predicate c s = some (b, s') →
        (b = true → Qt c s') ∧ (b = false → Qf c ∧ I s')) → I s → typeRecurser shape predicate n t s = some (b, s') →
      (b = true → ∃ c, Constituent shape t c ∧ Qt c s') ∧ (b = false → (∀ c, Constituent shape t c → Qf c) ∧ I s') := by
  induction n with
  | zero => intro t s b s' _ _ h; simp [typeRecurser] at h
  | succ n ih =>
    intro t s b s' hp hI h
    have loop : ∀ ps s b s', (∀ p ∈ ps, ∀ c, Constituent shape p c → Constituent shape t c) → I s →
        someLoop (typeRecurser shape predicate n) ps s = some (b, s') →
        (b = true → ∃ p ∈ ps, ∃ c, Constituent shape p c ∧ Qt c s') ∧ (b = false → (∀ p ∈ ps, ∀ c, Constituent shape p c → Qf c) ∧ I s') := by
      intro ps
      induction ps with
      | nil => intro s b s' _ hI h; simp [someLoop] at h; obtain ⟨rfl, rfl⟩ := h; simp [hI]
      | cons p ps ihp =>
        intro s b s' hsub hI h
        have hpp : ∀ c s b s', Constituent shape p c → I s → predicate c s = some (b, s') → (b = true → Qt c s') ∧ (b = false → Qf c ∧ I s') :=
          fun c s b s' hc => hp c s b s' (hsub p (by simp) c hc)
        simp only [someLoop] at h
        split at h
        · simp at h
        · rename_i s1 h1
          have := (ih p s true s1 hpp hI h1).1 rfl
          simp at h; obtain ⟨rfl, rfl⟩ := h
          obtain ⟨c, hc⟩ := this
          exact ⟨fun _ => ⟨p, by simp, c, hc⟩, fun h => by simp at h⟩
        · rename_i s1 h1
          obtain ⟨hq, hI1⟩ := (ih p s false s1 hpp hI h1).2 rfl
          have := ihp s1 b s' (fun q hq => hsub q (by simp [hq])) hI1 h
          refine ⟨fun hb => ?_, fun hb => ?_⟩
          · obtain ⟨q, hq', hc⟩ := this.1 hb; exact ⟨q, by simp [hq'], hc⟩
          · refine ⟨?_, (this.2 hb).2⟩
            intro q hq' c hc
            simp only [List.mem_cons] at hq'
            rcases hq' with rfl | hq'
            · exact hq c hc
            · exact (this.2 hb).1 q hq' c hc
    rw [typeRecurser] at h
    split at h
    · rename_i ps hs
      have := loop ps s b s' (fun p hp' c hc => .union hs hp' hc) hI h
      refine ⟨fun hb => ?_, fun hb => ⟨?_, (this.2 hb).2⟩⟩
      · obtain ⟨p, hp', c, hc, hq⟩ := this.1 hb; exact ⟨c, .union hs hp' hc, hq⟩
      · intro c hc
        cases hc with
        | self h1 _ => exact absurd hs (h1 ps)
        | union hs' hp' hc' => rw [hs] at hs'; cases hs'; exact (this.2 hb).1 _ hp' c hc'
        | intersection hs' => rw [hs] at hs'; cases hs'
    · rename_i ps hs
      have := loop ps s b s' (fun p hp' c hc => .intersection hs hp' hc) hI h
      refine ⟨fun hb => ?_, fun hb => ⟨?_, (this.2 hb).2⟩⟩
      · obtain ⟨p, hp', c, hc, hq⟩ := this.1 hb; exact ⟨c, .intersection hs hp' hc, hq⟩
      · intro c hc
        cases hc with
        | self _ h1 => exact absurd hs (h1 ps)
        | intersection hs' hp' hc' => rw [hs] at hs'; cases hs'; exact (this.2 hb).1 _ hp' c hc'
        | union hs' => rw [hs] at hs'; cases hs'
    · rename_i h1 h2
      have hself : Constituent shape t t := .self (fun ps hh => h1 ps hh) (fun ps hh => h2 ps hh)
      have := hp t s b s' hself hI h
      refine ⟨fun hb => ⟨t, hself, this.1 hb⟩, fun hb => ⟨?_, (this.2 hb).2⟩⟩
      intro c hc
      cases hc with
      | self _ _ => exact (this.2 hb).1
      | union hs' => exact absurd hs' (h1 _)
      | intersection hs' => exact absurd hs' (h2 _)

/-- `TypeRecurser` with a predicate that has a state: what holds of the constituents for each answer. -/
theorem typeRecurser_spec {σ : Type} {shape : T → Shape T} {predicate : T → σ → Option (Bool × σ)} {I : σ → Prop} {Qt Qf : T → Prop}
    (n : Nat) : ∀ t s b s', (∀ c s b s', Constituent shape t c → I s → predicate c s = some (b, s') →
        (b = true → Qt c) ∧ (b = false → Qf c ∧ I s')) → I s → typeRecurser shape predicate n t s = some (b, s') →
      (b = true → ∃ c, Constituent shape t c ∧ Qt c) ∧ (b = false → (∀ c, Constituent shape t c → Qf c) ∧ I s') :=
  typeRecurser_spec_state (Qt := fun c _ => Qt c) n

/-- `TypeRecurser` ends if the predicate does and the nesting is bounded. -/
theorem typeRecurser_total {σ : Type} {shape : T → Shape T} {predicate : T → σ → Option (Bool × σ)} {I : σ → Prop} {U : T → Prop}
    {depth : T → Nat} (hU : ∀ t ps, U t → (shape t = .union ps ∨ shape t = .intersection ps) → ∀ p ∈ ps, U p ∧ depth p < depth t)
    (hp : ∀ c s, U c → I s → ∃ b s', predicate c s = some (b, s') ∧ I s') (n : Nat) :
    ∀ t s, U t → I s → depth t < n → ∃ b s', typeRecurser shape predicate n t s = some (b, s') ∧ I s' := by
  induction n with
  | zero => intro t s _ _ h; omega
  | succ n ih =>
    intro t s ht hI hd
    have loop : ∀ ps s, (∀ p ∈ ps, U p ∧ depth p < n) → I s →
        ∃ b s', someLoop (typeRecurser shape predicate n) ps s = some (b, s') ∧ I s' := by
      intro ps
      induction ps with
      | nil => intro s _ hI; exact ⟨false, s, rfl, hI⟩
      | cons p ps ihp =>
        intro s hps hI
        obtain ⟨b, s1, h1, hI1⟩ := ih p s (hps p (by simp)).1 hI (hps p (by simp)).2
        cases b with
        | true => exact ⟨true, s1, by simp [someLoop, h1], hI1⟩
        | false =>
          obtain ⟨b, s2, h2, hI2⟩ := ihp s1 (fun q hq => hps q (by simp [hq])) hI1
          exact ⟨b, s2, by simp [someLoop, h1, h2], hI2⟩
    rw [typeRecurser]
    split
    · rename_i ps hs
      exact loop ps s (fun p hp' => ⟨(hU t ps ht (Or.inl hs) p hp').1, by have := (hU t ps ht (Or.inl hs) p hp').2; omega⟩) hI
    · rename_i ps hs
      exact loop ps s (fun p hp' => ⟨(hU t ps ht (Or.inr hs) p hp').1, by have := (hU t ps ht (Or.inr hs) p hp').2; omega⟩) hI
    · exact hp t s ht hI

end Tsgolint.TypeGraph
