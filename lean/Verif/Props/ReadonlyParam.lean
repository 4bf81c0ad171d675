import Verif.Spec.ReadonlyParam
/-! # C93 -/
namespace Tsgolint.ReadonlyParam
variable {T : Type}

theorem privateName_iff (p : Property T) : p.privateName = true ↔ p.valueDeclaration = some true ∨ (p.valueDeclaration = none ∧ true ∈ p.declarations) := by
  unfold Property.privateName
  cases p.valueDeclaration <;> simp

theorem offends_iff (E : Env T) (p : Property T) : offends E p = true ↔ ¬Protected E p := by
  have h := privateName_iff p
  unfold offends Protected Property.isReadonly Property.privateMapped
  rw [← h]
  generalize p.privateName = pn
  generalize E.treatMethodsAsReadonly = a
  generalize p.method = b
  generalize p.readonlySymbol = c
  generalize p.checkReadonly = d
  generalize p.synthetic = e
  generalize p.declaredReadonly = f
  generalize p.mapped = g
  generalize p.declaredPrivate = i
  cases p.valueDeclaration <;> cases pn <;> cases a <;> cases b <;> cases c <;> cases d <;> cases e <;> cases f <;> cases g <;> cases i <;> simp

theorem follow_iff (p : Property T) (c : T) : follow p = some c ↔ Visible p ∧ p.type = some c := by
  have h := privateName_iff p
  unfold follow Visible Property.privateMapped
  have h' : (p.valueDeclaration ≠ some true ∧ ¬(p.valueDeclaration = none ∧ true ∈ p.declarations)) ↔ p.privateName = false := by
    rw [← not_or, ← h]; simp
  rw [h']
  generalize p.privateName = pn
  generalize p.method = a
  generalize p.mapped = b
  generalize p.declaredPrivate = d
  cases pn <;> cases a <;> cases b <;> cases d <;> simp

variable [DecidableEq T]

/-! ## Reports are right -/

omit [DecidableEq T] in
/-- Something mutable can be reached from one of these. -/
def Bad (E : Env T) (t : T) : Prop := ∃ c, Reaches E t c ∧ Mutable E c

omit [DecidableEq T] in
theorem Bad.up {E : Env T} {t c : T} (h : Contains E t c) (hb : Bad E c) : Bad E t := by
  obtain ⟨d, hd, hm⟩ := hb
  exact ⟨d, .step h hd, hm⟩

theorem fresh_sound {E : Env T} {f : Judge T} (hf : ∀ seen t s, f seen t = some (true, s) → Bad E t) (ts : List T) :
    ∀ seen s, fresh f ts seen = some (true, s) → ∃ t ∈ ts, Bad E t := by
  induction ts with
  | nil => intro _ _ h; simp [fresh] at h
  | cons t ts ih =>
    intro seen s h
    rw [fresh] at h
    by_cases hc : seen.contains t = true
    · rw [if_pos hc] at h
      obtain ⟨u, hu, hb⟩ := ih _ _ h
      exact ⟨u, by simp [hu], hb⟩
    · rw [if_neg hc, Option.bind_eq_some_iff] at h
      obtain ⟨⟨b, s'⟩, h1, h⟩ := h
      cases b with
      | true => exact ⟨t, by simp, hf _ _ _ h1⟩
      | false =>
        simp only [Bool.false_eq_true, if_false] at h
        obtain ⟨u, hu, hb⟩ := ih _ _ h
        exact ⟨u, by simp [hu], hb⟩

omit [DecidableEq T] in
theorem every_sound {E : Env T} {f : Judge T} (hf : ∀ seen t s, f seen t = some (true, s) → Bad E t) (ts : List T) :
    ∀ seen s, every f ts seen = some (true, s) → ∃ t ∈ ts, Bad E t := by
  induction ts with
  | nil => intro _ _ h; simp [every] at h
  | cons t ts ih =>
    intro seen s h
    rw [every, Option.bind_eq_some_iff] at h
    obtain ⟨⟨b, s'⟩, h1, h⟩ := h
    cases b with
    | true => exact ⟨t, by simp, hf _ _ _ h1⟩
    | false =>
      simp only [Bool.false_eq_true, if_false] at h
      obtain ⟨u, hu, hb⟩ := ih _ _ h
      exact ⟨u, by simp [hu], hb⟩

theorem index_sound {E : Env T} {f : Judge T} (hf : ∀ seen t s, f seen t = some (true, s) → Bad E t) (self : T) (l : List (Bool × Option T)) :
    ∀ seen s, indexLoop f self l seen = some (true, s) → (∃ v, (false, v) ∈ l) ∨ ∃ r v, (r, some v) ∈ l ∧ Bad E v := by
  induction l with
  | nil => intro _ _ h; simp [indexLoop] at h
  | cons p l ih =>
    intro seen s h
    have wk : ((∃ v, (false, v) ∈ l) ∨ ∃ r v, (r, some v) ∈ l ∧ Bad E v) → ((∃ v, (false, v) ∈ p :: l) ∨ ∃ r v, (r, some v) ∈ p :: l ∧ Bad E v) := by
      rintro (⟨v, hv⟩ | ⟨r, v, hv, hb⟩)
      · exact .inl ⟨v, by simp [hv]⟩
      · exact .inr ⟨r, v, by simp [hv], hb⟩
    obtain ⟨r, v⟩ := p
    cases r with
    | false => exact .inl ⟨v, by simp⟩
    | true =>
      cases v with
      | none => rw [indexLoop] at h; exact wk (ih _ _ h)
      | some v =>
        rw [indexLoop] at h
        by_cases hs : v = self
        · rw [if_pos hs] at h; exact wk (ih _ _ h)
        · rw [if_neg hs] at h
          by_cases hc : seen.contains v = true
          · rw [if_pos hc] at h; exact wk (ih _ _ h)
          · rw [if_neg hc, Option.bind_eq_some_iff] at h
            obtain ⟨⟨b, s'⟩, h1, h⟩ := h
            cases b with
            | true => exact .inr ⟨true, v, by simp, hf _ _ _ h1⟩
            | false =>
              simp only [Bool.false_eq_true, if_false] at h
              exact wk (ih _ _ h)

theorem object_sound {E : Env T} {f : Judge T} (hf : ∀ seen t s, f seen t = some (true, s) → Bad E t) (t : T) (hp : ByProperties E t) (seen s : List T)
    (h : object E f t seen = some (true, s)) : Bad E t := by
  unfold object at h
  by_cases ho : (E.properties t).any (offends E) = true
  · obtain ⟨p, hpm, hpo⟩ := List.any_eq_true.1 ho
    exact ⟨t, .refl, .property hp hpm ((offends_iff E p).1 hpo)⟩
  · rw [if_neg ho, Option.bind_eq_some_iff] at h
    obtain ⟨⟨b, s'⟩, h1, h⟩ := h
    cases b with
    | true =>
      obtain ⟨c, hc, hb⟩ := fresh_sound hf _ _ _ h1
      obtain ⟨p, hpm, hpf⟩ := List.mem_filterMap.1 hc
      obtain ⟨hv, ht⟩ := (follow_iff p c).1 hpf
      exact hb.up (.property hp hpm hv ht)
    | false =>
      simp only [Bool.false_eq_true, if_false] at h
      rcases index_sound hf t _ _ _ h with ⟨v, hv⟩ | ⟨r, v, hv, hb⟩
      · exact ⟨t, .refl, .index hp hv⟩
      · exact hb.up (.index hp hv)

theorem recurse_sound (E : Env T) (n : Nat) : ∀ seen t s, recurse E n seen t = some (true, s) → Bad E t := by
  induction n with
  | zero => intro _ _ _ h; simp [recurse] at h
  | succ n ih =>
    intro seen t s h
    rw [recurse] at h
    cases ha : E.allowed t with
    | true => simp [ha] at h
    | false =>
      rw [if_neg (by simp [ha])] at h
      cases hk : E.kind t with
      | union ts =>
        simp only [hk] at h
        obtain ⟨c, hc, hb⟩ := fresh_sound ih _ _ _ h
        exact hb.up (.union ha hk hc)
      | intersection ts =>
        simp only [hk] at h
        by_cases hany : ts.any E.arrayOrTuple = true
        · rw [if_pos hany] at h
          obtain ⟨c, hc, hb⟩ := fresh_sound ih _ _ _ h
          exact hb.up (.intersection ha hk (by simpa using hany) hc)
        · rw [if_neg hany] at h
          exact object_sound ih t ⟨ha, .inl ⟨ts, hk, by simpa using hany⟩⟩ _ _ h
      | other => simp [hk] at h
      | object =>
        simp only [hk, objectType] at h
        by_cases hf : (E.callable t && (E.properties t).isEmpty) = true
        · rw [if_pos hf] at h; simp at h
        · rw [if_neg hf] at h
          have hf' : ¬(E.callable t = true ∧ E.properties t = []) := by simpa using hf
          cases he : E.elements t with
          | writable => exact ⟨t, .refl, .array ⟨ha, hk, hf', he⟩⟩
          | fixed args =>
            simp only [he] at h
            obtain ⟨c, hc, hb⟩ := every_sound ih _ _ _ h
            exact hb.up (.element ⟨ha, hk, hf', he⟩ hc)
          | notArray =>
            simp only [he] at h
            exact object_sound ih t ⟨ha, .inr ⟨hk, hf', he⟩⟩ _ _ h

/-! ## Nothing is missed -/

omit [DecidableEq T] in
/-- A finished type: it is not mutable, and what it contains has been seen. -/
def Done (E : Env T) (seen : List T) (t : T) : Prop := ¬Mutable E t ∧ ∀ c, Contains E t c → c ∈ seen

omit [DecidableEq T] in
/-- From `a` to `b` only finished types have been added. -/
def Grows (E : Env T) (a b : List T) : Prop := (∀ x ∈ a, x ∈ b) ∧ ∀ x ∈ b, x ∈ a ∨ Done E b x

omit [DecidableEq T] in
theorem Grows.refl {E : Env T} {a : List T} : Grows E a a := ⟨fun _ h => h, fun _ h => .inl h⟩

omit [DecidableEq T] in
theorem Grows.trans {E : Env T} {a b c : List T} (h : Grows E a b) (h' : Grows E b c) : Grows E a c := by
  refine ⟨fun x hx => h'.1 x (h.1 x hx), fun x hx => ?_⟩
  rcases h'.2 x hx with hb | hd
  · rcases h.2 x hb with ha | hd
    · exact .inl ha
    · exact .inr ⟨hd.1, fun y hy => h'.1 y (hd.2 y hy)⟩
  · exact .inr hd

omit [DecidableEq T] in
/-- The recursion finishes the type it is asked about. -/
def Finishes (E : Env T) (f : Judge T) : Prop := ∀ seen t s, f seen t = some (false, s) → Grows E seen s ∧ t ∈ s ∧ Done E s t

theorem fresh_complete {E : Env T} {f : Judge T} (hf : Finishes E f) (ts : List T) :
    ∀ seen s, fresh f ts seen = some (false, s) → Grows E seen s ∧ ∀ t ∈ ts, t ∈ s := by
  induction ts with
  | nil => intro seen s h; simp only [fresh, Option.some.injEq, Prod.mk.injEq, true_and] at h; subst h; exact ⟨.refl, by simp⟩
  | cons t ts ih =>
    intro seen s h
    rw [fresh] at h
    by_cases hc : seen.contains t = true
    · rw [if_pos hc] at h
      obtain ⟨hg, hm⟩ := ih _ _ h
      exact ⟨hg, List.forall_mem_cons.2 ⟨hg.1 t (by simpa using hc), hm⟩⟩
    · rw [if_neg hc, Option.bind_eq_some_iff] at h
      obtain ⟨⟨b, s'⟩, h1, h⟩ := h
      cases b with
      | true => simp at h
      | false =>
        simp only [Bool.false_eq_true, if_false] at h
        obtain ⟨hg1, ht, _⟩ := hf _ _ _ h1
        obtain ⟨hg2, hm⟩ := ih _ _ h
        exact ⟨hg1.trans hg2, List.forall_mem_cons.2 ⟨hg2.1 t ht, hm⟩⟩

omit [DecidableEq T] in
theorem every_complete {E : Env T} {f : Judge T} (hf : Finishes E f) (ts : List T) :
    ∀ seen s, every f ts seen = some (false, s) → Grows E seen s ∧ ∀ t ∈ ts, t ∈ s := by
  induction ts with
  | nil => intro seen s h; simp only [every, Option.some.injEq, Prod.mk.injEq, true_and] at h; subst h; exact ⟨.refl, by simp⟩
  | cons t ts ih =>
    intro seen s h
    rw [every, Option.bind_eq_some_iff] at h
    obtain ⟨⟨b, s'⟩, h1, h⟩ := h
    cases b with
    | true => simp at h
    | false =>
      simp only [Bool.false_eq_true, if_false] at h
      obtain ⟨hg1, ht, _⟩ := hf _ _ _ h1
      obtain ⟨hg2, hm⟩ := ih _ _ h
      exact ⟨hg1.trans hg2, List.forall_mem_cons.2 ⟨hg2.1 t ht, hm⟩⟩

theorem index_complete {E : Env T} {f : Judge T} (hf : Finishes E f) (self : T) (l : List (Bool × Option T)) :
    ∀ seen s, self ∈ seen → indexLoop f self l seen = some (false, s) → Grows E seen s ∧ (∀ v, (false, v) ∉ l) ∧ ∀ r v, (r, some v) ∈ l → v ∈ s := by
  induction l with
  | nil => intro seen s _ h; simp only [indexLoop, Option.some.injEq, Prod.mk.injEq, true_and] at h; subst h; exact ⟨.refl, by simp⟩
  | cons p l ih =>
    intro seen s hself h
    obtain ⟨r, v⟩ := p
    cases r with
    | false => simp [indexLoop] at h
    | true =>
      have wrap : Grows E seen s → (∀ w, v = some w → w ∈ s) → (∀ v, (false, v) ∉ l) → (∀ r v, (r, some v) ∈ l → v ∈ s) →
          Grows E seen s ∧ (∀ w, (false, w) ∉ (true, v) :: l) ∧ ∀ r w, (r, some w) ∈ (true, v) :: l → w ∈ s := by
        intro h1 h2 h3 h4
        refine ⟨h1, fun w hw => ?_, fun r w hw => ?_⟩
        · rcases List.mem_cons.1 hw with h | h
          · cases h
          · exact h3 w h
        · rcases List.mem_cons.1 hw with h | h
          · cases h; exact h2 w rfl
          · exact h4 r w h
      cases v with
      | none =>
        rw [indexLoop] at h
        obtain ⟨h1, h2, h3⟩ := ih _ _ hself h
        exact wrap h1 (by simp) h2 h3
      | some v =>
        rw [indexLoop] at h
        by_cases hs : v = self
        · rw [if_pos hs] at h
          obtain ⟨h1, h2, h3⟩ := ih _ _ hself h
          exact wrap h1 (fun w hw => by cases hw; subst hs; exact h1.1 _ hself) h2 h3
        · rw [if_neg hs] at h
          by_cases hc : seen.contains v = true
          · rw [if_pos hc] at h
            obtain ⟨h1, h2, h3⟩ := ih _ _ hself h
            exact wrap h1 (fun w hw => by cases hw; exact h1.1 _ (by simpa using hc)) h2 h3
          · rw [if_neg hc, Option.bind_eq_some_iff] at h
            obtain ⟨⟨b, s'⟩, h1, h⟩ := h
            cases b with
            | true => simp at h
            | false =>
              simp only [Bool.false_eq_true, if_false] at h
              obtain ⟨hg1, ht, _⟩ := hf _ _ _ h1
              obtain ⟨hg2, h2, h3⟩ := ih _ _ (hg1.1 _ hself) h
              exact wrap (hg1.trans hg2) (fun w hw => by cases hw; exact hg2.1 _ ht) h2 h3

omit [DecidableEq T] in
theorem ByProperties.notElements {E : Env T} {t : T} (h : ByProperties E t) {e : Elements T} (h' : ByElements E t e) : e = .notArray := by
  rcases h.2 with ⟨ts, hk, _⟩ | ⟨_, _, he⟩
  · rw [h'.2.1] at hk; cases hk
  · rw [← h'.2.2.2]; exact he

theorem object_complete {E : Env T} {f : Judge T} (hf : Finishes E f) (t : T) (hp : ByProperties E t) (seen s : List T) (hself : t ∈ seen)
    (h : object E f t seen = some (false, s)) : Grows E seen s ∧ Done E s t := by
  unfold object at h
  by_cases ho : (E.properties t).any (offends E) = true
  · rw [if_pos ho] at h; simp at h
  · rw [if_neg ho, Option.bind_eq_some_iff] at h
    obtain ⟨⟨b, s'⟩, h1, h⟩ := h
    cases b with
    | true => simp at h
    | false =>
      simp only [Bool.false_eq_true, if_false] at h
      obtain ⟨hg1, hm1⟩ := fresh_complete hf _ _ _ h1
      obtain ⟨hg2, hn2, hm2⟩ := index_complete hf t _ _ _ (hg1.1 _ hself) h
      refine ⟨hg1.trans hg2, ?_, ?_⟩
      · intro hm
        cases hm with
        | array h => cases hp.notElements h
        | property _ hpm hprot => exact ho (List.any_eq_true.2 ⟨_, hpm, (offends_iff E _).2 hprot⟩)
        | index _ hi => exact hn2 _ hi
      · intro c hc
        cases hc with
        | union _ hk _ =>
          rcases hp.2 with ⟨_, hk', _⟩ | ⟨hk', _⟩ <;> rw [hk] at hk' <;> cases hk'
        | intersection _ hk ha _ =>
          rcases hp.2 with ⟨_, hk', hn⟩ | ⟨hk', _⟩
          · rw [hk] at hk'; cases hk'
            obtain ⟨a, ha, ha'⟩ := ha
            rw [hn a ha] at ha'; cases ha'
          · rw [hk] at hk'; cases hk'
        | element h _ => cases hp.notElements h
        | property _ hpm hv ht => exact hg2.1 _ (hm1 _ (List.mem_filterMap.2 ⟨_, hpm, (follow_iff _ _).2 ⟨hv, ht⟩⟩))
        | index _ hi => exact hm2 _ _ hi

theorem recurse_complete (E : Env T) (n : Nat) : Finishes E (recurse E n) := by
  induction n with
  | zero => intro _ _ _ h; simp [recurse] at h
  | succ n ih =>
    intro seen t s h
    rw [recurse] at h
    have wrap : Grows E (t :: seen) s → Done E s t → Grows E seen s ∧ t ∈ s ∧ Done E s t := by
      intro hg hd
      refine ⟨⟨fun x hx => hg.1 x (by simp [hx]), fun x hx => ?_⟩, hg.1 t (by simp), hd⟩
      rcases hg.2 x hx with hx' | hx'
      · rcases List.mem_cons.1 hx' with rfl | hx'
        · exact .inr hd
        · exact .inl hx'
      · exact .inr hx'
    cases ha : E.allowed t with
    | true =>
      rw [if_pos ha] at h
      simp only [Option.some.injEq, Prod.mk.injEq, true_and] at h
      subst h
      have nb : ¬ByProperties E t := fun h => by have := h.1; rw [ha] at this; cases this
      have ne : ∀ e, ¬ByElements E t e := fun e h => by have := h.1; rw [ha] at this; cases this
      refine wrap .refl ⟨?_, ?_⟩
      · rintro (h | ⟨h, _⟩ | ⟨h, _⟩)
        · exact ne _ h
        · exact nb h
        · exact nb h
      · intro c hc
        cases hc with
        | union h => rw [ha] at h; cases h
        | intersection h => rw [ha] at h; cases h
        | element h => exact absurd h (ne _)
        | property h => exact absurd h nb
        | index h => exact absurd h nb
    | false =>
      rw [if_neg (by simp [ha])] at h
      cases hk : E.kind t with
      | union ts =>
        simp only [hk] at h
        obtain ⟨hg, hm⟩ := fresh_complete ih _ _ _ h
        have nb : ¬ByProperties E t := fun h => by rcases h.2 with ⟨_, h, _⟩ | ⟨h, _⟩ <;> rw [hk] at h <;> cases h
        have ne : ∀ e, ¬ByElements E t e := fun e h => by have := h.2.1; rw [hk] at this; cases this
        refine wrap hg ⟨?_, ?_⟩
        · rintro (h | ⟨h, _⟩ | ⟨h, _⟩)
          · exact ne _ h
          · exact nb h
          · exact nb h
        · intro c hc
          cases hc with
          | union _ h hc => rw [hk] at h; cases h; exact hm _ hc
          | intersection _ h => rw [hk] at h; cases h
          | element h => exact absurd h (ne _)
          | property h => exact absurd h nb
          | index h => exact absurd h nb
      | intersection ts =>
        simp only [hk] at h
        by_cases hany : ts.any E.arrayOrTuple = true
        · rw [if_pos hany] at h
          obtain ⟨hg, hm⟩ := fresh_complete ih _ _ _ h
          obtain ⟨a, hat, haa⟩ := List.any_eq_true.1 hany
          have nb : ¬ByProperties E t := fun h => by
            rcases h.2 with ⟨_, h, hn⟩ | ⟨h, _⟩ <;> rw [hk] at h <;> cases h
            rw [hn a hat] at haa; cases haa
          have ne : ∀ e, ¬ByElements E t e := fun e h => by have := h.2.1; rw [hk] at this; cases this
          refine wrap hg ⟨?_, ?_⟩
          · rintro (h | ⟨h, _⟩ | ⟨h, _⟩)
            · exact ne _ h
            · exact nb h
            · exact nb h
          · intro c hc
            cases hc with
            | union _ h => rw [hk] at h; cases h
            | intersection _ h _ hc => rw [hk] at h; cases h; exact hm _ hc
            | element h => exact absurd h (ne _)
            | property h => exact absurd h nb
            | index h => exact absurd h nb
        · rw [if_neg hany] at h
          obtain ⟨hg, hd⟩ := object_complete ih t ⟨ha, .inl ⟨ts, hk, by simpa using hany⟩⟩ _ _ (by simp) h
          exact wrap hg hd
      | other =>
        simp only [hk, Option.some.injEq, Prod.mk.injEq, true_and] at h
        subst h
        have nb : ¬ByProperties E t := fun h => by rcases h.2 with ⟨_, h, _⟩ | ⟨h, _⟩ <;> rw [hk] at h <;> cases h
        have ne : ∀ e, ¬ByElements E t e := fun e h => by have := h.2.1; rw [hk] at this; cases this
        refine wrap .refl ⟨?_, ?_⟩
        · rintro (h | ⟨h, _⟩ | ⟨h, _⟩)
          · exact ne _ h
          · exact nb h
          · exact nb h
        · intro c hc
          cases hc with
          | union _ h => rw [hk] at h; cases h
          | intersection _ h => rw [hk] at h; cases h
          | element h => exact absurd h (ne _)
          | property h => exact absurd h nb
          | index h => exact absurd h nb
      | object =>
        simp only [hk, objectType] at h
        by_cases hf : (E.callable t && (E.properties t).isEmpty) = true
        · rw [if_pos hf] at h
          simp only [Option.some.injEq, Prod.mk.injEq, true_and] at h
          subst h
          have hf' : E.callable t = true ∧ E.properties t = [] := by simpa using hf
          have nb : ¬ByProperties E t := fun h => by
            rcases h.2 with ⟨_, h, _⟩ | ⟨_, h, _⟩
            · rw [hk] at h; cases h
            · exact h hf'
          have ne : ∀ e, ¬ByElements E t e := fun e h => h.2.2.1 hf'
          refine wrap .refl ⟨?_, ?_⟩
          · rintro (h | ⟨h, _⟩ | ⟨h, _⟩)
            · exact ne _ h
            · exact nb h
            · exact nb h
          · intro c hc
            cases hc with
            | union _ h => rw [hk] at h; cases h
            | intersection _ h => rw [hk] at h; cases h
            | element h => exact absurd h (ne _)
            | property h => exact absurd h nb
            | index h => exact absurd h nb
        · rw [if_neg hf] at h
          have hf' : ¬(E.callable t = true ∧ E.properties t = []) := by simpa using hf
          cases he : E.elements t with
          | writable => simp [he] at h
          | fixed args =>
            simp only [he] at h
            obtain ⟨hg, hm⟩ := every_complete ih _ _ _ h
            have nb : ¬ByProperties E t := fun h => by
              have := h.notElements (e := .fixed args) ⟨ha, hk, hf', he⟩
              cases this
            have ne : ¬ByElements E t .writable := fun h => by have := h.2.2.2; rw [he] at this; cases this
            refine wrap hg ⟨?_, ?_⟩
            · rintro (h | ⟨h, _⟩ | ⟨h, _⟩)
              · exact ne h
              · exact nb h
              · exact nb h
            · intro c hc
              cases hc with
              | union _ h => rw [hk] at h; cases h
              | intersection _ h => rw [hk] at h; cases h
              | element h hc => have := h.2.2.2; rw [he] at this; cases this; exact hm _ hc
              | property h => exact absurd h nb
              | index h => exact absurd h nb
          | notArray =>
            simp only [he] at h
            obtain ⟨hg, hd⟩ := object_complete ih t ⟨ha, .inr ⟨hk, hf', he⟩⟩ _ _ (by simp) h
            exact wrap hg hd

/-- C93 (types).  A type counts as readonly exactly if nothing that can be written is reachable from it: through unions, elements of
arrays and tuples, visible properties and index signatures, also if types refer to each other. -/
theorem C93_types (E : Env T) (n : Nat) (t : T) (b : Bool) (h : isReadonly E n t = some b) :
    b = true ↔ ¬∃ c, Reaches E t c ∧ Mutable E c := by
  unfold isReadonly at h
  simp only [Option.map_eq_some_iff, Prod.exists] at h
  obtain ⟨m, s, h, rfl⟩ := h
  cases m with
  | true =>
    simp only [Bool.not_true, Bool.false_eq_true, false_iff, Classical.not_not]
    exact recurse_sound E n _ _ _ h
  | false =>
    simp only [Bool.not_false, true_iff]
    obtain ⟨hg, ht, _⟩ := recurse_complete E n _ _ _ h
    have hdone : ∀ x ∈ s, Done E s x := fun x hx => (hg.2 x hx).resolve_left (by simp)
    rintro ⟨c, hr, hm⟩
    have : ∀ x y, Reaches E x y → x ∈ s → y ∈ s := by
      intro x y hxy
      induction hxy with
      | refl => exact id
      | step hc _ ih => exact fun hx => ih ((hdone _ hx).2 _ hc)
    exact (hdone c (this _ _ hr ht)).1 hm

/-! ## Termination -/

/-- How many of these types have not been seen. -/
def unseen (U seen : List T) : Nat := (U.filter fun t => !seen.contains t).length

theorem unseen_mono {U a b : List T} (h : ∀ x ∈ a, x ∈ b) : unseen U b ≤ unseen U a := by
  unfold unseen
  rw [← List.countP_eq_length_filter, ← List.countP_eq_length_filter]
  refine List.countP_mono_left fun x _ hx => ?_
  simp only [List.contains_eq_mem, Bool.not_eq_true', decide_eq_false_iff_not] at hx ⊢
  exact fun h' => hx (h x h')

theorem unseen_cons {U seen : List T} {t : T} (hU : t ∈ U) (h : t ∉ seen) : unseen U (t :: seen) + 1 ≤ unseen U seen := by
  unfold unseen
  have hmem : t ∈ U.filter fun r => !seen.contains r := by
    rw [List.mem_filter]; exact ⟨hU, by simpa using h⟩
  have hsub : (U.filter fun r => !(t :: seen).contains r) = (U.filter fun r => !seen.contains r).filter (· != t) := by
    rw [List.filter_filter]
    refine List.filter_congr fun r _ => ?_
    simp only [List.contains_cons, Bool.not_or]
    rfl
  rw [hsub]
  exact List.length_filter_lt_length_iff_exists.2 ⟨t, hmem, by simp⟩

/-- Fuel that is needed: more for a type that has been seen already, which only an array can lead to. -/
def need (U : List T) (rank : T → Nat) (R : Nat) (seen : List T) (t : T) : Nat :=
  unseen U seen * (R + 2) + (if t ∈ seen then 1 + rank t else 0)

theorem need_mono {U : List T} {rank : T → Nat} {R : Nat} (hR : ∀ t, rank t ≤ R) {a b : List T} (h : ∀ x ∈ a, x ∈ b) (t : T) :
    need U rank R b t ≤ unseen U a * (R + 2) + 1 + rank t := by
  unfold need
  have := Nat.mul_le_mul_right (R + 2) (unseen_mono (U := U) h)
  split <;> omega

theorem need_fresh {U : List T} {rank : T → Nat} {R : Nat} {a b : List T} (h : ∀ x ∈ a, x ∈ b) {t : T} (ht : t ∉ b) :
    need U rank R b t ≤ unseen U a * (R + 2) := by
  unfold need
  rw [if_neg ht]
  have := Nat.mul_le_mul_right (R + 2) (unseen_mono (U := U) h)
  omega

/-- The recursion answers and forgets nothing. -/
def Answers (f : Judge T) (seen : List T) (t : T) : Prop := ∃ b s, f seen t = some (b, s) ∧ ∀ x ∈ seen, x ∈ s

theorem fresh_total {f : Judge T} (a : List T) (ts : List T) : (∀ t ∈ ts, ∀ b : List T, (∀ x ∈ a, x ∈ b) → t ∉ b → Answers f b t) →
    ∀ seen, (∀ x ∈ a, x ∈ seen) → ∃ b s, fresh f ts seen = some (b, s) ∧ ∀ x ∈ seen, x ∈ s := by
  induction ts with
  | nil => intro _ seen _; exact ⟨false, seen, rfl, fun _ h => h⟩
  | cons t ts ih =>
    intro hf seen hs
    have ih' := ih (fun t ht => hf t (by simp [ht]))
    rw [fresh]
    by_cases hc : seen.contains t = true
    · rw [if_pos hc]; exact ih' seen hs
    · rw [if_neg hc]
      obtain ⟨b, s, h, hsub⟩ := hf t (by simp) seen hs (by simpa using hc)
      rw [h]
      cases b with
      | true => exact ⟨true, s, rfl, hsub⟩
      | false =>
        obtain ⟨b', s', h', hsub'⟩ := ih' s (fun x hx => hsub x (hs x hx))
        exact ⟨b', s', by simpa using h', fun x hx => hsub' x (hsub x hx)⟩

omit [DecidableEq T] in
theorem every_total {f : Judge T} (a : List T) (ts : List T) : (∀ t ∈ ts, ∀ b : List T, (∀ x ∈ a, x ∈ b) → Answers f b t) →
    ∀ seen, (∀ x ∈ a, x ∈ seen) → ∃ b s, every f ts seen = some (b, s) ∧ ∀ x ∈ seen, x ∈ s := by
  induction ts with
  | nil => intro _ seen _; exact ⟨false, seen, rfl, fun _ h => h⟩
  | cons t ts ih =>
    intro hf seen hs
    have ih' := ih (fun t ht => hf t (by simp [ht]))
    rw [every]
    obtain ⟨b, s, h, hsub⟩ := hf t (by simp) seen hs
    rw [h]
    cases b with
    | true => exact ⟨true, s, rfl, hsub⟩
    | false =>
      obtain ⟨b', s', h', hsub'⟩ := ih' s (fun x hx => hsub x (hs x hx))
      exact ⟨b', s', by simpa using h', fun x hx => hsub' x (hsub x hx)⟩

theorem index_total {f : Judge T} (self : T) (a : List T) (l : List (Bool × Option T)) :
    (∀ r t, (r, some t) ∈ l → ∀ b : List T, (∀ x ∈ a, x ∈ b) → t ∉ b → Answers f b t) →
    ∀ seen, (∀ x ∈ a, x ∈ seen) → ∃ b s, indexLoop f self l seen = some (b, s) ∧ ∀ x ∈ seen, x ∈ s := by
  induction l with
  | nil => intro _ seen _; exact ⟨false, seen, rfl, fun _ h => h⟩
  | cons p l ih =>
    intro hf seen hs
    have ih' := ih (fun r t ht => hf r t (by simp [ht]))
    obtain ⟨r, v⟩ := p
    cases r with
    | false => exact ⟨true, seen, rfl, fun _ h => h⟩
    | true =>
      cases v with
      | none => rw [indexLoop]; exact ih' seen hs
      | some v =>
        rw [indexLoop]
        by_cases hv : v = self
        · rw [if_pos hv]; exact ih' seen hs
        · rw [if_neg hv]
          by_cases hc : seen.contains v = true
          · rw [if_pos hc]; exact ih' seen hs
          · rw [if_neg hc]
            obtain ⟨b, s, h, hsub⟩ := hf true v (by simp) seen hs (by simpa using hc)
            rw [h]
            cases b with
            | true => exact ⟨true, s, rfl, hsub⟩
            | false =>
              obtain ⟨b', s', h', hsub'⟩ := ih' s (fun x hx => hsub x (hs x hx))
              exact ⟨b', s', by simpa using h', fun x hx => hsub' x (hsub x hx)⟩

theorem object_total {E : Env T} {f : Judge T} (t : T) (hp : ByProperties E t) (seen : List T)
    (hf : ∀ c, Contains E t c → ∀ b : List T, (∀ x ∈ seen, x ∈ b) → c ∉ b → Answers f b c) :
    ∃ b s, object E f t seen = some (b, s) ∧ ∀ x ∈ seen, x ∈ s := by
  unfold object
  by_cases ho : (E.properties t).any (offends E) = true
  · rw [if_pos ho]; exact ⟨true, seen, rfl, fun _ h => h⟩
  · rw [if_neg ho]
    obtain ⟨b, s, h, hsub⟩ := fresh_total (f := f) seen ((E.properties t).filterMap follow) (fun c hc => by
      obtain ⟨p, hpm, hpf⟩ := List.mem_filterMap.1 hc
      obtain ⟨hv, ht⟩ := (follow_iff p c).1 hpf
      exact hf c (.property hp hpm hv ht)) seen (fun _ h => h)
    rw [h]
    cases b with
    | true => exact ⟨true, s, rfl, hsub⟩
    | false =>
      obtain ⟨b', s', h', hsub'⟩ := index_total (f := f) t seen (E.indexInfos t) (fun r c hc => hf c (.index hp hc)) s hsub
      exact ⟨b', s', by simpa using h', fun x hx => hsub' x (hsub x hx)⟩

theorem recurse_total (E : Env T) (U : List T) (hU : ∀ t ∈ U, ∀ c, Contains E t c → c ∈ U) (rank : T → Nat) (R : Nat) (hR : ∀ t, rank t ≤ R)
    (hrank : ∀ t ∈ U, ∀ args c, ByElements E t (.fixed args) → c ∈ args → rank c < rank t) (n : Nat) :
    ∀ seen t, t ∈ U → need U rank R seen t < n → Answers (recurse E n) seen t := by
  induction n with
  | zero => intro _ _ _ h; omega
  | succ n ih =>
    intro seen t htU hn
    have sub : ∀ {r : Option (Bool × List T)}, (∃ b s, r = some (b, s) ∧ ∀ x ∈ t :: seen, x ∈ s) → ∃ b s, r = some (b, s) ∧ ∀ x ∈ seen, x ∈ s := by
      rintro r ⟨b, s, h, hs⟩; exact ⟨b, s, h, fun x hx => hs x (by simp [hx])⟩
    -- a type not seen yet
    have hfresh : ∀ c, Contains E t c → ∀ b : List T, (∀ x ∈ t :: seen, x ∈ b) → c ∉ b → Answers (recurse E n) b c := by
      intro c hc b hb hcb
      refine ih b c (hU t htU c hc) ?_
      have h1 := need_fresh (U := U) (rank := rank) (R := R) hb hcb
      unfold need at hn
      by_cases hts : t ∈ seen
      · rw [if_pos hts] at hn
        have h2 := Nat.mul_le_mul_right (R + 2) (unseen_mono (U := U) (a := seen) (b := t :: seen) (fun x hx => by simp [hx]))
        omega
      · rw [if_neg hts] at hn
        have h2 := Nat.mul_le_mul_right (R + 2) (unseen_cons htU hts)
        rw [Nat.add_mul] at h2
        omega
    have helem : ∀ args c, ByElements E t (.fixed args) → c ∈ args → ∀ b : List T, (∀ x ∈ t :: seen, x ∈ b) → Answers (recurse E n) b c := by
      intro args c he hc b hb
      refine ih b c (hU t htU c (.element he hc)) ?_
      have h1 := need_mono (U := U) (rank := rank) (R := R) hR hb c
      have hlt := hrank t htU args c he hc
      have hRc := hR c
      unfold need at hn
      by_cases hts : t ∈ seen
      · rw [if_pos hts] at hn
        have h2 := Nat.mul_le_mul_right (R + 2) (unseen_mono (U := U) (a := seen) (b := t :: seen) (fun x hx => by simp [hx]))
        omega
      · rw [if_neg hts] at hn
        have h2 := Nat.mul_le_mul_right (R + 2) (unseen_cons htU hts)
        rw [Nat.add_mul] at h2
        omega
    unfold Answers
    apply sub
    rw [recurse]
    cases ha : E.allowed t with
    | true => exact ⟨false, t :: seen, rfl, fun _ h => h⟩
    | false =>
      rw [if_neg (by simp)]
      cases hk : E.kind t with
      | union ts => exact fresh_total (t :: seen) ts (fun c hc => hfresh c (.union ha hk hc)) _ (fun _ h => h)
      | intersection ts =>
        simp only
        by_cases hany : ts.any E.arrayOrTuple = true
        · rw [if_pos hany]
          exact fresh_total (t :: seen) ts (fun c hc => hfresh c (.intersection ha hk (by simpa using hany) hc)) _ (fun _ h => h)
        · rw [if_neg hany]
          exact object_total t ⟨ha, .inl ⟨ts, hk, by simpa using hany⟩⟩ _ hfresh
      | other => exact ⟨false, t :: seen, rfl, fun _ h => h⟩
      | object =>
        simp only [objectType]
        by_cases hf : (E.callable t && (E.properties t).isEmpty) = true
        · rw [if_pos hf]; exact ⟨false, t :: seen, rfl, fun _ h => h⟩
        · rw [if_neg hf]
          have hf' : ¬(E.callable t = true ∧ E.properties t = []) := by simpa using hf
          cases he : E.elements t with
          | writable => exact ⟨true, t :: seen, rfl, fun _ h => h⟩
          | fixed args => exact every_total (t :: seen) args (fun c hc => helem args c ⟨ha, hk, hf', he⟩ hc) _ (fun _ h => h)
          | notArray => exact object_total t ⟨ha, .inr ⟨hk, hf', he⟩⟩ _ hfresh

/-- C93 (termination).  The judgement ends if only finitely many types can be reached and arrays of arrays do not go on for ever: with
`n` types and arrays nested at most `R` deep, in depth `(n + 1) * (R + 2)`. -/
theorem C93_terminates (E : Env T) (U : List T) (hU : ∀ t ∈ U, ∀ c, Contains E t c → c ∈ U) (rank : T → Nat) (R : Nat) (hR : ∀ t, rank t ≤ R)
    (hrank : ∀ t ∈ U, ∀ args c, ByElements E t (.fixed args) → c ∈ args → rank c < rank t) (t : T) (ht : t ∈ U) :
    ∃ b, isReadonly E ((U.length + 1) * (R + 2)) t = some b := by
  obtain ⟨b, s, h, _⟩ := recurse_total E U hU rank R hR hrank ((U.length + 1) * (R + 2)) [] t ht (by
    unfold need
    rw [if_neg (by simp), Nat.add_mul]
    have : unseen U [] ≤ U.length := List.length_filter_le _ _
    have := Nat.mul_le_mul_right (R + 2) this
    omega)
  exact ⟨!b, by simp [isReadonly, h]⟩

/-- C93 (hazard: endless recursion).  For a readonly array or tuple type that contains itself, as `type T = readonly T[]`, the judgement
never ends (the stack overflows): type arguments are judged without asking whether they have been seen. -/
theorem C93_hazard_diverges (E : Env T) (t : T) (rest : List T) (h : ByElements E t (.fixed (t :: rest))) (n : Nat) : isReadonly E n t = none := by
  obtain ⟨ha, hk, hf, he⟩ := h
  have hf' : ¬((E.callable t && (E.properties t).isEmpty) = true) := by simpa using hf
  have : ∀ n seen, recurse E n seen t = none := by
    intro n
    induction n with
    | zero => intro _; rfl
    | succ n ih =>
      intro seen
      rw [recurse, if_neg (by simp [ha])]
      simp only [hk, objectType]
      rw [if_neg hf']
      simp only [he, every, ih, Option.bind_none]
  simp [isReadonly, this]

/-! ## Parameters -/

omit [DecidableEq T] in
theorem brandLoop_iff (B : Brands T) (cs : List T) : ∀ o p, brandLoop B cs o p = true ↔
    (∀ c ∈ cs, B.objectLike c = true ∨ B.primitiveLike c = true) ∧ (o = true ∨ ∃ c ∈ cs, B.objectLike c = true) ∧
      (p = true ∨ ∃ c ∈ cs, B.objectLike c = false ∧ B.primitiveLike c = true) := by
  have ex : ∀ (P : T → Prop) (c : T) (cs : List T), (∃ x ∈ c :: cs, P x) ↔ P c ∨ ∃ x ∈ cs, P x := by intro P c cs; simp
  induction cs with
  | nil => intro o p; simp [brandLoop]
  | cons c cs ih =>
    intro o p
    rw [brandLoop, List.forall_mem_cons, ex, ex]
    cases h1 : B.objectLike c with
    | true => simp [ih]
    | false =>
      cases h2 : B.primitiveLike c with
      | true => simp [ih]
      | false => simp

omit [DecidableEq T] in
theorem branded_iff (E : Env T) (B : Brands T) (t : T) : branded E B t = true ↔ Branded E B t := by
  unfold branded Branded
  cases hk : E.kind t with
  | intersection cs => simp [brandLoop_iff]
  | _ => simp

/-- C93 (parameters).  A parameter is reported exactly if it is to be checked, its type is known, something in its type can be written, and the
type is neither a branded literal nor a union of such. -/
theorem C93_parameter (E : Env T) (B : Brands T) (o : Options) (n : Nat) (p : Param T) (b : Bool) (h : report E B o n p = some b) :
    b = true ↔ (p.property = true → o.checkParameterProperties = true) ∧ (p.annotated = false → o.ignoreInferredTypes = false) ∧
      ∃ t, p.type = some t ∧ (∃ c, Reaches E t c ∧ Mutable E c) ∧ ¬Branded E B t ∧ ¬∃ ts, E.kind t = .union ts ∧ ∀ c ∈ ts, Branded E B c := by
  have hlike : ∀ t, brandedLike E B t = true ↔ Branded E B t ∨ ∃ ts, E.kind t = .union ts ∧ ∀ c ∈ ts, Branded E B c := by
    intro t
    unfold brandedLike
    cases hk : E.kind t with
    | union ts =>
      simp only [List.all_eq_true, branded_iff, Kind.union.injEq, exists_eq_left']
      refine ⟨.inr, ?_⟩
      rintro (⟨cs, h, _⟩ | h)
      · rw [hk] at h; cases h
      · exact h
    | intersection ts => simp [branded_iff]
    | object => simp [branded_iff]
    | other => simp [branded_iff]
  unfold report at h
  by_cases h1 : (!o.checkParameterProperties && p.property) = true
  · rw [if_pos h1] at h
    cases h
    simp only [Bool.and_eq_true, Bool.not_eq_true'] at h1
    simp [h1]
  · rw [if_neg h1] at h
    have h1' : p.property = true → o.checkParameterProperties = true := by
      intro hp; cases hc : o.checkParameterProperties <;> simp_all
    by_cases h2 : (o.ignoreInferredTypes && !p.annotated) = true
    · rw [if_pos h2] at h
      cases h
      simp only [Bool.and_eq_true, Bool.not_eq_true'] at h2
      simp [h2]
    · rw [if_neg h2] at h
      have h2' : p.annotated = false → o.ignoreInferredTypes = false := by
        intro hp; cases hc : o.ignoreInferredTypes <;> simp_all
      cases ht : p.type with
      | none => simp [ht] at h; simp [h]
      | some t =>
        simp only [ht, Option.map_eq_some_iff] at h
        obtain ⟨r, hr, rfl⟩ := h
        have := C93_types E n t r hr
        have hl := hlike t
        simp only [Bool.and_eq_true, Bool.not_eq_true', Option.some.injEq, exists_eq_left']
        have hr' : r = false ↔ ∃ c, Reaches E t c ∧ Mutable E c := by
          rw [← Bool.not_eq_true, this, Classical.not_not]
        have hl' : brandedLike E B t = false ↔ ¬Branded E B t ∧ ¬∃ ts, E.kind t = .union ts ∧ ∀ c ∈ ts, Branded E B c := by
          rw [← Bool.not_eq_true, hl, not_or]
        rw [hr', hl']
        exact ⟨fun h => ⟨h1', h2', h⟩, fun h => h.2.2⟩

/-! ## Samples -/

/-- 0: a primitive; 1: `Array`; 2: `readonly` array of 0; 3: `{ readonly a: 3; readonly b: 1 }`; 4: the recursive union `0 | readonly 4[]` with 5 its array;
6: `type T = readonly T[]`. -/
def sample : Env Nat where
  allowed _ := false
  kind n := if n = 0 then .other else if n = 4 then .union [0, 5] else .object
  arrayOrTuple n := n == 1 || n == 2 || n == 5 || n == 6
  elements n := if n = 1 then .writable else if n = 2 then .fixed [0] else if n = 5 then .fixed [4] else if n = 6 then .fixed [6] else .notArray
  callable _ := false
  properties n := if n = 3 then [⟨false, false, false, false, true, true, false, some false, [false], some 3⟩, ⟨false, false, false, false, true, true, false, some false, [false], some 1⟩] else []
  indexInfos _ := []
  treatMethodsAsReadonly := false

example : isReadonly sample 5 3 = some false ∧ isReadonly sample 5 2 = some true ∧ isReadonly sample 5 4 = some true ∧ isReadonly sample 8 6 = none := by decide
example : ByElements sample 6 (.fixed [6]) := ⟨rfl, rfl, by simp [sample], rfl⟩
example : report sample ⟨fun _ => false, fun _ => false⟩ ⟨true, false⟩ 5 ⟨false, true, some 3⟩ = some true := by decide
/-- The hypotheses of `C93_terminates` hold for the recursive union. -/
example : ∃ b, isReadonly sample 12 4 = some b := by
  refine C93_terminates sample [0, 4, 5] ?_ (fun n => if n = 5 then 1 else 0) 1 (fun t => by by_cases h : t = 5 <;> simp [h]) ?_ 4 (by simp)
  · intro t ht c hc
    simp only [List.mem_cons, List.not_mem_nil, or_false] at ht ⊢
    rcases ht with rfl | rfl | rfl <;> cases hc <;> simp_all [sample, ByElements, ByProperties]
    · next h hc => subst h; simp at hc; rcases hc with rfl | rfl <;> simp
    · next h hc => subst h; simp at hc; subst hc; simp
  · intro t ht args c he hc
    simp only [List.mem_cons, List.not_mem_nil, or_false] at ht
    obtain ⟨_, hk, _, he⟩ := he
    rcases ht with rfl | rfl | rfl
    · simp [sample] at hk
    · simp [sample] at hk
    · simp only [sample] at he
      simp at he
      subst he
      simp_all

end Tsgolint.ReadonlyParam
