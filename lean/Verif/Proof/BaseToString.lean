import Verif.Spec.BaseToString
/-! # Lemmas for C62 -/
namespace Tsgolint.BaseToString

/-- The value of a shape under given answers. -/
def value (f : Query → Usefulness) : Shape → Usefulness
  | .const u => u
  | .ask _ q => f q
  | .union qs => ofUnion (qs.map f)
  | .intersection qs => if (qs.map f).any (fun c => c == .always) then .always else .never
  | .tuple _ qs => ofTuple (qs.map f)

/-- `q` is met below `r`. -/
inductive Below (e : Env) : Query → Query → Prop
  | one {q r} : e.Child q r → Below e q r
  | step {q r s} : e.Child q r → Below e r s → Below e q s

theorem Below.trans {e : Env} {q r s} (h : Below e q r) (h' : Below e r s) : Below e q s := by
  induction h with
  | one h => exact .step h h'
  | step h _ ih => exact .step h (ih h')

theorem NotRecursive.irrefl {e : Env} {q : Query} (h : e.NotRecursive q) : ¬ Below e q q := by
  induction h with
  | intro q _ ih =>
    intro hb
    have : ∃ r, e.Child r q ∧ Below e r r := by
      have gen : ∀ a b, Below e a b → ∃ r, e.Child r b ∧ (a = r ∨ Below e a r) := by
        intro a b hab
        induction hab with
        | one h => exact ⟨_, h, .inl rfl⟩
        | step h h' ih =>
          obtain ⟨r, hr, h1⟩ := ih
          refine ⟨r, hr, .inr ?_⟩
          rcases h1 with rfl | h1
          · exact .one h
          · exact .step h h1
      obtain ⟨r, hr, h1⟩ := gen q q hb
      rcases h1 with rfl | h1
      · exact ⟨q, hr, .one hr⟩
      · exact ⟨r, hr, .step hr h1⟩
    obtain ⟨r, hr, h⟩ := this
    exact ih r hr h

theorem NotRecursive.child {e : Env} {q r : Query} (h : e.NotRecursive q) (hc : e.Child r q) : e.NotRecursive r := Acc.inv h hc

structure Inv (e : Env) (f : Query → Usefulness) (m : Memo) : Prop where
  ok : ∀ q u, e.NotRecursive q → m.values q = some u → u = f q

def Stack (e : Env) (m : Memo) (q : Query) : Prop := ∀ r, m.resolving r = true → Below e q r

def Visited (m : Memo) (v : List Nat) : Prop := ∀ t ∈ v, m.resolving ⟨.toString, t⟩ = true

/-- What an evaluator keeps. -/
def Good (e : Env) (f : Query → Usefulness) (ev : Eval) : Prop :=
  ∀ m v q u m', ev m v q = some (u, m') → Inv e f m → Stack e m q → Visited m v →
    Inv e f m' ∧ m'.resolving = m.resolving ∧ (e.NotRecursive q → u = f q)

theorem evalAll_good {e f ev} (h : Good e f ev) (qs : List Query) : ∀ m v us m', evalAll ev v m qs = some (us, m') → Inv e f m →
    (∀ q ∈ qs, Stack e m q) → Visited m v → Inv e f m' ∧ m'.resolving = m.resolving ∧ ((∀ q ∈ qs, e.NotRecursive q) → us = qs.map f) := by
  induction qs with
  | nil => intro m v us m' he hi _ _; simp [evalAll] at he; obtain ⟨rfl, rfl⟩ := he; exact ⟨hi, rfl, fun _ => rfl⟩
  | cons q qs ih =>
    intro m v us m' he hi hs hv
    simp only [evalAll, Option.bind_eq_bind, Option.bind_eq_some_iff] at he
    obtain ⟨⟨u, m1⟩, h1, ⟨us', m2⟩, h2, h3⟩ := he
    simp only [Option.some.injEq, Prod.mk.injEq] at h3
    obtain ⟨rfl, rfl⟩ := h3
    obtain ⟨i1, r1, e1⟩ := h _ _ _ _ _ h1 hi (hs q (List.mem_cons_self ..)) hv
    obtain ⟨i2, r2, e2⟩ := ih _ _ _ _ h2 i1 (fun q' hq' r hr => hs q' (List.mem_cons_of_mem _ hq') r (by rw [← r1]; exact hr))
      (fun t ht => by rw [r1]; exact hv t ht)
    refine ⟨i2, r2.trans r1, fun hn => ?_⟩
    rw [List.map_cons, e1 (hn q (List.mem_cons_self ..)), e2 (fun q' hq' => hn q' (List.mem_cons_of_mem _ hq'))]

theorem evalSome_good {e f ev} (h : Good e f ev) (qs : List Query) : ∀ m v b m', evalSome ev v m qs = some (b, m') → Inv e f m →
    (∀ q ∈ qs, Stack e m q) → Visited m v →
    Inv e f m' ∧ m'.resolving = m.resolving ∧ ((∀ q ∈ qs, e.NotRecursive q) → b = (qs.map f).any (fun c => c == .always)) := by
  induction qs with
  | nil => intro m v us m' he hi _ _; simp [evalSome] at he; obtain ⟨rfl, rfl⟩ := he; exact ⟨hi, rfl, fun _ => rfl⟩
  | cons q qs ih =>
    intro m v b m' he hi hs hv
    simp only [evalSome, Option.bind_eq_bind, Option.bind_eq_some_iff] at he
    obtain ⟨⟨u, m1⟩, h1, h2⟩ := he
    obtain ⟨i1, r1, e1⟩ := h _ _ _ _ _ h1 hi (hs q (List.mem_cons_self ..)) hv
    simp only at h2
    by_cases hu : u = .always
    · rw [if_pos hu] at h2
      simp only [Option.some.injEq, Prod.mk.injEq] at h2
      obtain ⟨rfl, rfl⟩ := h2
      refine ⟨i1, r1, fun hn => ?_⟩
      rw [List.map_cons, ← e1 (hn q (List.mem_cons_self ..)), hu]; simp
    · rw [if_neg hu] at h2
      obtain ⟨i2, r2, e2⟩ := ih _ _ _ _ h2 i1 (fun q' hq' r hr => hs q' (List.mem_cons_of_mem _ hq') r (by rw [← r1]; exact hr))
        (fun t ht => by rw [r1]; exact hv t ht)
      refine ⟨i2, r2.trans r1, fun hn => ?_⟩
      rw [List.map_cons, List.any_cons, e2 (fun q' hq' => hn q' (List.mem_cons_of_mem _ hq')), ← e1 (hn q (List.mem_cons_self ..))]
      cases u <;> simp_all

theorem compute_good {e f ev} (h : Good e f ev) (sh : Shape) (m : Memo) (v : List Nat) (t : Nat) (u : Usefulness) (m' : Memo)
    (he : compute ev v t m sh = some (u, m')) (hi : Inv e f m) (hs : ∀ q ∈ sh.children, Stack e m q) (hv : Visited m v)
    (ht : ∀ b qs, (sh = .ask b qs ∧ b = true) ∨ (∃ qs, sh = .tuple b qs ∧ b = true) → m.resolving ⟨.toString, t⟩ = true) :
    Inv e f m' ∧ m'.resolving = m.resolving ∧ ((∀ q ∈ sh.children, e.NotRecursive q) → u = value f sh) := by
  have hv' : ∀ b, (∃ q, sh = .ask b q) ∨ (∃ qs, sh = .tuple b qs) → Visited m (if b then v ++ [t] else v) := by
    intro b hb
    cases b with
    | false => exact hv
    | true =>
      intro x hx
      simp only [if_true, List.mem_append, List.mem_singleton] at hx
      rcases hx with hx | rfl
      · exact hv x hx
      · rcases hb with ⟨q, hq⟩ | ⟨qs, hq⟩
        · exact ht true q (.inl ⟨hq, rfl⟩)
        · exact ht true ⟨.join, 0⟩ (.inr ⟨qs, hq, rfl⟩)
  cases sh with
  | const u' => simp [compute] at he; obtain ⟨rfl, rfl⟩ := he; exact ⟨hi, rfl, fun _ => rfl⟩
  | ask b q =>
    rw [compute] at he
    obtain ⟨i, r, eq⟩ := h _ _ _ _ _ he hi (hs q (by simp [Shape.children])) (hv' b (.inl ⟨q, rfl⟩))
    exact ⟨i, r, fun hn => eq (hn q (by simp [Shape.children]))⟩
  | union qs =>
    simp only [compute, Option.bind_eq_bind, Option.bind_eq_some_iff] at he
    obtain ⟨⟨us, m1⟩, h1, h2⟩ := he
    simp only [Option.some.injEq, Prod.mk.injEq] at h2
    obtain ⟨rfl, rfl⟩ := h2
    obtain ⟨i, r, eq⟩ := evalAll_good h qs _ _ _ _ h1 hi hs hv
    exact ⟨i, r, fun hn => by rw [eq hn]; rfl⟩
  | intersection qs =>
    simp only [compute, Option.bind_eq_bind, Option.bind_eq_some_iff] at he
    obtain ⟨⟨b, m1⟩, h1, h2⟩ := he
    simp only [Option.some.injEq, Prod.mk.injEq] at h2
    obtain ⟨rfl, rfl⟩ := h2
    obtain ⟨i, r, eq⟩ := evalSome_good h qs _ _ _ _ h1 hi hs hv
    exact ⟨i, r, fun hn => by rw [eq hn]; rfl⟩
  | tuple b qs =>
    simp only [compute, Option.bind_eq_bind, Option.bind_eq_some_iff] at he
    obtain ⟨⟨us, m1⟩, h1, h2⟩ := he
    simp only [Option.some.injEq, Prod.mk.injEq] at h2
    obtain ⟨rfl, rfl⟩ := h2
    obtain ⟨i, r, eq⟩ := evalAll_good h qs _ _ _ _ h1 hi hs (hv' b (.inr ⟨qs, rfl⟩))
    exact ⟨i, r, fun hn => by rw [eq hn]; rfl⟩

/-- Only the stringification of a type adds to `visited`. -/
theorem shape_visits (e : Env) (q : Query) (h : (∃ r, e.shape q = .ask true r) ∨ (∃ rs, e.shape q = .tuple true rs)) : q.mode = .toString := by
  obtain ⟨mode, t⟩ := q
  cases mode with
  | toString => rfl
  | join =>
    exfalso
    simp only [Env.shape, joinShape] at h
    cases h1 : (e.info t).union <;> cases h2 : (e.info t).intersection <;> cases h3 : (e.info t).tuple <;> cases h4 : (e.info t).array <;>
      simp [h1, h2, h3, h4] at h

theorem eval_good {e : Env} {f : Query → Usefulness} (hf : ∀ q, e.NotRecursive q → f q = value f (e.shape q)) (n : Nat) : Good e f (eval e n) := by
  induction n with
  | zero => intro m v q u m' h; simp [eval] at h
  | succ n ih =>
    intro m v q u m' he hi hs hv
    rw [eval] at he
    split at he
    · next hc =>
      simp only [Option.some.injEq, Prod.mk.injEq] at he
      obtain ⟨rfl, rfl⟩ := he
      refine ⟨hi, rfl, fun hn => ?_⟩
      obtain ⟨mode, t⟩ := q
      obtain ⟨hm, ht⟩ := hc
      simp only at hm ht; subst hm
      exact absurd (hs _ (hv t (by simpa using ht))) (NotRecursive.irrefl hn)
    · split at he
      · next u' hm =>
        simp only [Option.some.injEq, Prod.mk.injEq] at he
        obtain ⟨rfl, rfl⟩ := he
        exact ⟨hi, rfl, fun hn => hi.ok q _ hn hm⟩
      · next hm =>
        split at he
        · next hr =>
          simp only [Option.some.injEq, Prod.mk.injEq] at he
          obtain ⟨rfl, rfl⟩ := he
          exact ⟨hi, rfl, fun hn => absurd (hs q hr) (NotRecursive.irrefl hn)⟩
        · next hr =>
          simp only [Option.bind_eq_bind, Option.bind_eq_some_iff] at he
          obtain ⟨⟨u1, m1⟩, h1, h2⟩ := he
          simp only [Option.some.injEq, Prod.mk.injEq] at h2
          obtain ⟨rfl, rfl⟩ := h2
          obtain ⟨i, r, eq⟩ := compute_good ih (e.shape q) _ v q.type u1 m1 h1 ⟨hi.ok⟩ (by
              intro c hc r hr'
              simp only at hr'
              by_cases hrq : r = q
              · subst hrq; exact .one hc
              · rw [if_neg hrq] at hr'; exact .step hc (hs r hr'))
            (by
              intro t ht
              simp only
              split
              · rfl
              · exact hv t ht)
            (by
              intro b qs hb
              have hmode : q.mode = .toString := by
                refine shape_visits e q ?_
                rcases hb with ⟨h, rfl⟩ | ⟨qs', h, rfl⟩
                · exact .inl ⟨_, h⟩
                · exact .inr ⟨_, h⟩
              have : (⟨.toString, q.type⟩ : Query) = q := by rw [← hmode]
              simp [this])
          have hval : e.NotRecursive q → u1 = f q := fun hn => by rw [hf q hn]; exact eq (fun c hc => NotRecursive.child hn hc)
          refine ⟨⟨fun q' u' hn hq' => ?_⟩, ?_, hval⟩
          · simp only at hq'
            by_cases hqq : q' = q
            · subst hqq; simp at hq'; rw [← hq']; exact hval hn
            · rw [if_neg hqq] at hq'; exact i.ok q' u' hn hq'
          · funext r'
            simp only [r]
            by_cases hrq : r' = q
            · subst hrq; simp [hr]
            · simp [hrq]

/-! ## The equations -/

theorem propertyLoop_some (found : Bool) (ps : List (Option (List Bool))) :
    (propertyLoop found ps = some .always ↔ ∃ ds, some ds ∈ ps ∧ false ∈ ds) ∧
    (propertyLoop found ps = some .never ↔ (¬ ∃ ds, some ds ∈ ps ∧ false ∈ ds) ∧ (found = true ∨ ∃ ds, some ds ∈ ps ∧ ds ≠ [])) ∧
    (propertyLoop found ps = none ↔ found = false ∧ ∀ ds, some ds ∈ ps → ds = []) := by
  induction ps generalizing found with
  | nil => cases found <;> simp [propertyLoop]
  | cons p ps ih =>
    cases p with
    | none => rw [propertyLoop]; simpa using ih found
    | some ds =>
      rw [propertyLoop]
      cases ds with
      | nil => simpa [or_and_right, exists_or] using ih found
      | cons d ds =>
        simp only [List.length_cons, Nat.succ_ne_zero, if_false]
        by_cases hu : false ∈ (d :: ds)
        · have : ((d :: ds).any fun onObject => !onObject) = true := by
            rw [List.any_eq_true]; exact ⟨false, hu, rfl⟩
          rw [if_pos this]
          refine ⟨⟨fun _ => ⟨_, List.mem_cons_self .., hu⟩, fun _ => rfl⟩, ⟨by simp, fun h => absurd ⟨_, List.mem_cons_self .., hu⟩ h.1⟩,
            ⟨by simp, fun h => absurd (h.2 _ (List.mem_cons_self ..)) (by simp)⟩⟩
        · have : ¬ ((d :: ds).any fun onObject => !onObject) = true := by
            rw [List.any_eq_true]; rintro ⟨x, hx, h⟩
            cases x <;> simp at h; exact hu hx
          rw [if_neg this]
          obtain ⟨i1, i2, i3⟩ := ih true
          have hex : (∃ es, some es ∈ some (d :: ds) :: ps ∧ false ∈ es) ↔ ∃ es, some es ∈ ps ∧ false ∈ es := by
            constructor
            · rintro ⟨es, hes, h⟩
              rcases List.mem_cons.1 hes with h0 | hes
              · cases h0; exact absurd h hu
              · exact ⟨es, hes, h⟩
            · rintro ⟨es, hes, h⟩; exact ⟨es, List.mem_cons_of_mem _ hes, h⟩
          refine ⟨by rw [i1, hex], ?_, ?_⟩
          · rw [i2, hex]
            constructor
            · rintro ⟨h, -⟩; exact ⟨h, .inr ⟨_, List.mem_cons_self .., by simp⟩⟩
            · rintro ⟨h, -⟩; exact ⟨h, .inl rfl⟩
          · rw [i3]
            constructor
            · rintro ⟨h, -⟩; cases h
            · rintro ⟨-, h⟩; exact absurd (h _ (List.mem_cons_self ..)) (by simp)

theorem props_mem (i : Info) (ds : List Bool) :
    some ds ∈ [i.toString, i.toLocaleString, i.valueOf] ↔ (i.toString = some ds ∨ i.toLocaleString = some ds ∨ i.valueOf = some ds) := by
  simp only [List.mem_cons, List.not_mem_nil, or_false]
  constructor <;> (rintro (h | h | h)) <;> simp [h]

theorem ofUnion_never (us : List Usefulness) : ofUnion us = .never ↔ ∀ u ∈ us, u = .never := by
  unfold ofUnion
  by_cases h : us.all (fun c => c == .never) = true
  · simp only [h, if_true, true_iff]; simpa using h
  · rw [if_neg h]
    have : ¬ ∀ u ∈ us, u = .never := by simpa using h
    split <;> simp [this]

theorem ofUnion_always (us : List Usefulness) : ofUnion us = .always ↔ us ≠ [] ∧ ∀ u ∈ us, u = .always := by
  unfold ofUnion
  by_cases h : us.all (fun c => c == .never) = true
  · rw [if_pos h]
    simp only [reduceCtorEq, false_iff, not_and]
    intro hne ha
    obtain ⟨u, hu⟩ := List.exists_mem_of_ne_nil _ hne
    have h1 : u = .never := by simp at h; exact h u hu
    rw [ha u hu] at h1; cases h1
  · rw [if_neg h]
    have hne : us ≠ [] := by rintro rfl; simp at h
    by_cases h2 : us.all (fun c => c == .always) = true
    · rw [if_pos h2]; simp only [true_iff]; exact ⟨hne, by simpa using h2⟩
    · rw [if_neg h2]
      have : ¬ ∀ u ∈ us, u = .always := by simpa using h2
      simp [this]

theorem ofTuple_never (us : List Usefulness) : ofTuple us = .never ↔ .never ∈ us := by
  unfold ofTuple
  by_cases h : us.any (fun c => c == .never) = true
  · rw [if_pos h]; simp only [true_iff]; simpa using h
  · rw [if_neg h]
    have : .never ∉ us := by simpa using h
    split <;> simp [this]

theorem ofTuple_sometimes (us : List Usefulness) : ofTuple us = .sometimes ↔ .never ∉ us ∧ .sometimes ∈ us := by
  unfold ofTuple
  by_cases h : us.any (fun c => c == .never) = true
  · rw [if_pos h]
    have : .never ∈ us := by simpa using h
    simp [this]
  · rw [if_neg h]
    have : .never ∉ us := by simpa using h
    by_cases h2 : us.any (fun c => c == .sometimes) = true
    · rw [if_pos h2]
      have h3 : .sometimes ∈ us := by simpa using h2
      simp [this, h3]
    · rw [if_neg h2]
      have h3 : .sometimes ∉ us := by simpa using h2
      simp [h3]

theorem value_of_union {f : Query → Usefulness} {x : Usefulness} {mode : Mode} (ts : List Nat)
    (h : (x = .never ∧ ∀ t ∈ ts, f ⟨mode, t⟩ = .never) ∨
      (x = .always ∧ (∃ t ∈ ts, f ⟨mode, t⟩ ≠ .never) ∧ ∀ t ∈ ts, f ⟨mode, t⟩ = .always) ∨
      (x = .sometimes ∧ (∃ t ∈ ts, f ⟨mode, t⟩ ≠ .never) ∧ ∃ t ∈ ts, f ⟨mode, t⟩ ≠ .always)) :
    x = ofUnion ((ts.map (⟨mode, ·⟩)).map f) := by
  rcases h with ⟨rfl, h⟩ | ⟨rfl, ⟨t, ht, -⟩, h⟩ | ⟨rfl, ⟨t, ht, h1⟩, ⟨s, hs, h2⟩⟩
  · symm; rw [ofUnion_never]; simpa using h
  · symm; rw [ofUnion_always]; exact ⟨by rintro h0; simp at h0; subst h0; simp at ht, by simpa using h⟩
  · cases h : ofUnion ((ts.map (⟨mode, ·⟩)).map f) with
    | sometimes => rfl
    | never => rw [ofUnion_never] at h; simp at h; exact absurd (h t ht) h1
    | always => rw [ofUnion_always] at h; obtain ⟨-, h⟩ := h; simp at h; exact absurd (h s hs) h2

theorem union_of_value (f : Query → Usefulness) (mode : Mode) (ts : List Nat) (x : Usefulness) (h : x = ofUnion ((ts.map (⟨mode, ·⟩)).map f)) :
    (x = .never ∧ ∀ t ∈ ts, f ⟨mode, t⟩ = .never) ∨
      (x = .always ∧ (∃ t ∈ ts, f ⟨mode, t⟩ ≠ .never) ∧ ∀ t ∈ ts, f ⟨mode, t⟩ = .always) ∨
      (x = .sometimes ∧ (∃ t ∈ ts, f ⟨mode, t⟩ ≠ .never) ∧ ∃ t ∈ ts, f ⟨mode, t⟩ ≠ .always) := by
  cases x with
  | never => rw [eq_comm, ofUnion_never] at h; exact .inl ⟨rfl, by simpa using h⟩
  | always =>
    rw [eq_comm, ofUnion_always] at h
    obtain ⟨hne, h⟩ := h
    simp at h
    have hne : ts ≠ [] := by rintro rfl; simp at hne
    obtain ⟨t, ht⟩ := List.exists_mem_of_ne_nil _ hne
    exact .inr (.inl ⟨rfl, ⟨t, ht, by rw [h t ht]; simp⟩, h⟩)
  | sometimes =>
    have h1 : ¬ ofUnion ((ts.map (⟨mode, ·⟩)).map f) = .never := by rw [← h]; simp
    have h2 : ¬ ofUnion ((ts.map (⟨mode, ·⟩)).map f) = .always := by rw [← h]; simp
    rw [ofUnion_never] at h1
    rw [ofUnion_always] at h2
    have h1' : ∃ t ∈ ts, f ⟨mode, t⟩ ≠ .never := by simpa using h1
    refine .inr (.inr ⟨rfl, h1', ?_⟩)
    have hne : ts ≠ [] := by rintro rfl; simp at h1'
    have := fun h => h2 ⟨by simpa using hne, h⟩
    simpa using this

theorem value_of_inter {f : Query → Usefulness} {x : Usefulness} {mode : Mode} (ts : List Nat) :
    ((x = .always ∧ ∃ t ∈ ts, f ⟨mode, t⟩ = .always) ∨ (x = .never ∧ ∀ t ∈ ts, f ⟨mode, t⟩ ≠ .always)) ↔
    x = if ((ts.map (⟨mode, ·⟩)).map f).any (fun c => c == .always) then .always else .never := by
  by_cases h : ∃ t ∈ ts, f ⟨mode, t⟩ = .always
  · have : ((ts.map (⟨mode, ·⟩)).map f).any (fun c => c == .always) = true := by simpa using h
    rw [if_pos this]
    constructor
    · rintro (⟨h, -⟩ | ⟨-, h'⟩)
      · exact h
      · obtain ⟨t, ht, h⟩ := h; exact absurd h (h' t ht)
    · intro hx; exact .inl ⟨hx, h⟩
  · have : ¬ ((ts.map (⟨mode, ·⟩)).map f).any (fun c => c == .always) = true := by simpa using h
    rw [if_neg this]
    constructor
    · rintro (⟨-, h'⟩ | ⟨hx, -⟩)
      · exact absurd h' h
      · exact hx
    · intro hx; exact .inr ⟨hx, fun t ht ha => h ⟨t, ht, ha⟩⟩

theorem value_of_tuple {f : Query → Usefulness} {x : Usefulness} (ts : List Nat) :
    ((x = .never ∧ ∃ t ∈ ts, f ⟨.toString, t⟩ = .never) ∨
      (x = .sometimes ∧ (∀ t ∈ ts, f ⟨.toString, t⟩ ≠ .never) ∧ ∃ t ∈ ts, f ⟨.toString, t⟩ = .sometimes) ∨
      (x = .always ∧ ∀ t ∈ ts, f ⟨.toString, t⟩ = .always)) ↔
    x = ofTuple ((ts.map (⟨.toString, ·⟩)).map f) := by
  constructor
  · rintro (⟨rfl, h⟩ | ⟨rfl, h1, h2⟩ | ⟨rfl, h⟩)
    · symm; rw [ofTuple_never]; simpa using h
    · symm; rw [ofTuple_sometimes]; exact ⟨by simpa using h1, by simpa using h2⟩
    · cases hx : ofTuple ((ts.map (⟨.toString, ·⟩)).map f) with
      | always => rfl
      | never => rw [ofTuple_never] at hx; simp at hx; obtain ⟨t, ht, hx⟩ := hx; rw [h t ht] at hx; cases hx
      | sometimes => rw [ofTuple_sometimes] at hx; obtain ⟨-, hx⟩ := hx; simp at hx; obtain ⟨t, ht, hx⟩ := hx; rw [h t ht] at hx; cases hx
  · intro h
    cases x with
    | never => rw [eq_comm, ofTuple_never] at h; exact .inl ⟨rfl, by simpa using h⟩
    | sometimes =>
      rw [eq_comm, ofTuple_sometimes] at h
      exact .inr (.inl ⟨rfl, by simpa using h.1, by simpa using h.2⟩)
    | always =>
      refine .inr (.inr ⟨rfl, fun t ht => ?_⟩)
      have h1 : .never ∉ (ts.map (⟨.toString, ·⟩)).map f := fun hm => by rw [(ofTuple_never _).2 hm] at h; cases h
      have h2 : .sometimes ∉ (ts.map (⟨.toString, ·⟩)).map f := fun hm => by rw [(ofTuple_sometimes _).2 ⟨h1, hm⟩] at h; cases h
      simp at h1 h2
      cases hx : f ⟨.toString, t⟩ with
      | always => rfl
      | never => exact absurd hx (h1 t ht)
      | sometimes => exact absurd hx (h2 t ht)

theorem answers_iff (e : Env) (f : Query → Usefulness) (q : Query) : Answers e f q ↔ f q = value f (e.shape q) := by
  obtain ⟨mode, t⟩ := q
  have hud : UserDefined (e.info t) ↔ ∃ ds, some ds ∈ [(e.info t).toString, (e.info t).toLocaleString, (e.info t).valueOf] ∧ false ∈ ds := by
    simp only [UserDefined, props_mem]
  have hde : Declared (e.info t) ↔ ∃ ds, some ds ∈ [(e.info t).toString, (e.info t).toLocaleString, (e.info t).valueOf] ∧ ds ≠ [] := by
    simp only [Declared, props_mem]
  obtain ⟨l1, l2, l3⟩ := propertyLoop_some false [(e.info t).toString, (e.info t).toLocaleString, (e.info t).valueOf]
  rw [← hud] at l1 l2
  rw [← hde] at l2
  have l3 : propertyLoop false [(e.info t).toString, (e.info t).toLocaleString, (e.info t).valueOf] = none ↔ ¬ Declared (e.info t) := by
    rw [l3, hde]
    constructor
    · rintro ⟨-, h⟩ ⟨ds, h1, h2⟩; exact h2 (h ds h1)
    · intro h; refine ⟨rfl, fun ds hd => ?_⟩
      by_cases h0 : ds = []
      · exact h0
      · exact absurd ⟨ds, hd, h0⟩ h
  have hdu : UserDefined (e.info t) → Declared (e.info t) := by
    rintro ⟨ds, h1, h2⟩; exact ⟨ds, h1, by rintro rfl; simp at h2⟩
  simp only [Bool.false_eq_true, false_or] at l2
  cases mode with
  | join =>
    simp only [Env.shape, joinShape]
    constructor
    · intro h
      cases h1 : (e.info t).union with
      | some ts => simp only [value]; exact value_of_union ts (h.union ts h1 (.inl rfl))
      | none =>
        cases h2 : (e.info t).intersection with
        | some ts => simp only [value]; exact (value_of_inter ts).1 (h.inter ts h2 (.inl ⟨rfl, h1⟩))
        | none =>
          cases h3 : (e.info t).tuple with
          | some ts => simp only [value]; exact (value_of_tuple ts).1 (h.tuple ts h3 h1 h2 (by simp))
          | none =>
            cases h4 : (e.info t).array with
            | some a => simp only [value]; exact h.array a h4 h3 h1 h2 (by simp)
            | none => simp only [value]; exact h.joinOther rfl h1 h2 h3 h4
    · intro h
      refine ⟨by simp, by simp, ?_, ?_, ?_, ?_, ?_, by simp, by simp, by simp⟩
      · intro ts h1 h2
        rcases h2 with ⟨-, h2⟩ | ⟨h2, -⟩
        · simp only at h1 h2
          simp only [h1, h2, value] at h
          exact (value_of_inter ts).2 h
        · cases h2
      · intro ts h1 _
        simp only at h1
        simp only [h1, value] at h
        exact union_of_value f .join ts _ h
      · intro ts h1 h2 h3 _
        simp only at h1 h2 h3
        simp only [h1, h2, h3, value] at h
        exact (value_of_tuple ts).2 h
      · intro a h1 h2 h3 h4 _
        simp only at h1 h2 h3 h4
        simp only [h1, h2, h3, h4, value] at h
        exact h
      · intro _ h1 h2 h3 h4
        simp only at h1 h2 h3 h4
        simp only [h1, h2, h3, h4, value] at h
        exact h
  | toString =>
    simp only [Env.shape, toStringShape]
    constructor
    · intro h
      by_cases a1 : (e.info t).isTypeParameter = true
      · rw [if_pos a1]
        have := h.parameter rfl a1
        simp only at this
        rw [this]
        cases (e.info t).baseConstraint <;> simp [value]
      · have a1' : (e.info t).isTypeParameter = false := by simpa using a1
        rw [if_neg a1]
        by_cases a2 : (e.info t).booleanLike = true
        · rw [if_pos a2]; exact h.exempt rfl a1' (.inl a2)
        · rw [if_neg a2]
          have a2' : (e.info t).booleanLike = false := by simpa using a2
          by_cases a3 : (e.info t).ignored = true
          · rw [if_pos a3]; exact h.exempt rfl a1' (.inr a3)
          · rw [if_neg a3]
            have a3' : (e.info t).ignored = false := by simpa using a3
            cases h2 : (e.info t).intersection with
            | some ts => simp only [value]; exact (value_of_inter ts).1 (h.inter ts h2 (.inr ⟨rfl, a1', a2', a3'⟩))
            | none =>
              cases h1 : (e.info t).union with
              | some ts => simp only [value]; exact value_of_union ts (h.union ts h1 (.inr ⟨rfl, a1', a2', a3', h2⟩))
              | none =>
                cases h3 : (e.info t).tuple with
                | some ts => simp only [value]; exact (value_of_tuple ts).1 (h.tuple ts h3 h1 h2 (fun _ => ⟨a1', a2', a3'⟩))
                | none =>
                  cases h4 : (e.info t).array with
                  | some a => simp only [value]; exact h.array a h4 h3 h1 h2 (fun _ => ⟨a1', a2', a3'⟩)
                  | none =>
                    have hp : Plain (e.info t) := ⟨a1', a2', a3', h2, h1, h3, h4⟩
                    by_cases hu : UserDefined (e.info t)
                    · simp only [l1.2 hu, value]; exact h.userDefined rfl hp hu
                    · by_cases hd : Declared (e.info t)
                      · simp only [l2.2 ⟨hu, hd⟩, value]; exact h.fallback rfl hp hu hd
                      · simp only [l3.2 hd]
                        have := h.other rfl hp hd
                        simp only at this
                        rw [this]
                        cases e.checkUnknown <;> cases (e.info t).isUnknown <;> simp [value]
    · intro h
      refine ⟨?_, ?_, ?_, ?_, ?_, ?_, by simp, ?_, ?_, ?_⟩
      · intro _ a1
        simp only at a1
        rw [if_pos a1] at h
        simp only
        rw [h]
        cases (e.info t).baseConstraint <;> simp [value]
      · intro _ a1 a2
        simp only at a1 a2
        rw [h]
        rcases a2 with a2 | a2
        · simp [a1, a2, value]
        · cases (e.info t).booleanLike <;> simp [a1, a2, value]
      · intro ts h1 h2
        rcases h2 with ⟨h2, -⟩ | ⟨-, a1, a2, a3⟩
        · cases h2
        · simp only at h1 a1 a2 a3
          simp only [h1, a1, a2, a3, Bool.false_eq_true, if_false, value] at h
          exact (value_of_inter ts).2 h
      · intro ts h1 h2
        rcases h2 with h2 | ⟨-, a1, a2, a3, a4⟩
        · cases h2
        · simp only at h1 a1 a2 a3 a4
          simp only [h1, a1, a2, a3, a4, Bool.false_eq_true, if_false, value] at h
          exact union_of_value f .toString ts _ h
      · intro ts h1 h2 h3 hh
        obtain ⟨a1, a2, a3⟩ := hh rfl
        simp only at h1 h2 h3 a1 a2 a3
        simp only [h1, h2, h3, a1, a2, a3, Bool.false_eq_true, if_false, value] at h
        exact (value_of_tuple ts).2 h
      · intro a h1 h2 h3 h4 hh
        obtain ⟨a1, a2, a3⟩ := hh rfl
        simp only at h1 h2 h3 h4 a1 a2 a3
        simp only [h1, h2, h3, h4, a1, a2, a3, Bool.false_eq_true, if_false, value] at h
        exact h
      · rintro - ⟨a1, a2, a3, a4, a5, a6, a7⟩ hu
        simp only at a1 a2 a3 a4 a5 a6 a7 hu
        simp only [a1, a2, a3, a4, a5, a6, a7, Bool.false_eq_true, if_false, l1.2 hu, value] at h
        exact h
      · rintro - ⟨a1, a2, a3, a4, a5, a6, a7⟩ hu hd
        simp only at a1 a2 a3 a4 a5 a6 a7 hu hd
        simp only [a1, a2, a3, a4, a5, a6, a7, Bool.false_eq_true, if_false, l2.2 ⟨hu, hd⟩, value] at h
        exact h
      · rintro - ⟨a1, a2, a3, a4, a5, a6, a7⟩ hd
        simp only at a1 a2 a3 a4 a5 a6 a7 hd
        simp only [a1, a2, a3, a4, a5, a6, a7, Bool.false_eq_true, if_false, l3.2 hd] at h
        rw [h]
        simp only
        cases e.checkUnknown <;> cases (e.info t).isUnknown <;> simp [value]

end Tsgolint.BaseToString
