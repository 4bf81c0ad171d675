import Verif.Spec.Redundant
/-! # Lemmas for C61 -/
namespace Tsgolint.Redundant

theorem topInter_iff (p : Part) (m : Message) : intersectionTop p = some m ↔ TopInter p m := by
  obtain ⟨f, t, id⟩ := p
  constructor
  · intro h
    cases f <;> simp [intersectionTop] at h
    · split at h
      · next ht => subst h; subst ht; exact .any rfl rfl
      · next ht => subst h; exact .error rfl ht
    · subst h; exact .unknown rfl
    · subst h; exact .never rfl
  · intro h
    cases h with
    | any h1 h2 => simp only at h1 h2; subst h1 h2; simp [intersectionTop]
    | error h1 h2 => simp only at h1 h2; subst h1; simp [intersectionTop, h2]
    | never h1 => simp only at h1; subst h1; simp [intersectionTop]
    | unknown h1 => simp only at h1; subst h1; simp [intersectionTop]

theorem topUnion_iff (b : Bool) (p : Part) (m : Message) : unionTop b p = some m ↔ TopUnion b p m := by
  obtain ⟨f, t, id⟩ := p
  constructor
  · intro h
    cases f <;> simp [unionTop] at h
    · split at h
      · next ht => subst h; subst ht; exact .any rfl rfl
      · next ht => subst h; exact .error rfl ht
    · subst h; exact .unknown rfl
    · cases b
      · simp at h; subst h; exact .never rfl rfl
      · simp at h
  · intro h
    cases h with
    | any h1 h2 => simp only at h1 h2; subst h1 h2; simp [unionTop]
    | error h1 h2 => simp only at h1 h2; subst h1; simp [unionTop, h2]
    | never h1 h2 => simp only at h1; subst h1; simp [unionTop, h2]
    | unknown h1 => simp only at h1; subst h1; simp [unionTop]

theorem top_none_of_prim {p : Part} {k : Kind} (h : p.flag.primitive = some k) : intersectionTop p = none ∧ p.flag = .prim k := by
  obtain ⟨f, t, id⟩ := p
  cases f <;> simp [Flag.primitive] at h
  subst h; simp [intersectionTop]

theorem top_none_of_lit {p : Part} {k : Kind} (h : p.flag.literal = some k) : intersectionTop p = none ∧ p.flag = .lit k := by
  obtain ⟨f, t, id⟩ := p
  cases f <;> simp [Flag.literal] at h
  subst h; simp [intersectionTop]

/-- The inner loop of intersections. -/
theorem foldl_interPart (i : Nat) (ps : List Part) (s : Inter) :
    (ps.foldl (interPart i) s).reports = s.reports ++ (ps.filterMap intersectionTop).map (i, ·) ∧
    (∀ k, (ps.foldl (interPart i) s).primitives k = s.primitives k ++ (ps.filter (fun p => decide (p.flag = .prim k))).map (fun _ => i)) ∧
    (ps.foldl (interPart i) s).unions = s.unions ∧
    (s.unions = [] → ∀ k, (ps.foldl (interPart i) s).literals k = s.literals k ++ literalsOf k ps) := by
  induction ps generalizing s with
  | nil => simp [literalsOf]
  | cons p ps ih =>
    rw [List.foldl_cons]
    obtain ⟨h1, h2, h3, h4⟩ := ih (interPart i s p)
    cases ht : intersectionTop p with
    | some m =>
      have hs : interPart i s p = { s with reports := s.reports ++ [(i, m)] } := by simp [interPart, ht]
      have np : ∀ k, p.flag ≠ .prim k := by
        intro k hk; rw [(top_none_of_prim (p := p) (k := k) (by rw [hk]; rfl)).1] at ht; cases ht
      have nl : ∀ k, p.flag ≠ .lit k := by
        intro k hk; rw [(top_none_of_lit (p := p) (k := k) (by rw [hk]; rfl)).1] at ht; cases ht
      refine ⟨?_, fun k => ?_, ?_, fun hu k => ?_⟩
      · rw [h1, hs]; simp [ht]
      · rw [h2 k, hs]; simp [np k]
      · rw [h3, hs]
      · rw [h4 (by rw [hs]; exact hu) k, hs]
        simp [literalsOf, nl k]
    | none =>
      refine ⟨?_, fun k => ?_, ?_, fun hu k => ?_⟩
      · rw [h1]; simp only [interPart, ht, List.filterMap_cons]; split <;> rfl
      · rw [h2 k]
        have : (interPart i s p).primitives k = if p.flag = .prim k then s.primitives k ++ [i] else s.primitives k := by
          have hp : p.flag.primitive = some k ↔ p.flag = .prim k := by
            cases p.flag <;> simp [Flag.primitive]
          by_cases hu : s.unions.length = 0 <;> simp only [interPart, ht, push, hu, if_true, if_false, hp]
        rw [this]
        by_cases hk : p.flag = .prim k <;> simp [hk]
      · rw [h3]; simp only [interPart, ht]; split <;> rfl
      · have hu' : (interPart i s p).unions = [] := by simp only [interPart, ht]; split <;> exact hu
        rw [h4 hu' k]
        have : (interPart i s p).literals k = if p.flag = .lit k then s.literals k ++ [p] else s.literals k := by
          simp only [interPart, ht, push, hu, List.length_nil, if_true]
          have hp : p.flag.literal = some k ↔ p.flag = .lit k := by
            cases p.flag <;> simp [Flag.literal]
          simp only [hp]
        rw [this]
        by_cases hk : p.flag = .lit k <;> simp [literalsOf, hk]

theorem interLoop_spec (nodes : List (List Part)) (i : Nat) (s : Inter) :
    (interLoop i s nodes).reports = s.reports ++ (nodes.zipIdx i).flatMap (fun e => (e.1.filterMap intersectionTop).map (e.2, ·)) ∧
    (∀ k, (interLoop i s nodes).primitives k = s.primitives k ++
      (nodes.zipIdx i).flatMap (fun e => (e.1.filter (fun p => decide (p.flag = .prim k))).map (fun _ => e.2))) ∧
    (interLoop i s nodes).unions = s.unions ++ ((nodes.zipIdx i).filter (fun e => decide (2 ≤ e.1.length))).map (fun e => (e.2, e.1)) ∧
    (s.unions = [] → ¬ HasUnion nodes → ∀ k, (interLoop i s nodes).literals k = s.literals k ++ literalsOf k nodes.flatten) := by
  induction nodes generalizing i s with
  | nil => simp [interLoop, literalsOf]
  | cons ps nodes ih =>
    rw [interLoop]
    obtain ⟨h1, h2, h3, h4⟩ := ih (i + 1) (interNode i s ps)
    have hn : interNode i s ps = ps.foldl (interPart i) (if ps.length ≥ 2 then { s with unions := s.unions ++ [(i, ps)] } else s) := rfl
    obtain ⟨f1, f2, f3, f4⟩ := foldl_interPart i ps (if ps.length ≥ 2 then { s with unions := s.unions ++ [(i, ps)] } else s)
    rw [hn] at h1 h2 h3 h4
    rw [hn]
    refine ⟨?_, fun k => ?_, ?_, fun hu hh k => ?_⟩
    · rw [h1, f1, List.zipIdx_cons, List.flatMap_cons]
      split <;> simp
    · rw [h2 k, f2 k, List.zipIdx_cons, List.flatMap_cons]
      split <;> simp
    · rw [h3, f3, List.zipIdx_cons]
      by_cases hl : 2 ≤ ps.length
      · simp [hl]
      · simp [hl]
    · have hl : ¬ ps.length ≥ 2 := fun h => hh ⟨ps, List.mem_cons_self .., h⟩
      rw [if_neg hl] at h4 f3 f4 ⊢
      rw [h4 (by rw [f3]; exact hu) (fun ⟨qs, hq, h⟩ => hh ⟨qs, List.mem_cons_of_mem _ hq, h⟩) k, f4 hu k]
      simp [literalsOf]

theorem mem_zipIdx {α} (l : List α) (i : Nat) (e : α × Nat) : e ∈ l.zipIdx i ↔ i ≤ e.2 ∧ l[e.2 - i]? = some e.1 := by
  obtain ⟨a, j⟩ := e
  rw [List.mem_zipIdx_iff_le_and_getElem?_sub]

theorem mem_zipIdx0 {α} (l : List α) (a : α) (j : Nat) : (a, j) ∈ l.zipIdx ↔ l[j]? = some a := by
  rw [mem_zipIdx]; simp

theorem node_of_mem {nodes : List (List Part)} {ps : List Part} (h : ps ∈ nodes) : ∃ i, IsNode nodes i ps :=
  List.mem_iff_getElem?.1 h

theorem mem_of_node {nodes : List (List Part)} {ps : List Part} {i : Nat} (h : IsNode nodes i ps) : ps ∈ nodes :=
  List.mem_iff_getElem?.2 ⟨i, h⟩

/-- The primitives seen. -/
theorem prims_iff (nodes : List (List Part)) (k : Kind) (i : Nat) :
    i ∈ (interLoop 0 {} nodes).primitives k ↔ ∃ ps, IsNode nodes i ps ∧ ∃ p ∈ ps, p.flag = .prim k := by
  rw [(interLoop_spec nodes 0 {}).2.1 k]
  simp only [List.nil_append, List.mem_flatMap, List.mem_map, List.mem_filter, decide_eq_true_eq]
  constructor
  · rintro ⟨⟨ps, j⟩, he, p, ⟨hp, hk⟩, rfl⟩
    exact ⟨ps, (mem_zipIdx0 ..).1 he, p, hp, hk⟩
  · rintro ⟨ps, hi, p, hp, hk⟩
    exact ⟨(ps, i), (mem_zipIdx0 ..).2 hi, p, ⟨hp, hk⟩, rfl⟩

theorem prims_pos (nodes : List (List Part)) (k : Kind) : ((interLoop 0 {} nodes).primitives k).length > 0 ↔ Primitive nodes k := by
  rw [gt_iff_lt, List.length_pos_iff_exists_mem]
  simp only [prims_iff]
  constructor
  · rintro ⟨i, ps, hi, p, hp, hk⟩; exact ⟨ps, mem_of_node hi, p, hp, hk⟩
  · rintro ⟨ps, hps, p, hp, hk⟩
    obtain ⟨i, hi⟩ := node_of_mem hps
    exact ⟨i, ps, hi, p, hp, hk⟩

theorem unions_iff (nodes : List (List Part)) (i : Nat) (ps : List Part) :
    (i, ps) ∈ (interLoop 0 {} nodes).unions ↔ IsNode nodes i ps ∧ 2 ≤ ps.length := by
  rw [(interLoop_spec nodes 0 {}).2.2.1]
  simp only [List.nil_append, List.mem_map, List.mem_filter, decide_eq_true_eq, Prod.mk.injEq]
  constructor
  · rintro ⟨⟨qs, j⟩, ⟨he, hl⟩, rfl, rfl⟩
    exact ⟨(mem_zipIdx0 ..).1 he, hl⟩
  · rintro ⟨hi, hl⟩
    exact ⟨(ps, i), ⟨(mem_zipIdx0 ..).2 hi, hl⟩, rfl, rfl⟩

theorem unions_pos (nodes : List (List Part)) : (interLoop 0 {} nodes).unions.length > 0 ↔ HasUnion nodes := by
  rw [gt_iff_lt, List.length_pos_iff_exists_mem]
  constructor
  · rintro ⟨⟨i, ps⟩, h⟩
    obtain ⟨h1, h2⟩ := (unions_iff ..).1 h
    exact ⟨ps, mem_of_node h1, h2⟩
  · rintro ⟨ps, hps, hl⟩
    obtain ⟨i, hi⟩ := node_of_mem hps
    exact ⟨(i, ps), (unions_iff ..).2 ⟨hi, hl⟩⟩

theorem primitiveName_ne (prims : Kind → List Nat) (p : Part) :
    primitiveName prims p ≠ "" ↔ ∃ k, p.flag = .lit k ∧ (prims k).length > 0 := by
  obtain ⟨f, t, id⟩ := p
  cases f <;> simp [primitiveName, Flag.literal]
  case lit k =>
    by_cases h : 0 < (prims k).length
    · cases k <;> simp [h, Kind.name]
    · simp [h]

theorem primitiveName_eq (prims : Kind → List Nat) (p : Part) (k : Kind) (h : p.flag = .lit k) (hp : (prims k).length > 0) :
    primitiveName prims p = k.name := by
  simp [primitiveName, h, Flag.literal, hp]

theorem lastName_ne (prims : Kind → List Nat) (ps : List Part) (name : String) (hne : ps ≠ []) :
    lastName prims name ps ≠ "" ↔ ∀ p ∈ ps, primitiveName prims p ≠ "" := by
  induction ps generalizing name with
  | nil => exact absurd rfl hne
  | cons p ps ih =>
    rw [lastName]
    by_cases h : primitiveName prims p = ""
    · rw [if_pos h]; simp [h]
    · rw [if_neg h]
      cases ps with
      | nil => simp [lastName, h]
      | cons q qs => rw [ih _ (by simp)]; simp [h]

theorem unionLoop_iff (prims : Kind → List Nat) (us : List (Nat × List Part)) (text : String) (i : Nat) :
    (∃ m, (i, m) ∈ unionLoop prims text us) ↔ ∃ ps, (i, ps) ∈ us ∧ lastName prims "" ps ≠ "" := by
  induction us generalizing text with
  | nil => simp [unionLoop]
  | cons e us ih =>
    obtain ⟨j, ps⟩ := e
    rw [unionLoop]
    simp only
    by_cases h : lastName prims "" ps = ""
    · rw [if_pos h, ih]
      constructor
      · rintro ⟨qs, hq, h'⟩; exact ⟨qs, List.mem_cons_of_mem _ hq, h'⟩
      · rintro ⟨qs, hq, h'⟩
        rcases List.mem_cons.1 hq with h0 | hq
        · cases h0; exact absurd h h'
        · exact ⟨qs, hq, h'⟩
    · rw [if_neg h]
      constructor
      · rintro ⟨m, hm⟩
        rcases List.mem_cons.1 hm with h0 | hm
        · cases h0; exact ⟨ps, List.mem_cons_self .., h⟩
        · obtain ⟨qs, hq, h'⟩ := (ih _).1 ⟨m, hm⟩
          exact ⟨qs, List.mem_cons_of_mem _ hq, h'⟩
      · rintro ⟨qs, hq, h'⟩
        rcases List.mem_cons.1 hq with h0 | hq
        · cases h0; exact ⟨_, List.mem_cons_self ..⟩
        · obtain ⟨m, hm⟩ := (ih (if text = "" then join ps else text)).2 ⟨qs, hq, h'⟩
          exact ⟨m, List.mem_cons_of_mem _ hm⟩

theorem unionLoop_message (prims : Kind → List Nat) (us : List (Nat × List Part)) (text : String) (i : Nat) (m : Message)
    (h : (i, m) ∈ unionLoop prims text us) : ∃ a b, m = .primitiveOverridden a b := by
  induction us generalizing text with
  | nil => simp [unionLoop] at h
  | cons e us ih =>
    obtain ⟨j, ps⟩ := e
    rw [unionLoop] at h
    simp only at h
    split at h
    · exact ih _ h
    · rcases List.mem_cons.1 h with h0 | h
      · cases h0; exact ⟨_, _, rfl⟩
      · exact ih _ h

/-! ## Unions -/

theorem unionTop_none_of_lit {b : Bool} {p : Part} {k : Kind} (h : p.flag = .lit k) : unionTop b p = none := by
  simp [unionTop, h]

theorem upsert_lookup (m : NodeMap) (i : Nat) (p : Part) (hn : (m.map (·.1)).Nodup) :
    ((NodeMap.upsert i p m).map (·.1)).Nodup ∧
    ∀ j ps, (j, ps) ∈ NodeMap.upsert i p m ↔
      (if j = i then (∃ qs, (i, qs) ∈ m ∧ ps = qs ++ [p]) ∨ ((∀ qs, (i, qs) ∉ m) ∧ ps = [p]) else (j, ps) ∈ m) := by
  induction m with
  | nil =>
    refine ⟨by simp [NodeMap.upsert], fun j ps => ?_⟩
    by_cases hj : j = i <;> simp [NodeMap.upsert, hj]
  | cons e m ih =>
    obtain ⟨a, qs⟩ := e
    simp only [List.map_cons, List.nodup_cons] at hn
    obtain ⟨i1, i2⟩ := ih hn.2
    have keys : ∀ x, x ∈ (NodeMap.upsert i p m).map (·.1) ↔ x ∈ m.map (·.1) ∨ x = i := by
      intro x
      simp only [List.mem_map, Prod.exists, exists_and_right, exists_eq_right]
      constructor
      · rintro ⟨ps, h⟩
        rw [i2] at h
        by_cases hx : x = i
        · exact .inr hx
        · rw [if_neg hx] at h; exact .inl ⟨ps, h⟩
      · rintro (⟨ps, h⟩ | rfl)
        · by_cases hx : x = i
          · subst hx; exact ⟨ps ++ [p], (i2 _ _).2 (by rw [if_pos rfl]; exact .inl ⟨ps, h, rfl⟩)⟩
          · exact ⟨ps, (i2 _ _).2 (by rw [if_neg hx]; exact h)⟩
        · by_cases hq : ∃ qs, (x, qs) ∈ m
          · obtain ⟨qs, hq⟩ := hq
            exact ⟨qs ++ [p], (i2 _ _).2 (by rw [if_pos rfl]; exact .inl ⟨qs, hq, rfl⟩)⟩
          · exact ⟨[p], (i2 _ _).2 (by rw [if_pos rfl]; exact .inr ⟨fun qs h => hq ⟨qs, h⟩, rfl⟩)⟩
    rw [NodeMap.upsert]
    by_cases ha : a = i
    · subst ha
      rw [if_pos rfl]
      have hm : ∀ ps, (a, ps) ∉ m := by
        intro ps h; exact hn.1 (List.mem_map.2 ⟨_, h, rfl⟩)
      refine ⟨by simpa using hn, fun j ps => ?_⟩
      by_cases hj : j = a
      · subst hj
        simp [hm]
      · simp [hj]
    · rw [if_neg ha]
      refine ⟨?_, fun j ps => ?_⟩
      · simp only [List.map_cons, List.nodup_cons]
        refine ⟨fun h => ?_, i1⟩
        rcases (keys a).1 h with h | h
        · exact hn.1 h
        · exact ha h
      · rw [List.mem_cons, i2]
        by_cases hj : j = i
        · subst hj
          have ha' : ¬ j = a := fun h => ha h.symm
          simp [ha']
        · simp [hj]

/-- What a union's loops keep true: `done` are the parts met so far, by constituent. -/
structure UnionInv (ret : Bool) (done : List (Nat × Part)) (s : Union) : Prop where
  reports : ∀ i m, (i, m) ∈ s.reports ↔ ∃ p, (i, p) ∈ done ∧ unionTop ret p = some m
  nodup : ∀ k, ((s.overridden k).map (·.1)).Nodup
  map : ∀ k i ps, (i, ps) ∈ s.overridden k ↔
    ps = (done.filter (fun e => decide (e.1 = i ∧ e.2.flag = .lit k))).map (·.2) ∧ ps ≠ []
  seen : ∀ k, s.seen k = true ↔ ∃ e ∈ done, e.2.flag.primitiveBit = some k

theorem UnionInv.step {ret done s} (h : UnionInv ret done s) (i : Nat) (p : Part) : UnionInv ret (done ++ [(i, p)]) (unionPart ret i s p) := by
  obtain ⟨hr, hn, hm, hs⟩ := h
  have hlit : ∀ k, p.flag.literal = some k ↔ p.flag = .lit k := by intro k; cases p.flag <;> simp [Flag.literal]
  cases ht : unionTop ret p with
  | some m =>
    have e : unionPart ret i s p = { s with reports := s.reports ++ [(i, m)] } := by simp [unionPart, ht]
    have nl : ∀ k, p.flag ≠ .lit k := fun k hk => by rw [unionTop_none_of_lit hk] at ht; cases ht
    have npb : ∀ k, p.flag.primitiveBit ≠ some k := by
      intro k hk
      cases hf : p.flag <;> simp [unionTop, hf, Flag.primitiveBit] at ht hk
    rw [e]
    refine ⟨fun j m' => ?_, hn, fun k j ps => ?_, fun k => ?_⟩
    · simp only [List.mem_append, List.mem_singleton, Prod.mk.injEq, hr]
      constructor
      · rintro (⟨q, hq, h⟩ | ⟨rfl, rfl⟩)
        · exact ⟨q, .inl hq, h⟩
        · exact ⟨p, .inr ⟨rfl, rfl⟩, ht⟩
      · rintro ⟨q, hq | ⟨rfl, rfl⟩, h⟩
        · exact .inl ⟨q, hq, h⟩
        · rw [ht] at h; cases h; exact .inr ⟨rfl, rfl⟩
    · rw [hm]; simp [nl k]
    · rw [hs]; simp [npb k, or_and_right, exists_or]
  | none =>
    have e : unionPart ret i s p = { s with
        overridden := fun k => if p.flag.literal = some k then (s.overridden k).upsert i p else s.overridden k
        seen := fun k => if p.flag.primitiveBit = some k then true else s.seen k } := by simp [unionPart, ht]
    rw [e]
    refine ⟨fun j m' => ?_, fun k => ?_, fun k j ps => ?_, fun k => ?_⟩
    · rw [hr]
      constructor
      · rintro ⟨q, hq, h⟩; exact ⟨q, List.mem_append_left _ hq, h⟩
      · rintro ⟨q, hq, h⟩
        rcases List.mem_append.1 hq with hq | hq
        · exact ⟨q, hq, h⟩
        · simp only [List.mem_singleton, Prod.mk.injEq] at hq
          obtain ⟨rfl, rfl⟩ := hq; rw [ht] at h; cases h
    · simp only
      split
      · exact (upsert_lookup _ i p (hn k)).1
      · exact hn k
    · simp only [hlit]
      by_cases hk : p.flag = .lit k
      · rw [if_pos hk, (upsert_lookup _ i p (hn k)).2]
        by_cases hj : j = i
        · subst hj
          rw [if_pos rfl]
          simp only [List.filter_append, List.map_append]
          have tail : (List.filter (fun e => decide (e.1 = j ∧ e.2.flag = Flag.lit k)) [(j, p)]).map (·.2) = [p] := by simp [hk]
          rw [tail]
          constructor
          · rintro (⟨qs, hq, rfl⟩ | ⟨hq, rfl⟩)
            · rw [((hm k j qs).1 hq).1]; simp
            · have : (done.filter (fun e => decide (e.1 = j ∧ e.2.flag = .lit k))).map (·.2) = [] := by
                cases hx : (done.filter (fun e => decide (e.1 = j ∧ e.2.flag = .lit k))).map (·.2) with
                | nil => rfl
                | cons a b => exact absurd ((hm k j (a :: b)).2 ⟨hx.symm, by simp⟩) (hq _)
              rw [this]; simp
          · rintro ⟨rfl, -⟩
            cases hx : (done.filter (fun e => decide (e.1 = j ∧ e.2.flag = .lit k))).map (·.2) with
            | nil =>
              right
              refine ⟨fun qs hq => ?_, by simp⟩
              have := (hm k j qs).1 hq
              exact this.2 (this.1.trans hx)
            | cons a b =>
              left
              exact ⟨a :: b, (hm k j _).2 ⟨hx.symm, by simp⟩, rfl⟩
        · rw [if_neg hj, hm]
          have : ¬ i = j := fun h => hj h.symm
          simp [this]
      · rw [if_neg hk, hm]
        simp [hk]
    · simp only
      by_cases hb : p.flag.primitiveBit = some k
      · simp [hb]
      · simp [hb, hs, or_and_right, exists_or]

theorem UnionInv.foldl {ret done s} (h : UnionInv ret done s) (i : Nat) (ps : List Part) :
    UnionInv ret (done ++ ps.map (i, ·)) (ps.foldl (unionPart ret i) s) := by
  induction ps generalizing done s with
  | nil => simpa using h
  | cons p ps ih =>
    have := ih (h.step i p)
    simpa using this

theorem UnionInv.nodes {ret done s} (h : UnionInv ret done s) (i : Nat) (nodes : List (List Part)) :
    UnionInv ret (done ++ (nodes.zipIdx i).flatMap (fun e => e.1.map (e.2, ·))) (unionNodes ret i s nodes) := by
  induction nodes generalizing done s i with
  | nil => simpa [unionNodes] using h
  | cons ps nodes ih =>
    have := ih (h.foldl i ps) (i + 1)
    simpa [unionNodes, List.zipIdx_cons] using this

theorem union_inv (ret : Bool) (nodes : List (List Part)) :
    UnionInv ret (nodes.zipIdx.flatMap (fun e => e.1.map (e.2, ·))) (unionNodes ret 0 {} nodes) := by
  have : UnionInv ret [] {} := ⟨by simp, by simp, by simp, by simp⟩
  simpa using this.nodes 0 nodes

theorem done_mem (nodes : List (List Part)) (i : Nat) (p : Part) :
    (i, p) ∈ nodes.zipIdx.flatMap (fun e => e.1.map (e.2, ·)) ↔ ∃ ps, IsNode nodes i ps ∧ p ∈ ps := by
  simp only [List.mem_flatMap, List.mem_map, Prod.mk.injEq]
  constructor
  · rintro ⟨⟨ps, j⟩, he, q, hq, rfl, rfl⟩; exact ⟨ps, (mem_zipIdx0 ..).1 he, hq⟩
  · rintro ⟨ps, hi, hp⟩; exact ⟨(ps, i), (mem_zipIdx0 ..).2 hi, p, hp, rfl, rfl⟩

theorem filter_done (nodes : List (List Part)) (o i : Nat) (k : Kind) :
    (((nodes.zipIdx o).flatMap (fun e => e.1.map (e.2, ·))).filter (fun e => decide (e.1 = i ∧ e.2.flag = .lit k))).map (·.2) =
      if o ≤ i then literalsOf k (nodes[i - o]?.getD []) else [] := by
  induction nodes generalizing o with
  | nil => simp [literalsOf]
  | cons ps nodes ih =>
    rw [List.zipIdx_cons, List.flatMap_cons, List.filter_append, List.map_append, ih]
    by_cases hi : o = i
    · subst hi
      have h1 : ¬ (o + 1 ≤ o) := by omega
      simp [h1, List.filter_map, Function.comp_def, literalsOf]
    · have h0 : ((ps.map (o, ·)).filter (fun e => decide (e.1 = i ∧ e.2.flag = .lit k))).map (·.2) = [] := by
        simp [List.filter_map, Function.comp_def, hi]
      rw [h0, List.nil_append]
      by_cases hle : o ≤ i
      · have h1 : o + 1 ≤ i := by omega
        have h2 : i - o = (i - (o + 1)) + 1 := by omega
        rw [if_pos h1, if_pos hle, h2, List.getElem?_cons_succ]
      · have h1 : ¬ (o + 1 ≤ i) := by omega
        rw [if_neg h1, if_neg hle]

end Tsgolint.Redundant
