import Verif.Spec.UnsafeAccess
/-! # Proofs about no-unsafe-member-access -/
namespace Tsgolint.UnsafeAccess

/-- The state of an access outside heritage clauses. -/
def st (E : Env) : Node → State
  | .prop _ q obj => if E.allowOptionalChaining && q then .chained else if st E obj = .unsafe_ then .unsafe_ else if E.isAny obj.id then .unsafe_ else .safe
  | .elem _ q obj _ => if E.allowOptionalChaining && q then .chained else if st E obj = .unsafe_ then .unsafe_ else if E.isAny obj.id then .unsafe_ else .safe
  | _ => .safe

theorem st_access (E : Env) {n q obj} (a : Access n q obj) :
    st E n = if E.allowOptionalChaining && q then .chained else if st E obj = .unsafe_ then .unsafe_ else if E.isAny obj.id then .unsafe_ else .safe := by
  cases a <;> rw [st]

theorem Access.unique {n q obj q' obj'} (a : Access n q obj) (b : Access n q' obj') : q = q' ∧ obj = obj' := by
  cases a <;> cases b <;> exact ⟨rfl, rfl⟩

theorem Access.of {n : Node} (h : n.isAccess = true) : ∃ q obj, Access n q obj := by
  cases n with
  | prop i q o => exact ⟨q, o, .prop ..⟩
  | elem i q o a => exact ⟨q, o, .elem ..⟩
  | _ => cases h

theorem Access.is {n q obj} (a : Access n q obj) : n.isAccess = true := by cases a <;> rfl

theorem Access.lt {n q obj} (a : Access n q obj) : sizeOf obj < sizeOf n := by cases a <;> simp <;> omega

theorem allowed_iff (E : Env) (q : Bool) : (E.allowOptionalChaining && q) = true ↔ Allowed E q := by simp [Allowed]

theorem st_tainted (E : Env) (n : Node) : st E n = .unsafe_ ↔ Tainted E n := by
  have main : ∀ k (n : Node), sizeOf n < k → (st E n = .unsafe_ ↔ Tainted E n) := by
    intro k
    induction k with
    | zero => intro n h; omega
    | succ k ih =>
      intro n hk
      by_cases hn : n.isAccess = true
      · obtain ⟨q, obj, a⟩ := Access.of hn
        have ho := ih obj (by have := a.lt; omega)
        rw [st_access E a]
        by_cases hq : (E.allowOptionalChaining && q) = true
        · simp only [hq, if_true, reduceCtorEq, false_iff]
          intro t
          cases t with
          | here b h => rw [(a.unique b).1] at hq; exact h ((allowed_iff ..).1 hq)
          | before b h => rw [(a.unique b).1] at hq; exact h ((allowed_iff ..).1 hq)
        · rw [if_neg hq]
          have hq' : ¬ Allowed E q := fun h => hq ((allowed_iff ..).2 h)
          by_cases h1 : st E obj = .unsafe_
          · simp only [h1, if_true, true_iff]; exact .before a hq' (ho.1 h1)
          · rw [if_neg h1]
            by_cases h2 : E.isAny obj.id = true
            · simp only [h2, if_true, true_iff]; exact .here a hq' h2
            · simp only [h2, Bool.false_eq_true, if_false, reduceCtorEq, false_iff]
              intro t
              cases t with
              | here b _ h => rw [← (a.unique b).2] at h; exact h2 h
              | before b _ h => rw [← (a.unique b).2] at h; exact h1 (ho.2 h)
      · have : st E n = .safe := by cases n <;> simp_all [st, Node.isAccess]
        rw [this]
        simp only [reduceCtorEq, false_iff]
        intro t
        cases t with
        | here a => exact hn a.is
        | before a => exact hn a.is
  exact main _ n (Nat.lt_succ_self _)

theorem startsWithThis_iff (n : Node) (t : Nat) : thisExpression n = some t ↔ StartsWithThis n t := by
  constructor
  · intro h
    have main : ∀ k (n : Node), sizeOf n < k → thisExpression n = some t → StartsWithThis n t := by
      intro k
      induction k with
      | zero => intro n h; omega
      | succ k ih =>
        intro n hk h
        cases n with
        | this i => simp [thisExpression] at h; subst h; exact .this _
        | paren i e => exact .paren (ih e (by simp at hk; omega) (by simpa [thisExpression] using h))
        | call i e as => exact .call (ih e (by simp at hk; omega) (by simpa [thisExpression] using h))
        | prop i q e => exact .prop (ih e (by simp at hk; omega) (by simpa [thisExpression] using h))
        | elem i q e a => exact .elem (ih e (by simp at hk; omega) (by simpa [thisExpression] using h))
        | heritage i ks => simp [thisExpression] at h
        | other i k ks => simp [thisExpression] at h
    exact main _ n (Nat.lt_succ_self _) h
  · intro h
    induction h <;> simp_all [thisExpression]

theorem memberMsg_eq (E : Env) (n obj : Node) : (BlamesThis E n → memberMsg E n obj = .this) ∧ (¬ BlamesThis E n → memberMsg E n obj = .member (E.isError obj.id)) := by
  have : BlamesThis E n ↔ (!E.noImplicitThis && ((thisExpression n).map E.isAnyConstrained).getD false) = true := by
    unfold BlamesThis
    simp only [← startsWithThis_iff]
    cases thisExpression n <;> cases E.noImplicitThis <;> simp
  unfold memberMsg
  exact ⟨fun h => if_pos (this.1 h), fun h => if_neg fun h' => h (this.2 h')⟩

theorem unsafeMember_iff (E : Env) {n q obj} (a : Access n q obj) (m : Msg) :
    UnsafeMember E n m ↔ ¬ Allowed E q ∧ E.isAny obj.id = true ∧ st E obj ≠ .unsafe_ ∧ m = memberMsg E n obj := by
  obtain ⟨h1, h2⟩ := memberMsg_eq E n obj
  constructor
  · intro h
    cases h with
    | this b q t u v => obtain ⟨rfl, rfl⟩ := a.unique b; exact ⟨q, t, fun h => u ((st_tainted ..).1 h), (h1 v).symm⟩
    | value b q t u v => obtain ⟨rfl, rfl⟩ := a.unique b; exact ⟨q, t, fun h => u ((st_tainted ..).1 h), (h2 v).symm⟩
  · rintro ⟨hq, ht, hu, rfl⟩
    have hu' : ¬ Tainted E obj := fun h => hu ((st_tainted ..).2 h)
    by_cases hb : BlamesThis E n
    · rw [h1 hb]; exact .this a hq ht hu' hb
    · rw [h2 hb]; exact .value a hq ht hu' hb

theorem UnsafeMember.access {E n m} (h : UnsafeMember E n m) : ∃ q obj, Access n q obj := by cases h <;> exact ⟨_, _, by assumption⟩

/-! ## Subtrees -/

theorem self_mem (h : Bool) (n : Node) : (n, h) ∈ nodes h n := by cases n <;> rw [nodes] <;> exact List.mem_cons_self ..

mutual
theorem nodes_obj {n q obj} (a : Access n q obj) {h' : Bool} : ∀ (h : Bool) (r : Node), (n, h') ∈ nodes h r → (obj, h') ∈ nodes h r
  | h, .prop i q' o, hm => by
    rw [nodes, List.mem_cons] at *
    rcases hm with hm | hm
    · cases hm; cases a; exact .inr (self_mem ..)
    · exact .inr (nodes_obj a h o hm)
  | h, .elem i q' o arg, hm => by
    rw [nodes, List.mem_cons, List.mem_append] at *
    rcases hm with hm | hm | hm
    · cases hm; cases a; exact .inr (.inl (self_mem ..))
    · exact .inr (.inl (nodes_obj a h o hm))
    · exact .inr (.inr (nodes_obj a h arg hm))
  | h, .paren i e, hm => by
    rw [nodes, List.mem_cons] at *
    rcases hm with hm | hm
    · cases hm; cases a
    · exact .inr (nodes_obj a h e hm)
  | h, .call i c as, hm => by
    rw [nodes, List.mem_cons, List.mem_append] at *
    rcases hm with hm | hm | hm
    · cases hm; cases a
    · exact .inr (.inl (nodes_obj a h c hm))
    · exact .inr (.inr (nodesList_obj a h as hm))
  | h, .this i, hm => by
    rw [nodes, List.mem_singleton] at hm
    cases hm; cases a
  | h, .heritage i ks, hm => by
    rw [nodes, List.mem_cons] at *
    rcases hm with hm | hm
    · cases hm; cases a
    · exact .inr (nodesList_obj a true ks hm)
  | h, .other i k ks, hm => by
    rw [nodes, List.mem_cons] at *
    rcases hm with hm | hm
    · cases hm; cases a
    · exact .inr (nodesList_obj a h ks hm)
theorem nodesList_obj {n q obj} (a : Access n q obj) {h' : Bool} : ∀ (h : Bool) (rs : List Node), (n, h') ∈ nodesList h rs → (obj, h') ∈ nodesList h rs
  | _, [], hm => by simp [nodesList] at hm
  | h, r :: rs, hm => by
    rw [nodesList, List.mem_append] at *
    exact hm.imp (nodes_obj a h r) (nodesList_obj a h rs)
end

/-! ## The invariant -/

structure Tree (all : List (Node × Bool)) : Prop where
  unique : ∀ n h n' h', (n, h) ∈ all → (n', h') ∈ all → n.id = n'.id → n = n' ∧ h = h'
  obj : ∀ n q obj h, Access n q obj → (n, h) ∈ all → (obj, h) ∈ all

structure Inv (E : Env) (all : List (Node × Bool)) (s : St) : Prop where
  cached : ∀ n h c, (n, h) ∈ all → s.cache.lookup n.id = some c → c = st E n ∧ (h = false ∨ c = .chained)
  sound : ∀ r ∈ s.members, ∃ n, (n, false) ∈ all ∧ n.id = r.id ∧ UnsafeMember E n r.msg ∧ s.cache.lookup n.id ≠ none
  nodup : (s.members.map Report.id).Nodup
  complete : ∀ n, (n, false) ∈ all → s.cache.lookup n.id ≠ none → ∀ m, UnsafeMember E n m → ⟨n.id, m⟩ ∈ s.members

/-- What a check does. -/
structure Checked (E : Env) (all : List (Node × Bool)) (n : Node) (h : Bool) (s : St) (r : State × St) : Prop where
  inv : Inv E all r.2
  computed : r.2.computed = s.computed
  state : h = false → r.1 = st E n ∧ r.2.cache.lookup n.id ≠ none
  grows : ∀ k, s.cache.lookup k ≠ none → r.2.cache.lookup k ≠ none
  only : ∀ k, r.2.cache.lookup k ≠ none → s.cache.lookup k ≠ none ∨ ∃ m, (m, h) ∈ all ∧ sizeOf m ≤ sizeOf n ∧ m.id = k

theorem lookup_cons (k : Nat) (c : State) (l : List (Nat × State)) (j : Nat) : ((k, c) :: l).lookup j = if j = k then some c else l.lookup j := by
  rw [List.lookup_cons]
  by_cases h : j = k
  · simp [h]
  · have : (j == k) = false := by simpa using h
    simp [this, h]

/-- An entry for an access that reports nothing. -/
theorem Inv.add {E : Env} {all : List (Node × Bool)} (T : Tree all) {s : St} (i : Inv E all s) {n : Node} {h : Bool} (hn : (n, h) ∈ all) {c : State}
    (hc : c = st E n) (hh : h = false ∨ c = .chained) (hu : ∀ m, ¬ UnsafeMember E n m) : Inv E all { s with cache := (n.id, c) :: s.cache } where
  cached := by
    intro n' h' c' hm hl
    simp only at hl
    rw [lookup_cons] at hl
    split at hl
    · next e =>
      obtain ⟨rfl, rfl⟩ := T.unique _ _ _ _ hm hn e
      cases hl
      exact ⟨hc, hh⟩
    · exact i.cached n' h' c' hm hl
  sound := by
    intro r hr
    obtain ⟨n', h1, h2, h3, h4⟩ := i.sound r hr
    refine ⟨n', h1, h2, h3, ?_⟩
    simp only
    rw [lookup_cons]
    split <;> simp [h4]
  nodup := i.nodup
  complete := by
    intro n' hm hl m hu'
    simp only at hl
    rw [lookup_cons] at hl
    split at hl
    · next e =>
      obtain ⟨rfl, rfl⟩ := T.unique _ _ _ _ hm hn e
      exact absurd hu' (hu m)
    · exact i.complete n' hm hl m hu'

theorem Inv.report {E : Env} {all : List (Node × Bool)} (T : Tree all) {s : St} (i : Inv E all s) {n : Node} (hn : (n, false) ∈ all) {c : State}
    (hc : c = st E n) (hl : s.cache.lookup n.id = none) {m : Msg} (hu : ∀ m', UnsafeMember E n m' ↔ m' = m) :
    Inv E all { s with cache := (n.id, c) :: s.cache, members := ⟨n.id, m⟩ :: s.members } where
  cached := by
    intro n' h' c' hm hl2
    simp only at hl2
    rw [lookup_cons] at hl2
    split at hl2
    · next e =>
      obtain ⟨rfl, rfl⟩ := T.unique _ _ _ _ hm hn e
      exact ⟨(Option.some.inj hl2).symm.trans hc, .inl rfl⟩
    · exact i.cached n' h' c' hm hl2
  sound := by
    intro r hr
    simp only
    rcases List.mem_cons.1 hr with rfl | hr
    · exact ⟨n, hn, rfl, (hu m).2 rfl, by rw [lookup_cons]; simp⟩
    · obtain ⟨n', h1, h2, h3, h4⟩ := i.sound r hr
      refine ⟨n', h1, h2, h3, ?_⟩
      rw [lookup_cons]
      split <;> simp [h4]
  nodup := by
    simp only [List.map_cons, List.nodup_cons, List.mem_map, not_exists, not_and]
    refine ⟨?_, i.nodup⟩
    rintro r hr e
    obtain ⟨n', h1, h2, -, h4⟩ := i.sound r hr
    rw [h2, e] at h4
    exact h4 hl
  complete := by
    intro n' hm hl m' hu'
    simp only at hl
    rw [lookup_cons] at hl
    split at hl
    · next e =>
      obtain ⟨rfl, -⟩ := T.unique _ _ _ _ hm hn e
      rw [(hu m').1 hu']
      exact List.mem_cons_self ..
    · exact List.mem_cons_of_mem _ (i.complete n' hm hl m' hu')

theorem checkWith_spec (E : Env) (all : List (Node × Bool)) (T : Tree all) {n : Node} {q : Bool} {obj : Node} (a : Access n q obj) (h : Bool)
    (hn : (n, h) ∈ all) (inner : St → State × St) (hi : ∀ s, obj.isAccess = true → Inv E all s → Checked E all obj h s (inner s)) (s : St)
    (i : Inv E all s) : Checked E all n h s (checkWith E h n q obj inner s) := by
  have grow : ∀ (s : St) (c : State) (k : Nat), s.cache.lookup k ≠ none → ((n.id, c) :: s.cache).lookup k ≠ none := by
    intro s c k hk; rw [lookup_cons]; split <;> simp [hk]
  have only : ∀ (s : St) (c : State) (k : Nat), ((n.id, c) :: s.cache).lookup k ≠ none → s.cache.lookup k ≠ none ∨ ∃ m, (m, h) ∈ all ∧ sizeOf m ≤ sizeOf n ∧ m.id = k := by
    intro s c k hk
    rw [lookup_cons] at hk
    split at hk
    · next e => exact .inr ⟨n, hn, Nat.le_refl _, e.symm⟩
    · exact .inl hk
  have here : ∀ (s : St) (c : State), ((n.id, c) :: s.cache).lookup n.id ≠ none := by intro s c; rw [lookup_cons]; simp
  unfold checkWith
  by_cases hq : (E.allowOptionalChaining && q) = true
  · have hst : st E n = .chained := by rw [st_access E a, if_pos hq]
    rw [if_pos hq]
    exact ⟨i.add T hn hst.symm (.inr rfl) (fun m hu => ((unsafeMember_iff E a m).1 hu).1 ((allowed_iff ..).1 hq)), rfl,
      fun _ => ⟨hst.symm, here _ _⟩, grow _ _, only _ _⟩
  · rw [if_neg hq]
    cases hl : s.cache.lookup n.id with
    | some c => exact ⟨i, rfl, fun _ => ⟨(i.cached n h c hn hl).1, by simp [hl]⟩, fun _ h => h, fun _ h => .inl h⟩
    | none =>
      cases h with
      | true => exact ⟨i, rfl, nofun, fun _ h => h, fun _ h => .inl h⟩
      | false =>
        simp only [Bool.false_eq_true, if_false]
        have hq' : ¬ Allowed E q := fun h => hq ((allowed_iff ..).2 h)
        -- the object
        have ho : ∃ o s', (if obj.isAccess = true then inner s else (State.safe, s)) = (o, s') ∧ Inv E all s' ∧ s'.computed = s.computed ∧
            o = st E obj ∧ (∀ k, s.cache.lookup k ≠ none → s'.cache.lookup k ≠ none) ∧
            (∀ k, s'.cache.lookup k ≠ none → s.cache.lookup k ≠ none ∨ ∃ m, (m, false) ∈ all ∧ sizeOf m ≤ sizeOf obj ∧ m.id = k) := by
          by_cases hacc : obj.isAccess = true
          · have c := hi s hacc i
            exact ⟨(inner s).1, (inner s).2, by simp [hacc], c.inv, c.computed, (c.state rfl).1, c.grows, c.only⟩
          · refine ⟨.safe, s, by simp [hacc], i, rfl, ?_, fun _ h => h, fun _ h => .inl h⟩
            cases obj <;> simp_all [st, Node.isAccess]
        obtain ⟨o, s', e, i', hcomp, hos, hg, honly⟩ := ho
        rw [e]
        simp only
        have hst := st_access E a
        rw [if_neg hq, ← hos] at hst
        have honly' : ∀ (s'' : St) (c : State), s''.cache = (n.id, c) :: s'.cache → ∀ k, s''.cache.lookup k ≠ none →
            s.cache.lookup k ≠ none ∨ ∃ m, (m, false) ∈ all ∧ sizeOf m ≤ sizeOf n ∧ m.id = k := by
          intro s'' c e k hk
          rw [e] at hk
          rcases only s' c k hk with h | h
          · rcases honly k h with h | ⟨m, h1, h2, h3⟩
            · exact .inl h
            · exact .inr ⟨m, h1, by have := a.lt; omega, h3⟩
          · exact .inr h
        by_cases h1 : o = .unsafe_
        · rw [if_pos h1] at hst ⊢
          refine ⟨i'.add T hn hst.symm (.inl rfl) (fun m hu => ((unsafeMember_iff E a m).1 hu).2.2.1 (hos ▸ h1)), hcomp, fun _ => ⟨hst.symm, here _ _⟩,
            fun k hk => grow _ _ k (hg k hk), honly' _ _ rfl⟩
        · rw [if_neg h1] at hst ⊢
          by_cases h2 : E.isAny obj.id = true
          · rw [if_pos h2] at hst ⊢
            have hnone : s'.cache.lookup n.id = none := by
              cases hx : s'.cache.lookup n.id with
              | none => rfl
              | some c =>
                rcases honly n.id (by simp [hx]) with h | ⟨m, hm1, hm2, hm3⟩
                · exact absurd hl h
                · obtain ⟨rfl, -⟩ := T.unique _ _ _ _ hm1 hn hm3
                  have := a.lt
                  omega
            refine ⟨i'.report T hn hst.symm hnone fun m' => ?_, hcomp, fun _ => ⟨hst.symm, here _ _⟩, fun k hk => grow _ _ k (hg k hk), honly' _ _ rfl⟩
            rw [unsafeMember_iff E a]
            exact ⟨fun h => h.2.2.2, fun h => ⟨hq', h2, fun h' => h1 (hos.trans h'), h⟩⟩
          · rw [if_neg h2] at hst ⊢
            exact ⟨i'.add T hn hst.symm (.inl rfl) (fun m hu => h2 ((unsafeMember_iff E a m).1 hu).2.1), hcomp, fun _ => ⟨hst.symm, here _ _⟩,
              fun k hk => grow _ _ k (hg k hk), honly' _ _ rfl⟩

theorem check_spec (E : Env) (all : List (Node × Bool)) (T : Tree all) (h : Bool) : ∀ (k : Nat) (n : Node), sizeOf n < k → n.isAccess = true → (n, h) ∈ all →
    ∀ s, Inv E all s → Checked E all n h s (check E h n s) := by
  intro k
  induction k with
  | zero => intro n hk; omega
  | succ k ih =>
    intro n hk hacc hn s i
    cases n with
    | prop j q obj =>
      rw [check]
      exact checkWith_spec E all T (.prop j q obj) h hn _ (fun s' ha i' => ih obj (by simp at hk; omega) ha (T.obj _ _ _ _ (.prop j q obj) hn) s' i') s i
    | elem j q obj arg =>
      rw [check]
      exact checkWith_spec E all T (.elem j q obj arg) h hn _ (fun s' ha i' => ih obj (by simp at hk; omega) ha (T.obj _ _ _ _ (.elem j q obj arg) hn) s' i') s i
    | _ => cases hacc

/-- The report about the computed name of a node. -/
def nameReport (E : Env) : Node → Option Report
  | .elem i q _ arg => if E.allowOptionalChaining && q then none else if !checkedArgument arg then none
      else if E.isAny arg.id then some ⟨i, .computed (E.isError arg.id)⟩ else none
  | _ => none

theorem nameReport_iff (E : Env) (n : Node) (r : Report) : nameReport E n = some r ↔ UnsafeName E n r.msg ∧ r.id = n.id := by
  cases n with
  | elem i q obj arg =>
    have hc : checkedArgument arg = true ↔ (∀ j k, arg ≠ .other j .literal k) ∧ (∀ j k, arg ≠ .other j .update k) := by
      unfold checkedArgument
      split <;> simp_all
    have hiff : UnsafeName E (.elem i q obj arg) r.msg ↔ ¬ Allowed E q ∧ E.isAny arg.id = true ∧ checkedArgument arg = true ∧ r.msg = .computed (E.isError arg.id) := by
      constructor
      · intro h
        generalize hm : r.msg = m at h
        cases h with
        | mk h1 h2 h3 h4 => exact ⟨h1, h2, hc.2 ⟨h3, h4⟩, rfl⟩
      · rintro ⟨h1, h2, h3, h4⟩
        rw [h4]
        exact .mk h1 h2 (hc.1 h3).1 (hc.1 h3).2
    rw [hiff, ← allowed_iff]
    unfold nameReport
    obtain ⟨rid, rm⟩ := r
    show _ ↔ _ ∧ rid = i
    by_cases h1 : (E.allowOptionalChaining && q) = true <;> by_cases h2 : checkedArgument arg = true <;> by_cases h3 : E.isAny arg.id = true <;>
      simp [h1, h2, h3, eq_comm (b := rid), eq_comm (b := rm)] <;> exact And.comm
  | _ => simp only [nameReport, reduceCtorEq, false_iff]; rintro ⟨h, -⟩; cases h

/-- What a visit does. -/
structure Visited (E : Env) (all : List (Node × Bool)) (sub : List (Node × Bool)) (s s' : St) : Prop where
  inv : Inv E all s'
  computed : s'.computed = (sub.filterMap fun x => nameReport E x.1).reverse ++ s.computed
  grows : ∀ k, s.cache.lookup k ≠ none → s'.cache.lookup k ≠ none
  done : ∀ n, (n, false) ∈ sub → n.isAccess = true → s'.cache.lookup n.id ≠ none

theorem Visited.nil {E all s} (i : Inv E all s) : Visited E all [] s s := ⟨i, by simp, fun _ h => h, by simp⟩

theorem Visited.append {E all a b s s' s''} (x : Visited E all a s s') (y : Visited E all b s' s'') : Visited E all (a ++ b) s s'' where
  inv := y.inv
  computed := by rw [y.computed, x.computed]; simp
  grows := fun k h => y.grows k (x.grows k h)
  done := by
    intro n hn hacc
    rcases List.mem_append.1 hn with h | h
    · exact y.grows _ (x.done n h hacc)
    · exact y.done n h hacc

theorem Visited.node {E all n h b s s'} (hacc : n.isAccess = false) (hr : nameReport E n = none) (x : Visited E all b s s') :
    Visited E all ((n, h) :: b) s s' where
  inv := x.inv
  computed := by rw [x.computed, List.filterMap_cons, hr]
  grows := x.grows
  done := by
    intro m hm ha
    rcases List.mem_cons.1 hm with e | e
    · cases e; rw [hacc] at ha; cases ha
    · exact x.done m e ha

theorem listen_spec (E : Env) (all : List (Node × Bool)) (T : Tree all) (h : Bool) (n : Node) (hn : (n, h) ∈ all) (hacc : n.isAccess = true) (s : St)
    (i : Inv E all s) : Visited E all [(n, h)] s (listen E h n s) := by
  have c := check_spec E all T h _ n (Nat.lt_succ_self _) hacc hn s i
  have d : ∀ m, (m, false) ∈ [(n, h)] → m.isAccess = true → (check E h n s).2.cache.lookup m.id ≠ none := by
    intro m hm _
    rw [List.mem_singleton] at hm
    cases hm
    exact (c.state rfl).2
  cases n with
  | prop j q obj => exact ⟨c.inv, by simp [nameReport, listen, c.computed], c.grows, d⟩
  | elem j q obj arg =>
    have hinv : ∀ (r : Report), Inv E all { (check E h (.elem j q obj arg) s).2 with computed := r :: (check E h (.elem j q obj arg) s).2.computed } :=
      fun r => ⟨c.inv.cached, c.inv.sound, c.inv.nodup, c.inv.complete⟩
    simp only [listen]
    by_cases h1 : (E.allowOptionalChaining && q) = true
    · rw [if_pos h1]; exact ⟨c.inv, by rw [c.computed, List.filterMap_cons, nameReport, if_pos h1]; rfl, c.grows, d⟩
    · rw [if_neg h1]
      by_cases h2 : (!checkedArgument arg) = true
      · rw [if_pos h2]; exact ⟨c.inv, by rw [c.computed, List.filterMap_cons, nameReport, if_neg h1, if_pos h2]; rfl, c.grows, d⟩
      · rw [if_neg h2]
        by_cases h3 : E.isAny arg.id = true
        · rw [if_pos h3]; exact ⟨hinv _, by simp only; rw [c.computed, List.filterMap_cons, nameReport, if_neg h1, if_neg h2, if_pos h3]; rfl, c.grows, d⟩
        · rw [if_neg h3]; exact ⟨c.inv, by rw [c.computed, List.filterMap_cons, nameReport, if_neg h1, if_neg h2, if_neg h3]; rfl, c.grows, d⟩
  | _ => cases hacc

mutual
theorem visit_spec (E : Env) (all : List (Node × Bool)) (T : Tree all) : ∀ (h : Bool) (n : Node), (∀ x ∈ nodes h n, x ∈ all) → ∀ s, Inv E all s →
    Visited E all (nodes h n) s (visit E h n s)
  | h, .prop j q obj, hm, s, i => by
    rw [nodes, visit]
    rw [nodes] at hm
    have l := listen_spec E all T h (.prop j q obj) (hm _ (by simp)) rfl s i
    exact l.append (visit_spec E all T h obj (fun x hx => hm x (by simp [hx])) _ l.inv)
  | h, .elem j q obj arg, hm, s, i => by
    rw [nodes, visit]
    rw [nodes] at hm
    have l := listen_spec E all T h (.elem j q obj arg) (hm _ (by simp)) rfl s i
    have o := visit_spec E all T h obj (fun x hx => hm x (by simp [hx])) _ l.inv
    exact l.append (o.append (visit_spec E all T h arg (fun x hx => hm x (by simp [hx])) _ o.inv))
  | h, .paren j e, hm, s, i => by
    rw [nodes, visit]
    rw [nodes] at hm
    exact .node rfl rfl (visit_spec E all T h e (fun x hx => hm x (by simp [hx])) s i)
  | h, .call j e as, hm, s, i => by
    rw [nodes, visit]
    rw [nodes] at hm
    have c := visit_spec E all T h e (fun x hx => hm x (by simp [hx])) s i
    exact .node rfl rfl (c.append (visits_spec E all T h as (fun x hx => hm x (by simp [hx])) _ c.inv))
  | h, .this j, hm, s, i => by
    rw [nodes, visit]
    exact .node rfl rfl (.nil i)
  | h, .heritage j ks, hm, s, i => by
    rw [nodes, visit]
    rw [nodes] at hm
    exact .node rfl rfl (visits_spec E all T true ks (fun x hx => hm x (by simp [hx])) s i)
  | h, .other j k ks, hm, s, i => by
    rw [nodes, visit]
    rw [nodes] at hm
    exact .node rfl rfl (visits_spec E all T h ks (fun x hx => hm x (by simp [hx])) s i)
theorem visits_spec (E : Env) (all : List (Node × Bool)) (T : Tree all) : ∀ (h : Bool) (ns : List Node), (∀ x ∈ nodesList h ns, x ∈ all) → ∀ s, Inv E all s →
    Visited E all (nodesList h ns) s (visits E h ns s)
  | _, [], _, s, i => by rw [nodesList, visits]; exact .nil i
  | h, n :: ns, hm, s, i => by
    rw [nodesList, visits]
    rw [nodesList] at hm
    have c := visit_spec E all T h n (fun x hx => hm x (by simp [hx])) s i
    exact c.append (visits_spec E all T h ns (fun x hx => hm x (by simp [hx])) _ c.inv)
end

theorem nodup_map_unique {α β : Type} (f : α → β) : ∀ (l : List α), (l.map f).Nodup → ∀ x ∈ l, ∀ y ∈ l, f x = f y → x = y
  | [], _, x, hx, _, _, _ => by simp at hx
  | a :: l, h, x, hx, y, hy, e => by
    rw [List.map_cons, List.nodup_cons] at h
    rcases List.mem_cons.1 hx with h1 | h1 <;> rcases List.mem_cons.1 hy with h2 | h2
    · rw [h1, h2]
    · subst h1; exact absurd (e ▸ List.mem_map_of_mem h2) h.1
    · subst h2; exact absurd (e ▸ List.mem_map_of_mem h1) h.1
    · exact nodup_map_unique f l h.2 x h1 y h2 e

theorem tree_of (root : Node) (h : Distinct root) : Tree (nodes false root) where
  unique := by
    intro n h1 n' h2 hm hm' e
    have := nodup_map_unique _ _ h _ hm _ hm' e
    cases this
    exact ⟨rfl, rfl⟩
  obj := fun _ _ _ _ a hm => nodes_obj a _ _ hm

end Tsgolint.UnsafeAccess
