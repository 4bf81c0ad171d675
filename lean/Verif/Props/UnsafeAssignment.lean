import Verif.Spec.UnsafeAssignment
import Verif.Props.TypeGraph
/-! # C84 -/
namespace Tsgolint.UnsafeAssignment
open Tsgolint.TypeGraph (Shape Outcome isUnsafeAssignment)
variable {T : Type} [DecidableEq T]

omit [DecidableEq T] in
theorem lookup_iff (key : String) (ps : List (String × T)) (t : T) :
    lookup key ps = some t ↔ ∃ pre post, ps = pre ++ (key, t) :: post ∧ ∀ q ∈ post, q.1 ≠ key := by
  have none_iff : ∀ ps : List (String × T), lookup key ps = none ↔ ∀ q ∈ ps, q.1 ≠ key := by
    intro ps
    induction ps with
    | nil => simp [lookup]
    | cons q ps ih =>
      obtain ⟨k, u⟩ := q
      rw [lookup]
      cases h : lookup key ps with
      | some x =>
        have : ¬ ∀ q ∈ ps, q.1 ≠ key := fun h' => by rw [ih.2 h'] at h; cases h
        simp only [reduceCtorEq, List.forall_mem_cons, false_iff]
        exact fun h => this h.2
      | none => simp only [List.forall_mem_cons]; simp [ih.1 h]; exact fun _ => by simpa using ih.1 h
  induction ps with
  | nil => simp [lookup]
  | cons q ps ih =>
    obtain ⟨k, u⟩ := q
    rw [lookup]
    cases h : lookup key ps with
    | some x =>
      simp only
      rw [h] at ih
      refine ih.trans ?_
      constructor
      · rintro ⟨pre, post, rfl, hp⟩; exact ⟨(k, u) :: pre, post, rfl, hp⟩
      · rintro ⟨pre, post, he, hp⟩
        cases pre with
        | nil =>
          cases he
          rw [(none_iff ps).2 hp] at h; cases h
        | cons a pre => cases he; exact ⟨pre, post, rfl, hp⟩
    | none =>
      simp only
      have hn := (none_iff ps).1 h
      constructor
      · intro h'
        split at h'
        · next hk => cases h'; exact ⟨[], ps, by rw [hk]; rfl, hn⟩
        · cases h'
      · rintro ⟨pre, post, he, hp⟩
        cases pre with
        | nil => cases he; simp
        | cons a pre => cases he; exact absurd rfl (hn (key, t) (by simp))

/-- The first part of a step of either loop. -/
def at_ (E : Env T) (t : T) (p : Pat) : Bool × List (Report T) := if E.isAny t then (true, [⟨p.id, t, .element⟩]) else destructure E t p

omit [DecidableEq T] in
theorem elems_mem (E : Env T) (r : Report T) : ∀ (es : List Elem) (ts : List T),
    r ∈ (destructureElems E ts es).2 ↔ ∃ (i : Nat) (p : Pat) (t : T), es[i]? = some (Elem.elem p) ∧ ts[i]? = some t ∧ r ∈ (at_ E t p).2
  | [], ts => by simp [destructureElems]
  | e :: es, ts => by
    have ih := elems_mem E r es ts.tail
    have tail : ∀ i : Nat, ts.tail[i]? = ts[i + 1]? := by intro i; simp [List.getElem?_tail]
    have split_ : (∃ (i : Nat) (p : Pat) (t : T), (e :: es)[i]? = some (Elem.elem p) ∧ ts[i]? = some t ∧ r ∈ (at_ E t p).2) ↔
        (∃ p t, e = .elem p ∧ ts[0]? = some t ∧ r ∈ (at_ E t p).2) ∨ r ∈ (destructureElems E ts.tail es).2 := by
      rw [ih]
      constructor
      · rintro ⟨i, p, t, h1, h2, h3⟩
        cases i with
        | zero => exact .inl ⟨p, t, by simpa using h1, h2, h3⟩
        | succ i => exact .inr ⟨i, p, t, by simpa using h1, by rw [tail]; exact h2, h3⟩
      · rintro (⟨p, t, h1, h2, h3⟩ | ⟨i, p, t, h1, h2, h3⟩)
        · exact ⟨0, p, t, by simp [h1], h2, h3⟩
        · exact ⟨i + 1, p, t, by simpa using h1, by rw [← tail]; exact h2, h3⟩
    rw [split_]
    cases e with
    | hole => simp [destructureElems]
    | rest => simp [destructureElems]
    | elem p =>
      simp only [destructureElems, List.mem_append]
      refine or_congr ?_ Iff.rfl
      cases ts with
      | nil => simp
      | cons t ts =>
        simp only [Elem.elem.injEq, List.getElem?_cons_zero, Option.some.injEq, at_]
        constructor
        · intro h; exact ⟨p, t, rfl, rfl, h⟩
        · rintro ⟨_, _, rfl, rfl, h⟩; exact h

omit [DecidableEq T] in
theorem members_mem (E : Env T) (r : Report T) (ps : List (String × T)) : ∀ (ms : List Member),
    r ∈ (destructureMembers E ps ms).2 ↔ ∃ (key : String) (p : Pat) (t : T), Member.member (some key) p ∈ ms ∧ lookup key ps = some t ∧ r ∈ (at_ E t p).2
  | [] => by simp [destructureMembers]
  | m :: ms => by
    have ih := members_mem E r ps ms
    have split_ : (∃ (key : String) (p : Pat) (t : T), Member.member (some key) p ∈ m :: ms ∧ lookup key ps = some t ∧ r ∈ (at_ E t p).2) ↔
        (∃ key p t, m = .member (some key) p ∧ lookup key ps = some t ∧ r ∈ (at_ E t p).2) ∨ r ∈ (destructureMembers E ps ms).2 := by
      rw [ih]
      constructor
      · rintro ⟨k, p, t, h1, h2, h3⟩
        rcases List.mem_cons.1 h1 with h | h
        · exact .inl ⟨k, p, t, h.symm, h2, h3⟩
        · exact .inr ⟨k, p, t, h, h2, h3⟩
      · rintro (⟨k, p, t, h1, h2, h3⟩ | ⟨k, p, t, h1, h2, h3⟩)
        · exact ⟨k, p, t, by simp [h1], h2, h3⟩
        · exact ⟨k, p, t, by simp [h1], h2, h3⟩
    rw [split_]
    cases m with
    | rest => simp [destructureMembers]
    | member key p =>
      cases key with
      | none => simp [destructureMembers]
      | some key =>
        simp only [destructureMembers, List.mem_append]
        refine or_congr ?_ Iff.rfl
        simp only [Member.member.injEq, Option.some.injEq, at_]
        cases h : lookup key ps with
        | none =>
          simp only [List.not_mem_nil, false_iff]
          rintro ⟨k, q, t, ⟨rfl, rfl⟩, h', -⟩
          rw [h] at h'; cases h'
        | some t =>
          simp only
          constructor
          · intro h'; exact ⟨key, p, t, ⟨rfl, rfl⟩, h, h'⟩
          · rintro ⟨k, q, t', ⟨rfl, rfl⟩, h', h''⟩
            rw [h] at h'; cases h'; exact h''

omit [DecidableEq T] in
/-- C84 (destructuring).  Destructuring a value reports exactly the targets that receive an `any` part, found by following the pattern and the types of tuple elements and properties,
and the array patterns that take apart an `any[]`. -/
theorem C84_destructuring (E : Env T) (t : T) (p : Pat) (r : Report T) : r ∈ (destructure E t p).2 ↔ Reports E t p r := by
  have main : ∀ k (p : Pat), sizeOf p < k → ∀ t, r ∈ (destructure E t p).2 ↔ Reports E t p r := by
    intro k
    induction k with
    | zero => intro p h; omega
    | succ k ih =>
      intro p hk t
      have here : ∀ q, sizeOf q < k → ∀ t, r ∈ (at_ E t q).2 ↔ Receives E t q r := by
        intro q hq t
        unfold at_
        split
        · next h =>
          simp only [List.mem_singleton]
          constructor
          · rintro rfl; exact .any h
          · intro h'
            cases h' with
            | any => rfl
            | parts h'' => rw [h] at h''; cases h''
        · next h =>
          rw [ih q hq t]
          constructor
          · exact .parts (by simpa using h)
          · intro h'
            cases h' with
            | any h'' => exact absurd h'' h
            | parts _ h' => exact h'
      cases p with
      | leaf id =>
        simp only [destructure, List.not_mem_nil, false_iff]
        intro h; cases h
      | array id es =>
        have size : ∀ (i : Nat) p, es[i]? = some (Elem.elem p) → sizeOf p < k := by
          intro i p h
          have := List.sizeOf_lt_of_mem (List.mem_of_getElem? h)
          simp only [Elem.elem.sizeOf_spec, Pat.array.sizeOf_spec] at this hk
          omega
        simp only [destructure]
        split
        · next h =>
          simp only [List.mem_singleton]
          constructor
          · rintro rfl; exact .array h
          · intro h'
            cases h' with
            | array => rfl
            | element h'' => rw [h] at h''; cases h''
        · next h =>
          have h : E.isAnyArray t = false := by simpa using h
          cases ht : E.tuple t with
          | none =>
            simp only [List.not_mem_nil, false_iff]
            intro h'
            cases h' with
            | array h'' => rw [h] at h''; cases h''
            | element _ h'' => rw [ht] at h''; cases h''
          | some ts =>
            simp only
            rw [elems_mem]
            constructor
            · rintro ⟨i, p, t', h1, h2, h3⟩
              exact .element h ht h1 h2 ((here p (size i p h1) t').1 h3)
            · intro h'
              cases h' with
              | array h'' => rw [h] at h''; cases h''
              | @element _ t' ts' _ _ p _ i _ h2 h3 h4 h5 =>
                rw [ht] at h2; cases h2
                exact ⟨i, p, t', h3, h4, (here p (size i p h3) t').2 h5⟩
      | object id ms =>
        have size : ∀ key p, Member.member key p ∈ ms → sizeOf p < k := by
          intro key p h
          have := List.sizeOf_lt_of_mem h
          simp only [Member.member.sizeOf_spec, Pat.object.sizeOf_spec] at this hk
          omega
        simp only [destructure]
        cases hp : E.props t with
        | none =>
          simp only [List.not_mem_nil, false_iff]
          intro h
          cases h with
          | member _ h => obtain ⟨_, _, h, _⟩ := h; rw [hp] at h; cases h
        | some ps =>
          simp only
          rw [members_mem]
          constructor
          · rintro ⟨key, p, t', h1, h2, h3⟩
            obtain ⟨pre, post, rfl, h4⟩ := (lookup_iff ..).1 h2
            exact .member h1 ⟨pre, post, hp, h4⟩ ((here p (size _ p h1) t').1 h3)
          · intro h
            cases h with
            | @member _ t' _ _ key p _ h1 h2 h3 =>
              obtain ⟨pre, post, h2, h4⟩ := h2
              rw [hp] at h2; cases h2
              exact ⟨key, p, t', h1, (lookup_iff ..).2 ⟨pre, post, rfl, h4⟩, (here p (size _ p h1) t').2 h3⟩
  exact main _ p (Nat.lt_succ_self _) t

theorem id_mem (p : Pat) : [p.id].Sublist p.ids := by cases p <;> simp [Pat.id, Pat.ids]

omit [DecidableEq T] in
/-- C84 (once, in order).  The reported targets are some of the targets of the pattern, in source order; so each target is reported at most once. -/
theorem C84_order (E : Env T) (t : T) (p : Pat) : ((destructure E t p).2.map Report.id).Sublist p.ids := by
  have main : ∀ k (p : Pat), sizeOf p < k → ∀ t, ((destructure E t p).2.map Report.id).Sublist p.ids := by
    intro k
    induction k with
    | zero => intro p h; omega
    | succ k ih =>
      intro p hk t
      cases p with
      | leaf id => simp [destructure]
      | array id es =>
        simp only [destructure, Pat.ids]
        split
        · simp
        · split
          · simp
          · next ts hts =>
            clear hts
            refine List.Sublist.cons _ ?_
            have size : ∀ p, Elem.elem p ∈ es → sizeOf p < k := by
              intro p h
              have := List.sizeOf_lt_of_mem h
              simp only [Elem.elem.sizeOf_spec, Pat.array.sizeOf_spec] at this hk
              omega
            clear hk
            induction es generalizing ts with
            | nil => simp [destructureElems]
            | cons e es ihe =>
              have rest := fun ts => ihe ts fun p h => size p (by simp [h])
              cases e with
              | hole => simp only [destructureElems, idsOfElems]; exact rest _
              | rest => simp only [destructureElems, idsOfElems]; exact rest _
              | elem p =>
                simp only [destructureElems, idsOfElems, List.map_append]
                refine List.Sublist.append ?_ (rest _)
                cases ts with
                | nil => simp
                | cons t ts =>
                  simp only
                  split
                  · exact id_mem p
                  · exact ih p (size p (by simp)) t
      | object id ms =>
        simp only [destructure, Pat.ids]
        split
        · simp
        · next ps _ =>
          refine List.Sublist.cons _ ?_
          have size : ∀ key p, Member.member key p ∈ ms → sizeOf p < k := by
            intro key p h
            have := List.sizeOf_lt_of_mem h
            simp only [Member.member.sizeOf_spec, Pat.object.sizeOf_spec] at this hk
            omega
          clear hk
          induction ms with
          | nil => simp [destructureMembers]
          | cons m ms ihm =>
            have rest := ihm fun key p h => size key p (by simp [h])
            cases m with
            | rest => simp only [destructureMembers, idsOfMembers]; exact rest
            | member key p =>
              cases key with
              | none =>
                simp only [destructureMembers, idsOfMembers]
                exact List.Sublist.trans rest (List.sublist_append_right ..)
              | some key =>
                simp only [destructureMembers, idsOfMembers, List.map_append]
                refine List.Sublist.append ?_ rest
                split
                · simp
                · split
                  · exact id_mem p
                  · exact ih p (size (some key) p (by simp)) _
  exact main _ p (Nat.lt_succ_self _) t

theorem receiverType_iff (v : Value T) (r : Receiver T) (c : Comparison) (t : T) : receiverType v r c = t ↔ Target v r c t := by
  unfold receiverType
  constructor
  · rintro rfl
    cases c with
    | none => exact .none
    | basic => exact .basic
    | contextual =>
      simp only [if_true]
      cases h : v.contextual with
      | some t => exact .value h
      | none => cases h' : r.contextual with
        | some t => exact .receiver h h'
        | none => exact .own h h'
  · intro h
    cases h with
    | none => rfl
    | basic => rfl
    | value h => simp [h]
    | receiver h h' => simp [h, h']
    | own h h' => simp [h, h']

omit [DecidableEq T] in
theorem blamedThis_iff (E : Env T) (n : Bool) (v : Value T) (t : T) : blamedThis E n v = some t ↔ ThisToBlame E n v t := by
  unfold blamedThis ThisToBlame
  cases n <;> cases h : v.this <;> simp
  next x =>
    by_cases hx : E.isAny x = true <;> simp [hx]
    · rintro rfl; exact hx
    · rintro rfl; simpa using hx

omit [DecidableEq T] in
theorem canSkip_any {E : Env T} {v : Value T} {c : Comparison} (hv : Honest E v) (h : canSkip v.syntax_ c = true) :
    E.isAny v.type = false ∧ (c = .none ∨ E.isRef v.type = false) := by
  unfold canSkip at h
  split at h
  · next n hs => exact ⟨(hv.plain (.inl ⟨n, hs⟩)).1, .inr (hv.plain (.inl ⟨n, hs⟩)).2⟩
  · next b o hs =>
    rw [Bool.and_eq_true] at h
    obtain ⟨rfl, h⟩ := h
    have ho : o.skipParens = .literal true := by
      cases h' : o.skipParens <;> rw [h'] at h <;> simp [Sender.isNumeric] at h
      rw [h]
    have := hv.plain (.inr (.inl ⟨o, hs, ho⟩))
    exact ⟨this.1, .inr this.2⟩
  · next hs =>
    have := hv.plain (.inr (.inr (.inl hs)))
    exact ⟨this.1, .inr this.2⟩
  · next ms hs =>
    have := hv.plain (.inr (.inr (.inr ⟨ms, hs, by simpa using h⟩)))
    exact ⟨this.1, .inr this.2⟩
  · next es hs =>
    rw [Bool.and_eq_true, decide_eq_true_eq] at h
    exact ⟨hv.array ⟨es, hs, by simpa using h.2⟩, .inl h.1⟩
  · cases h

theorem shape_any {E : Env T} {t : T} : E.isAny t = true ↔ E.shape t = .any := by
  unfold Env.isAny; split <;> simp_all

/-- C84 (assignment).  One assignment is reported exactly if it is unsafe: the short cuts for senders that cannot be `any` change nothing. -/
theorem C84_assignment (E : Env T) (newMap noImplicitThis : Bool) (v : Value T) (r : Receiver T) (c : Comparison) (hv : Honest E v) (hj : Judges E newMap) (d : Diag T) :
    checkAssignment E noImplicitThis v r c = some d ↔ Unsafe E newMap noImplicitThis v r c d := by
  have tgt := receiverType_iff v r c
  unfold checkAssignment
  by_cases hany : E.isAny v.type = true
  · have hs : canSkip v.syntax_ c = false := by
      cases h : canSkip v.syntax_ c with
      | false => rfl
      | true => rw [(canSkip_any hv h).1] at hany; cases hany
    rw [hs]
    simp only [Bool.false_eq_true, if_false, hany, if_true]
    by_cases hu : E.isUnknown (receiverType v r c) = true
    · simp only [hu, if_true, reduceCtorEq, false_iff]
      intro h
      cases h with
      | this _ h h' => rw [(tgt _).2 h] at hu; rw [hu] at h'; cases h'
      | any _ h h' => rw [(tgt _).2 h] at hu; rw [hu] at h'; cases h'
      | argument h => rw [hany] at h; cases h
    · have hu : E.isUnknown (receiverType v r c) = false := by simpa using hu
      simp only [hu, Bool.false_eq_true, if_false]
      cases hb : blamedThis E noImplicitThis v with
      | some t =>
        have hb' := (blamedThis_iff ..).1 hb
        simp only [Option.some.injEq]
        constructor
        · rintro rfl; exact .this hany ((tgt _).1 rfl) hu hb'
        · intro h
          cases h with
          | this _ h _ h' => rw [(tgt _).2 h]; rw [← blamedThis_iff, hb] at h'; cases h'; rfl
          | any _ _ _ h => exact absurd hb' (h t)
          | argument h => rw [hany] at h; cases h
      | none =>
        have hb' : ∀ t, ¬ ThisToBlame E noImplicitThis v t := by intro t ht; rw [← blamedThis_iff, hb] at ht; cases ht
        simp only [Option.some.injEq]
        constructor
        · rintro rfl; exact .any hany ((tgt _).1 rfl) hu hb'
        · intro h
          cases h with
          | this _ _ _ h => exact absurd h (hb' _)
          | any _ h => rw [(tgt _).2 h]
          | argument h => rw [hany] at h; cases h
  · have hany : E.isAny v.type = false := by simpa using hany
    have cannot : (c = .none ∨ E.isRef v.type = false) → ¬ Unsafe E newMap noImplicitThis v r c d := by
      intro hc h
      cases h with
      | this h => rw [hany] at h; cases h
      | any h => rw [hany] at h; cases h
      | argument _ hn _ hcmp hun =>
        rcases hc with hc | hc
        · exact hn hc
        · have self : ∀ x a b, TypeGraph.Compared E.shape newMap v.type x a b → a = v.type := by
            intro x a b hab
            induction hab with
            | self => rfl
            | arg i _ _ h3 _ _ _ ih =>
              rw [ih] at h3
              simp [Env.isRef, h3] at hc
          rw [self _ _ _ hcmp] at hun
          rw [shape_any.2 hun.1] at hany; cases hany
    by_cases hs : canSkip v.syntax_ c = true
    · rw [if_pos hs]; simp only [reduceCtorEq, false_iff]; exact cannot (canSkip_any hv hs).2
    · rw [if_neg hs, if_neg (by simp [hany])]
      by_cases hc : c = .none
      · rw [if_pos hc]; simp only [reduceCtorEq, false_iff]; exact cannot (.inl hc)
      · rw [if_neg hc]
        by_cases href : (!E.isRef v.type) = true
        · rw [if_pos href]; simp only [reduceCtorEq, false_iff]; exact cannot (.inr (by simpa using href))
        · rw [if_neg href]
          obtain ⟨n, o, ho, hun⟩ := hj.computes v.type (receiverType v r c)
          have ex := TypeGraph.C39_exact E.shape newMap n _ _ o (fun a b => hj.arity _ _ a b) ho
          rcases ex with ⟨rfl, a, b, hab, hu⟩ | ⟨rfl, hno⟩
          · have := (hun (receiverType v r c, v.type)).2 rfl
            rw [this]
            simp only [Option.some.injEq]
            constructor
            · rintro rfl; exact .argument hany hc ((tgt _).1 rfl) hab hu
            · intro h
              cases h with
              | this h => rw [hany] at h; cases h
              | any h => rw [hany] at h; cases h
              | argument _ _ h => rw [(tgt _).2 h]
          · have : E.unsafe_ v.type (receiverType v r c) = none := by
              cases hx : E.unsafe_ v.type (receiverType v r c) with
              | none => rfl
              | some p => cases (hun p).1 hx
            rw [this]
            simp only [reduceCtorEq, false_iff]
            intro h
            cases h with
            | this h => rw [hany] at h; cases h
            | any h => rw [hany] at h; cases h
            | argument _ _ h hab hu => rw [← (tgt _).2 h] at hab; exact hno ⟨_, _, hab, hu⟩

/-- C84 (declarations and assignments).  A declaration or assignment is either reported as a whole, or its pattern is taken apart; what the two pattern checks return does not matter. -/
theorem C84_full (E : Env T) (noImplicitThis : Bool) (v : Value T) (r : Receiver T) (target : Pat) (c : Comparison) :
    (∀ d, (checkFull E noImplicitThis v r target c).1 = some d ↔ checkAssignment E noImplicitThis v r c = some d) ∧
    (∀ x, x ∈ (checkFull E noImplicitThis v r target c).2 ↔ checkAssignment E noImplicitThis v r c = none ∧ Reports E v.type target x) := by
  unfold checkFull
  cases h : checkAssignment E noImplicitThis v r c with
  | some d => simp
  | none =>
    simp only [true_and]
    constructor
    · intro d; split <;> simp
    · intro x
      rw [← C84_destructuring]
      cases target with
      | leaf id => simp [arrayHelper, objectHelper, destructure]
      | array id es =>
        simp only [arrayHelper, objectHelper, List.append_nil]
        cases (destructure E v.type (.array id es)).1 <;> rfl
      | object id ms => simp [arrayHelper, objectHelper]

/-- C84 (object literals; finding).  In an object literal exactly the unsafe members are reported that come before the first member initialised by an assignment expression: at that
one the rule stops. -/
theorem C84_object_literal (E : Env T) (noImplicitThis : Bool) (ms : List (LitMember T)) (id : Nat) (d : Diag T) :
    (id, d) ∈ objectLiteral E noImplicitThis ms ↔ ∃ pre post v r, ms = pre ++ .init id false v r :: post ∧ (∀ i v r, LitMember.init i true v r ∉ pre) ∧
      checkAssignment E noImplicitThis v r .contextual = some d := by
  induction ms with
  | nil => simp [objectLiteral]
  | cons m ms ih =>
    have step : (∀ i v r, m ≠ LitMember.init i true v r) → ((∃ pre post v r, m :: ms = pre ++ .init id false v r :: post ∧ (∀ i v r, LitMember.init i true v r ∉ pre) ∧
        checkAssignment E noImplicitThis v r .contextual = some d) ↔
        (∃ v r, m = .init id false v r ∧ checkAssignment E noImplicitThis v r .contextual = some d) ∨ (id, d) ∈ objectLiteral E noImplicitThis ms) := by
      intro hm
      rw [ih]
      constructor
      · rintro ⟨pre, post, v, r, h1, h2, h3⟩
        cases pre with
        | nil => cases h1; exact .inl ⟨v, r, rfl, h3⟩
        | cons a pre => cases h1; exact .inr ⟨pre, post, v, r, rfl, fun i v r h => h2 i v r (by simp [h]), h3⟩
      · rintro (⟨v, r, rfl, h⟩ | ⟨pre, post, v, r, rfl, h2, h3⟩)
        · exact ⟨[], ms, v, r, rfl, by simp, h⟩
        · exact ⟨m :: pre, post, v, r, rfl, fun i v r h => by
            rcases List.mem_cons.1 h with h | h
            · exact hm i v r h.symm
            · exact h2 i v r h, h3⟩
    cases m with
    | other => rw [step (by simp), objectLiteral]; simp
    | init i assigns v r =>
      cases assigns with
      | true =>
        simp only [objectLiteral, if_true, List.not_mem_nil, false_iff]
        rintro ⟨pre, post, v', r', h1, h2, -⟩
        cases pre with
        | nil => cases h1
        | cons a pre => cases h1; exact h2 i v r (by simp)
      | false =>
        rw [step (by simp), objectLiteral]
        simp only [Bool.false_eq_true, if_false]
        cases h : checkAssignment E noImplicitThis v r .contextual with
        | none =>
          simp only
          constructor
          · exact .inr
          · rintro (⟨v', r', h1, h2⟩ | h')
            · cases h1; rw [h] at h2; cases h2
            · exact h'
        | some d' =>
          simp only [List.mem_cons, Prod.mk.injEq]
          refine or_congr ?_ Iff.rfl
          constructor
          · rintro ⟨rfl, rfl⟩; exact ⟨v, r, rfl, h⟩
          · rintro ⟨v', r', h1, h2⟩; cases h1; rw [h] at h2; cases h2; exact ⟨rfl, rfl⟩

omit [DecidableEq T] in
/-- C84 (array literals).  In an array literal exactly the spreads of `any` and `any[]` are reported. -/
theorem C84_array_literal (E : Env T) (es : List (LitElem T)) (id : Nat) :
    id ∈ arrayLiteral E es ↔ ∃ t, ⟨id, some t⟩ ∈ es ∧ (E.isAny t = true ∨ E.isAnyArray t = true) := by
  induction es with
  | nil => simp [arrayLiteral]
  | cons e es ih =>
    obtain ⟨i, s⟩ := e
    cases s with
    | none => simp [arrayLiteral, ih]
    | some t =>
      simp only [arrayLiteral, List.mem_cons, LitElem.mk.injEq, Option.some.injEq, or_and_right, exists_or, ← ih]
      split
      · next h =>
        simp only [Bool.or_eq_true] at h
        simp only [List.mem_cons]
        refine or_congr ?_ Iff.rfl
        constructor
        · rintro rfl; exact ⟨t, ⟨rfl, rfl⟩, h⟩
        · rintro ⟨_, ⟨rfl, _⟩, _⟩; rfl
      · next h =>
        simp only [Bool.or_eq_true] at h
        constructor
        · exact .inr
        · rintro (⟨_, ⟨_, rfl⟩, h'⟩ | h')
          · exact absurd h' h
          · exact h'

/-- The tokens from the receiver up to the first one of the value. -/
def Window (senderPos senderEnd : Nat) (ts : List Tok) (w : List Tok) : Prop :=
  ∃ rest, ts = w ++ rest ∧ (∀ t ∈ w, t.kind ≠ .eof ∧ t.pos < senderEnd) ∧
    ((∃ pre t, w = pre ++ [t] ∧ senderPos ≤ t.pos ∧ ∀ u ∈ pre, u.pos < senderPos) ∨
     ((∀ t ∈ w, t.pos < senderPos) ∧ ∀ t ts', rest = t :: ts' → t.kind = .eof ∨ senderEnd ≤ t.pos))

/-- C84 (place).  The report is put at the first `=` between the receiver and the value, else at the last colon there, else at the receiver. -/
theorem C84_place (senderPos senderEnd : Nat) (ts w : List Tok) (h : Window senderPos senderEnd ts w) :
    (∀ t, (∃ pre post, w = pre ++ t :: post ∧ t.kind = .equals ∧ ∀ u ∈ pre, u.kind ≠ .equals) → relation senderPos senderEnd ts none = some t) ∧
    ((∀ u ∈ w, u.kind ≠ .equals) → ∀ t, (∃ pre post, w = pre ++ t :: post ∧ t.kind = .colon ∧ ∀ u ∈ post, u.kind ≠ .colon) →
      relation senderPos senderEnd ts none = some t) ∧
    ((∀ u ∈ w, u.kind ≠ .equals) → (∀ u ∈ w, u.kind ≠ .colon) → relation senderPos senderEnd ts none = none) := by
  have main : ∀ (w ts : List Tok), Window senderPos senderEnd ts w → ∀ c,
      (∀ t, (∃ pre post, w = pre ++ t :: post ∧ t.kind = .equals ∧ ∀ u ∈ pre, u.kind ≠ .equals) → relation senderPos senderEnd ts c = some t) ∧
      ((∀ u ∈ w, u.kind ≠ .equals) → relation senderPos senderEnd ts c = ((w.filter fun t => t.kind = .colon).getLast?.or c)) := by
    intro w
    induction w with
    | nil =>
      intro ts h c
      obtain ⟨rest, hr, -, h⟩ := h
      rw [hr]
      refine ⟨by simp, fun _ => ?_⟩
      rcases h with ⟨pre, t, h, -⟩ | ⟨-, h⟩
      · simp at h
      · cases rest with
        | nil => simp [relation]
        | cons t rest =>
          simp only [List.nil_append, relation]
          rw [if_neg]
          · simp
          · rcases h t rest rfl with h | h
            · simp [h]
            · intro h'; omega
    | cons a w ih =>
      intro ts h c
      obtain ⟨rest, rfl, hw, h⟩ := h
      have ha := hw a (by simp)
      simp only [List.cons_append, relation, if_pos ha]
      by_cases he : a.kind = .equals
      · rw [if_pos he]
        refine ⟨?_, fun h => absurd he (h a (by simp))⟩
        rintro t ⟨pre, post, h1, h2, h3⟩
        cases pre with
        | nil => cases h1; rfl
        | cons b pre => cases h1; exact absurd he (h3 a (by simp))
      · rw [if_neg he]
        by_cases hp : senderPos ≤ a.pos
        · have hw' : w = [] := by
            rcases h with ⟨pre, t, h1, h2, h3⟩ | ⟨h1, -⟩
            · cases pre with
              | nil => cases h1; rfl
              | cons b pre => cases h1; have := h3 a (by simp); omega
            · have := h1 a (by simp); omega
          subst hw'
          rw [if_pos hp]
          constructor
          · rintro t ⟨pre, post, h1, h2, h3⟩
            cases pre with
            | nil => cases h1; exact absurd h2 he
            | cons b pre => simp at h1
          · intro _
            by_cases hc : a.kind = .colon <;> simp [hc]
        · rw [if_neg hp]
          have hwin : Window senderPos senderEnd (w ++ rest) w := by
            refine ⟨rest, rfl, fun t h => hw t (by simp [h]), ?_⟩
            rcases h with ⟨pre, t, h1, h2, h3⟩ | ⟨h1, h2⟩
            · cases pre with
              | nil => cases h1; exact absurd h2 hp
              | cons b pre => cases h1; exact .inl ⟨pre, t, rfl, h2, fun u hu => h3 u (by simp [hu])⟩
            · exact .inr ⟨fun t h => h1 t (by simp [h]), h2⟩
          obtain ⟨i1, i2⟩ := ih _ hwin (if a.kind = .colon then some a else c)
          constructor
          · rintro t ⟨pre, post, h1, h2, h3⟩
            cases pre with
            | nil => cases h1; exact absurd h2 he
            | cons b pre => cases h1; exact i1 t ⟨pre, post, rfl, h2, fun u hu => h3 u (by simp [hu])⟩
          · intro hne
            rw [i2 fun u hu => hne u (by simp [hu])]
            by_cases hc : a.kind = .colon
            · simp only [hc, if_true, List.filter_cons, decide_true]
              rw [List.getLast?_cons]
              cases (w.filter fun t => t.kind = .colon).getLast? <;> simp
            · simp [hc, List.filter_cons]
  obtain ⟨m1, m2⟩ := main w ts h none
  refine ⟨m1, fun hn t ht => ?_, fun hn hc => ?_⟩
  · rw [m2 hn]
    obtain ⟨pre, post, rfl, hk, hp⟩ := ht
    have : post.filter (fun t => decide (t.kind = .colon)) = [] := by simpa using hp
    simp [List.filter_append, List.filter_cons, hk, this]
  · rw [m2 hn]
    have : w.filter (fun t => decide (t.kind = .colon)) = [] := by simpa using hc
    simp [this]

/-- C84 (finding).  In `[, x] = t` with an `any` first element the hole is reported, although it receives nothing; a binding pattern with the same hole is not. -/
theorem C84_hazard_hole (E : Env T) (t a b : T) (hole x id : Nat) (h1 : E.isAnyArray t = false) (h2 : E.tuple t = some [a, b]) (ha : E.isAny a = true) (hb : E.isAny b = false) :
    (destructure E t (.array id [.elem (.leaf hole), .elem (.leaf x)])).2 = [⟨hole, a, .element⟩] ∧
    (destructure E t (.array id [.hole, .elem (.leaf x)])).2 = [] := by
  simp [destructure, destructureElems, h1, h2, ha, hb, Pat.id]

/-! ## Cases -/

/-- Types: 0 `any`, 1 `unknown`, 2 `number`, 3 `[any, number]`, 4 `any[]`, 5 `{ a: any; b: [any, number] }`, 6 `Set<any>`, 7 `Set<number>`. -/
def shape : Fin 8 → Shape (Fin 8)
  | 0 => .any
  | 1 => .unknown
  | 6 => .ref 6 (some [0])
  | 7 => .ref 6 (some [2])
  | _ => .other

def sample : Env (Fin 8) where
  shape := shape
  isAnyArray t := t == 4
  tuple t := if t = 3 then some [0, 2] else none
  props t := if t = 5 then some [("a", 0), ("b", 3)] else none
  unsafe_ t r := match isUnsafeAssignment shape false 10 t r with
    | some (.bad r t) => some (r, t)
    | _ => none

def value (t : Fin 8) : Value (Fin 8) := ⟨.other, t, none, none⟩

example : (destructure sample 5 (.object 1 [.member (some "b") (.array 2 [.elem (.leaf 3), .elem (.leaf 4)]), .member (some "a") (.leaf 5)])).2 =
    [⟨3, 0, .element⟩, ⟨5, 0, .element⟩] := by decide
example : Reports sample 5 (.object 1 [.member (some "b") (.array 2 [.elem (.leaf 3)])]) ⟨3, 0, .element⟩ := by
  rw [← C84_destructuring]; decide
example : (destructure sample 4 (.array 2 [.elem (.leaf 3)])).2 = [⟨2, 4, .array⟩] := by decide
example : checkAssignment sample true (value 0) ⟨2, none⟩ .basic = some ⟨.anyAssignment, 0, 2, false⟩ := by decide
example : checkAssignment sample true (value 0) ⟨1, none⟩ .basic = none := by decide
example : checkAssignment sample true (value 6) ⟨7, none⟩ .basic = some ⟨.unsafeAssignment, 6, 7, false⟩ := by decide
example : checkAssignment sample true (value 6) ⟨7, none⟩ .none = none := by decide
example : checkAssignment sample false ⟨.other, 0, some 0, some 7⟩ ⟨2, none⟩ .contextual = some ⟨.anyAssignmentThis, 0, 7, false⟩ := by decide
example : Honest sample (value 6) := ⟨by simp [value, Sender.skipParens], by simp [value, Sender.skipParens]⟩
example : (checkFull sample true (value 3) ⟨3, none⟩ (.array 1 [.elem (.leaf 2)]) .none).2 = [⟨2, 0, .element⟩] := by decide
example : objectLiteral sample true [.init 1 false (value 0) ⟨2, none⟩, .init 2 true (value 2) ⟨2, none⟩, .init 3 false (value 0) ⟨2, none⟩] = [(1, ⟨.anyAssignment, 0, 2, false⟩)] := by
  decide
example : arrayLiteral sample [⟨1, none⟩, ⟨2, some 4⟩, ⟨3, some 2⟩] = [2] := by decide
/-- `x: T = v` -/
example : relation 6 8 [⟨.colon, 1, 2⟩, ⟨.other, 3, 4⟩, ⟨.equals, 5, 6⟩, ⟨.other, 7, 8⟩] none = some ⟨.equals, 5, 6⟩ := by decide
example : Window 6 8 [⟨.colon, 1, 2⟩, ⟨.other, 3, 4⟩, ⟨.equals, 5, 6⟩, ⟨.other, 7, 8⟩] [⟨.colon, 1, 2⟩, ⟨.other, 3, 4⟩, ⟨.equals, 5, 6⟩, ⟨.other, 7, 8⟩] :=
  ⟨[], rfl, by decide, .inl ⟨[⟨.colon, 1, 2⟩, ⟨.other, 3, 4⟩, ⟨.equals, 5, 6⟩], _, rfl, by decide, by decide⟩⟩
/-- `f: <T = any>() => T = v` is reported at the inner `=`. -/
example : relation 13 15 [⟨.colon, 1, 2⟩, ⟨.other, 3, 4⟩, ⟨.other, 4, 5⟩, ⟨.equals, 6, 7⟩, ⟨.other, 8, 11⟩, ⟨.equals, 12, 13⟩, ⟨.other, 14, 15⟩] none = some ⟨.equals, 6, 7⟩ := by decide

/-- The sample's judgement is the computed one. -/
example : Judges sample false := by
  constructor
  · intro t r
    have all : ∀ t r : Fin 8, (isUnsafeAssignment shape false 10 t r).isSome = true := by decide
    obtain ⟨o, ho⟩ := Option.isSome_iff_exists.1 (all t r)
    refine ⟨10, o, ho, fun p => ?_⟩
    simp only [sample, ho]
    cases o with
    | bad a b => simp [Prod.ext_iff]
    | safe => simp
    | panic => simp
  · rintro t r a b - ⟨target, as, bs, h1, h2, h3⟩
    have len : ∀ (a target : Fin 8) as, shape a = .ref target (some as) → as.length = 1 := by
      intro a target as h
      have : a = 6 ∨ a = 7 ∨ shape a = .any ∨ shape a = .unknown ∨ shape a = .other := by
        revert a; intro a _
        match a with
        | 0 | 1 | 2 | 3 | 4 | 5 | 6 | 7 => simp [shape]
      rcases this with rfl | rfl | h' | h' | h' <;> first | (cases h; rfl) | (rw [h'] at h; cases h)
    have := len _ _ _ h1
    have := len _ _ _ h2
    omega

end Tsgolint.UnsafeAssignment
