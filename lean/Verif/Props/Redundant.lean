import Verif.Proof.Redundant
/-! # C61: no-redundant-type-constituents -/
namespace Tsgolint.Redundant

theorem primitiveBit_iff (p : Part) (k : Kind) :
    p.flag.primitiveBit = some k ↔ p.flag = .prim k ∨ (k = .boolean ∧ p.flag = .booleanUnion) := by
  cases p.flag <;> simp [Flag.primitiveBit]
  exact eq_comm

theorem seen_iff (ret : Bool) (nodes : List (List Part)) (k : Kind) : (unionNodes ret 0 {} nodes).seen k = true ↔ AnyPrimitive nodes k := by
  rw [(union_inv ret nodes).seen k]
  constructor
  · rintro ⟨⟨i, p⟩, he, hp⟩
    obtain ⟨ps, hi, hm⟩ := (done_mem ..).1 he
    exact ⟨ps, mem_of_node hi, p, hm, (primitiveBit_iff ..).1 hp⟩
  · rintro ⟨ps, hps, p, hp, hk⟩
    obtain ⟨i, hi⟩ := node_of_mem hps
    exact ⟨(i, p), (done_mem ..).2 ⟨ps, hi, hp⟩, (primitiveBit_iff ..).2 hk⟩

theorem overriddenReports_iff (order : NodeMap → NodeMap) (ho : ∀ m, (order m).Perm m) (ret : Bool) (nodes : List (List Part)) (k : Kind)
    (i : Nat) (m : Message) : (i, m) ∈ overriddenReports order (unionNodes ret 0 {} nodes) k ↔
      AnyPrimitive nodes k ∧ ∃ ps, IsNode nodes i ps ∧ literalsOf k ps ≠ [] ∧ m = .literalOverridden (join (literalsOf k ps)) k.name := by
  rw [overriddenReports]
  by_cases hs : AnyPrimitive nodes k
  · have := (seen_iff ret nodes k).2 hs
    rw [if_neg (by simp [this])]
    simp only [List.mem_map, Prod.mk.injEq, (ho _).mem_iff, hs, true_and]
    constructor
    · rintro ⟨⟨j, ls⟩, he, rfl, rfl⟩
      obtain ⟨h1, h2⟩ := ((union_inv ret nodes).map k j ls).1 he
      rw [filter_done] at h1
      simp only [Nat.zero_le, if_true, Nat.sub_zero] at h1
      cases hn : nodes[j]? with
      | none => rw [hn] at h1; exact absurd h1 (by simpa [literalsOf] using h2)
      | some ps => rw [hn] at h1; simp only [Option.getD_some] at h1; subst h1; exact ⟨ps, hn, h2, rfl⟩
    · rintro ⟨ps, hi, hl, rfl⟩
      refine ⟨(i, literalsOf k ps), ((union_inv ret nodes).map k i _).2 ⟨?_, hl⟩, rfl, rfl⟩
      rw [filter_done]
      have hi' : nodes[i]? = some ps := hi
      simp [hi']
  · have : (unionNodes ret 0 {} nodes).seen k = false := by
      cases h : (unionNodes ret 0 {} nodes).seen k
      · rfl
      · exact absurd ((seen_iff ret nodes k).1 h) hs
    simp [this, hs]

/-- Unions, exactly, whatever the order in which the map is read: a top or bottom type is reported on the constituent it is a part of, and the
literals of a constituent of one kind are reported together if the primitive type of that kind is a part of some constituent. -/
theorem C61_union (order : NodeMap → NodeMap) (ho : ∀ m, (order m).Perm m) (ret : Bool) (nodes : List (List Part)) (i : Nat) (m : Message) :
    (i, m) ∈ runUnion order ret nodes ↔
      ∃ ps, IsNode nodes i ps ∧
        ((∃ p ∈ ps, TopUnion ret p m) ∨
         (∃ k, AnyPrimitive nodes k ∧ literalsOf k ps ≠ [] ∧ m = .literalOverridden (join (literalsOf k ps)) k.name)) := by
  simp only [runUnion, List.mem_append, overriddenReports_iff order ho, (union_inv ret nodes).reports, done_mem, topUnion_iff]
  constructor
  · rintro ((((⟨p, ⟨ps, hi, hp⟩, ht⟩ | ⟨hk, ps, hi, hl, hm⟩) | ⟨hk, ps, hi, hl, hm⟩) | ⟨hk, ps, hi, hl, hm⟩) | ⟨hk, ps, hi, hl, hm⟩)
    · exact ⟨ps, hi, .inl ⟨p, hp, ht⟩⟩
    · exact ⟨ps, hi, .inr ⟨_, hk, hl, hm⟩⟩
    · exact ⟨ps, hi, .inr ⟨_, hk, hl, hm⟩⟩
    · exact ⟨ps, hi, .inr ⟨_, hk, hl, hm⟩⟩
    · exact ⟨ps, hi, .inr ⟨_, hk, hl, hm⟩⟩
  · rintro ⟨ps, hi, ⟨p, hp, ht⟩ | ⟨k, hk, hl, hm⟩⟩
    · exact .inl (.inl (.inl (.inl ⟨p, ⟨ps, hi, hp⟩, ht⟩)))
    · cases k
      · exact .inl (.inl (.inl (.inr ⟨hk, ps, hi, hl, hm⟩)))
      · exact .inl (.inl (.inr ⟨hk, ps, hi, hl, hm⟩))
      · exact .inl (.inr ⟨hk, ps, hi, hl, hm⟩)
      · exact .inr ⟨hk, ps, hi, hl, hm⟩

theorem Kind.name_inj {a b : Kind} (h : a.name = b.name) : a = b := by cases a <;> cases b <;> simp [Kind.name] at h <;> rfl

/-- A part is said to be redundant in the union: it is `never`, or a literal of a kind reported on its constituent. -/
def Dropped (reports : List Report) (nodes : List (List Part)) (p : Part) : Prop :=
  p.flag = .never ∨ ∃ k i ps t, p.flag = .lit k ∧ IsNode nodes i ps ∧ p ∈ ps ∧ (i, .literalOverridden t k.name) ∈ reports

/-- What is reported as redundant in a union is: without those parts the union has the same values. -/
theorem C61_union_sound (μ : Meaning) (order : NodeMap → NodeMap) (ho : ∀ m, (order m).Perm m) (ret : Bool) (nodes : List (List Part))
    (keep : Part → Bool) (hk : ∀ ps ∈ nodes, ∀ p ∈ ps, keep p = false → Dropped (runUnion order ret nodes) nodes p) (v : Val) :
    μ.union (nodes.map (List.filter keep)) v ↔ μ.union nodes v := by
  constructor
  · rintro ⟨ps, hps, p, hp, hv⟩
    obtain ⟨qs, hqs, rfl⟩ := List.mem_map.1 hps
    exact ⟨qs, hqs, p, (List.mem_filter.1 hp).1, hv⟩
  · rintro ⟨ps, hps, p, hp, hv⟩
    cases hkp : keep p with
    | true => exact ⟨_, List.mem_map.2 ⟨ps, hps, rfl⟩, p, List.mem_filter.2 ⟨hp, hkp⟩, hv⟩
    | false =>
      rcases hk ps hps p hp hkp with h | ⟨k, i, qs, t, hf, hi, hq, hr⟩
      · exact absurd hv (μ.never p v h)
      · obtain ⟨ls, hi', ⟨q, -, ht⟩ | ⟨k', ⟨rs, hrs, r, hr', hr''⟩, -, hm⟩⟩ := (C61_union order ho ret nodes i _).1 hr
        · cases ht
        · simp only [Message.literalOverridden.injEq] at hm
          have hkk : k = k' := Kind.name_inj hm.2
          subst hkk
          have hkind := μ.lit p k v hf hv
          have hrv : μ.has r v := by
            rcases hr'' with h | ⟨rfl, h⟩
            · exact (μ.prim r k v h).2 hkind
            · exact (μ.boolean r v h).2 hkind
          cases hkr : keep r with
          | true => exact ⟨_, List.mem_map.2 ⟨rs, hrs, rfl⟩, r, List.mem_filter.2 ⟨hr', hkr⟩, hrv⟩
          | false =>
            rcases hk rs hrs r hr' hkr with h | ⟨k', -, -, -, hf', -⟩
            · rcases hr'' with h' | ⟨-, h'⟩ <;> rw [h] at h' <;> cases h'
            · rcases hr'' with h' | ⟨-, h'⟩ <;> rw [hf'] at h' <;> cases h'

/-- What is said to override all others in a union does: the union has every value. -/
theorem C61_union_top (μ : Meaning) (order : NodeMap → NodeMap) (ho : ∀ m, (order m).Perm m) (ret : Bool) (nodes : List (List Part)) (i : Nat)
    (n : String) (h : (i, .overrides n .union) ∈ runUnion order ret nodes) (v : Val) : μ.union nodes v := by
  obtain ⟨ps, hi, ⟨p, hp, ht⟩ | ⟨k, -, -, hm⟩⟩ := (C61_union order ho ret nodes i _).1 h
  · cases ht with
    | any h1 _ => exact ⟨ps, mem_of_node hi, p, hp, μ.any p v h1⟩
    | unknown h1 => exact ⟨ps, mem_of_node hi, p, hp, μ.unknown p v h1⟩
  · cases hm

theorem interReports_iff (nodes : List (List Part)) (i : Nat) (m : Message) :
    (i, m) ∈ (interLoop 0 {} nodes).reports ↔ ∃ ps, IsNode nodes i ps ∧ ∃ p ∈ ps, TopInter p m := by
  rw [(interLoop_spec nodes 0 {}).1]
  simp only [List.nil_append, List.mem_flatMap, List.mem_map, List.mem_filterMap, Prod.mk.injEq, topInter_iff]
  constructor
  · rintro ⟨⟨ps, j⟩, he, m', ⟨p, hp, ht⟩, rfl, rfl⟩
    exact ⟨ps, (mem_zipIdx0 ..).1 he, p, hp, ht⟩
  · rintro ⟨ps, hi, p, hp, ht⟩
    exact ⟨(ps, i), (mem_zipIdx0 ..).2 hi, m, ⟨p, hp, ht⟩, rfl, rfl⟩

theorem overridesPrimitive_iff (ls : List Part) (prims : List Nat) (name : String) (i : Nat) (m : Message) :
    (i, m) ∈ overridesPrimitive ls prims name ↔ ls ≠ [] ∧ i ∈ prims ∧ m = .primitiveOverridden (join ls) name := by
  rw [overridesPrimitive]
  cases ls with
  | nil => simp
  | cons a ls =>
    simp only [List.length_cons, Nat.succ_ne_zero, if_false, List.mem_map, Prod.mk.injEq, ne_eq, reduceCtorEq, not_false_eq_true, true_and]
    constructor
    · rintro ⟨j, hj, rfl, rfl⟩; exact ⟨hj, rfl⟩
    · rintro ⟨hj, rfl⟩; exact ⟨i, hj, rfl, rfl⟩

/-- Intersections without unions, exactly. -/
theorem C61_intersection_flat (nodes : List (List Part)) (hu : ¬ HasUnion nodes) (i : Nat) (m : Message) :
    (i, m) ∈ runIntersection nodes ↔
      ∃ ps, IsNode nodes i ps ∧ ∃ p ∈ ps, TopInter p m ∨
        ∃ k, p.flag = .prim k ∧ literalsOf k nodes.flatten ≠ [] ∧ m = .primitiveOverridden (join (literalsOf k nodes.flatten)) k.name := by
  have hl := (interLoop_spec nodes 0 {}).2.2.2 rfl hu
  have h0 : ¬ (interLoop 0 {} nodes).unions.length > 0 := fun h => hu ((unions_pos nodes).1 h)
  simp only [List.nil_append] at hl
  simp only [runIntersection, h0, false_and, if_false, hl, List.mem_append, overridesPrimitive_iff, prims_iff, interReports_iff]
  constructor
  · rintro ((((⟨ps, hi, p, hp, ht⟩ | ⟨hl, ⟨ps, hi, p, hp, hf⟩, hm⟩) | ⟨hl, ⟨ps, hi, p, hp, hf⟩, hm⟩) | ⟨hl, ⟨ps, hi, p, hp, hf⟩, hm⟩) |
      ⟨hl, ⟨ps, hi, p, hp, hf⟩, hm⟩)
    · exact ⟨ps, hi, p, hp, .inl ht⟩
    · exact ⟨ps, hi, p, hp, .inr ⟨_, hf, hl, hm⟩⟩
    · exact ⟨ps, hi, p, hp, .inr ⟨_, hf, hl, hm⟩⟩
    · exact ⟨ps, hi, p, hp, .inr ⟨_, hf, hl, hm⟩⟩
    · exact ⟨ps, hi, p, hp, .inr ⟨_, hf, hl, hm⟩⟩
  · rintro ⟨ps, hi, p, hp, ht | ⟨k, hf, hl, hm⟩⟩
    · exact .inl (.inl (.inl (.inl ⟨ps, hi, p, hp, ht⟩)))
    · cases k
      · exact .inl (.inl (.inl (.inr ⟨hl, ⟨ps, hi, p, hp, hf⟩, hm⟩)))
      · exact .inl (.inl (.inr ⟨hl, ⟨ps, hi, p, hp, hf⟩, hm⟩))
      · exact .inl (.inr ⟨hl, ⟨ps, hi, p, hp, hf⟩, hm⟩)
      · exact .inr ⟨hl, ⟨ps, hi, p, hp, hf⟩, hm⟩

/-- Intersections with a union: reported are the top and bottom types, and the unions all of whose parts are literals of primitives that
are parts of the intersection. -/
theorem C61_intersection_union (nodes : List (List Part)) (hu : HasUnion nodes) (i : Nat) :
    (∀ m, (∀ a b, m ≠ .primitiveOverridden a b) → ((i, m) ∈ runIntersection nodes ↔ ∃ ps, IsNode nodes i ps ∧ ∃ p ∈ ps, TopInter p m)) ∧
    ((∃ a b, (i, .primitiveOverridden a b) ∈ runIntersection nodes) ↔
      ∃ ps, IsNode nodes i ps ∧ 2 ≤ ps.length ∧ ∀ p ∈ ps, ∃ k, p.flag = .lit k ∧ Primitive nodes k) := by
  have h0 : (interLoop 0 {} nodes).unions.length > 0 := (unions_pos nodes).2 hu
  have key : ∀ ps : List Part, 2 ≤ ps.length → (lastName (interLoop 0 {} nodes).primitives "" ps ≠ "" ↔
      ∀ p ∈ ps, ∃ k, p.flag = .lit k ∧ Primitive nodes k) := by
    intro ps hl
    rw [lastName_ne _ _ _ (by rintro rfl; simp at hl)]
    simp only [primitiveName_ne, prims_pos]
  by_cases hp : ((interLoop 0 {} nodes).primitives .bigint).length > 0 ∨ ((interLoop 0 {} nodes).primitives .boolean).length > 0 ∨
      ((interLoop 0 {} nodes).primitives .number).length > 0 ∨ ((interLoop 0 {} nodes).primitives .string).length > 0
  · have e : runIntersection nodes =
        (interLoop 0 {} nodes).reports ++ unionLoop (interLoop 0 {} nodes).primitives "" (interLoop 0 {} nodes).unions := by
      simp only [runIntersection, h0, true_and, if_pos hp, if_true]
    rw [e]
    constructor
    · intro m hm
      rw [List.mem_append, interReports_iff]
      constructor
      · rintro (h | h)
        · exact h
        · obtain ⟨a, b, rfl⟩ := unionLoop_message _ _ _ _ _ h
          exact absurd rfl (hm a b)
      · exact .inl
    · constructor
      · rintro ⟨a, b, h⟩
        rcases List.mem_append.1 h with h | h
        · obtain ⟨ps, -, p, -, ht⟩ := (interReports_iff ..).1 h
          cases ht
        · obtain ⟨ps, h1, h2⟩ := (unionLoop_iff ..).1 ⟨_, h⟩
          obtain ⟨h3, h4⟩ := (unions_iff ..).1 h1
          exact ⟨ps, h3, h4, (key ps h4).1 h2⟩
      · rintro ⟨ps, hi, hl, hall⟩
        obtain ⟨m, hm⟩ := (unionLoop_iff (interLoop 0 {} nodes).primitives (interLoop 0 {} nodes).unions "" i).2
          ⟨ps, (unions_iff ..).2 ⟨hi, hl⟩, (key ps hl).2 hall⟩
        obtain ⟨a, b, rfl⟩ := unionLoop_message _ _ _ _ _ hm
        exact ⟨a, b, List.mem_append_right _ hm⟩
  · have e : runIntersection nodes = (interLoop 0 {} nodes).reports := by
      simp only [runIntersection, h0, true_and, if_neg hp, if_true]
    rw [e]
    refine ⟨fun m _ => interReports_iff .., ?_⟩
    constructor
    · rintro ⟨a, b, h⟩
      obtain ⟨ps, -, p, -, ht⟩ := (interReports_iff ..).1 h
      cases ht
    · rintro ⟨ps, hi, hl, hall⟩
      cases ps with
      | nil => simp at hl
      | cons p ps =>
        obtain ⟨k, -, hk⟩ := hall p (List.mem_cons_self ..)
        have := (prims_pos nodes k).2 hk
        cases k <;> simp_all

/-- A primitive reported in an intersection without unions is redundant: without it the intersection has the same values. -/
theorem C61_intersection_flat_sound (μ : Meaning) (nodes : List (List Part)) (hu : ¬ HasUnion nodes) (i : Nat) (a b : String)
    (h : (i, .primitiveOverridden a b) ∈ runIntersection nodes) (v : Val) : μ.inter (nodes.eraseIdx i) v ↔ μ.inter nodes v := by
  obtain ⟨ps, hi, p, hp, ht | ⟨k, hf, hl, -⟩⟩ := (C61_intersection_flat nodes hu i _).1 h
  · cases ht
  · constructor
    · intro hv qs hqs
      obtain ⟨j, hj⟩ := List.mem_iff_getElem?.1 hqs
      by_cases hij : j = i
      · subst hij
        obtain rfl : ps = qs := by have h1 : nodes[j]? = some ps := hi; rw [h1] at hj; cases hj; rfl
        obtain ⟨l, hlm⟩ := List.exists_mem_of_ne_nil _ hl
        obtain ⟨hlm, hlf⟩ := List.mem_filter.1 hlm
        simp only [decide_eq_true_eq] at hlf
        obtain ⟨rs, hrs, hlr⟩ := List.mem_flatten.1 hlm
        obtain ⟨j', hj'⟩ := List.mem_iff_getElem?.1 hrs
        have single : ∀ ts ∈ nodes, ∀ x ∈ ts, ts = [x] := by
          intro ts hts x hx
          have : ts.length < 2 := by
            rcases Nat.lt_or_ge ts.length 2 with h | h
            · exact h
            · exact absurd ⟨ts, hts, h⟩ hu
          match ts, this with
          | [y], _ => simp at hx; simp [hx]
          | [], _ => simp at hx
        have hne : j' ≠ j := by
          rintro rfl
          rw [hj] at hj'; cases hj'
          have h1 := single ps hqs p hp
          have h2 := single ps hqs l hlr
          rw [h1] at h2; cases h2
          rw [hf] at hlf; cases hlf
        have hmem : rs ∈ nodes.eraseIdx j := by
          rw [List.mem_eraseIdx_iff_getElem?]
          exact ⟨j', hne, hj'⟩
        obtain ⟨x, hx, hxv⟩ := hv rs hmem
        have : x = l := by
          have := single rs hrs l hlr
          rw [this] at hx; simpa using hx
        subst this
        exact ⟨p, hp, (μ.prim p k v hf).2 (μ.lit x k v hlf hxv)⟩
      · exact hv qs (by rw [List.mem_eraseIdx_iff_getElem?]; exact ⟨j, hij, hj⟩)
    · intro hv qs hqs
      exact hv qs (List.mem_of_mem_eraseIdx hqs)

/-- A union reported in an intersection of it with one primitive makes that primitive redundant. -/
theorem C61_intersection_union_sound (μ : Meaning) (us qs : List Part) (q : Part) (k : Kind) (hq : qs = [q]) (hf : q.flag = .prim k)
    (a b : String) (h : (0, .primitiveOverridden a b) ∈ runIntersection [us, qs]) (v : Val) : μ.inter [us] v ↔ μ.inter [us, qs] v := by
  subst hq
  by_cases hu : HasUnion [us, [q]]
  · obtain ⟨ps, hi, hl, hall⟩ := ((C61_intersection_union [us, [q]] hu 0).2).1 ⟨a, b, h⟩
    obtain rfl : us = ps := by simpa [IsNode] using hi
    constructor
    · intro hv rs hrs
      rcases List.mem_cons.1 hrs with rfl | hrs
      · exact hv _ (by simp)
      · simp at hrs; subst hrs
        obtain ⟨p, hp, hpv⟩ := hv us (by simp)
        obtain ⟨k', hk', ws, hws, w, hw, hwf⟩ := hall p hp
        rcases List.mem_cons.1 hws with rfl | hws
        · obtain ⟨k'', hk'', -⟩ := hall w hw
          rw [hwf] at hk''; cases hk''
        · simp at hws; subst hws
          simp at hw; subst hw
          rw [hf] at hwf; cases hwf
          exact ⟨w, by simp, (μ.prim w k v hf).2 (μ.lit p k v hk' hpv)⟩
    · intro hv rs hrs
      simp at hrs; subst hrs
      exact hv rs (by simp)
  · obtain ⟨ps, hi, p, hp, ht | ⟨k', hf', hl, -⟩⟩ := (C61_intersection_flat [us, [q]] hu 0 _).1 h
    · cases ht
    · -- the first constituent would itself be the primitive, and the second a literal
      obtain rfl : us = ps := by simpa [IsNode] using hi
      have h2 : us.length < 2 := by
        rcases Nat.lt_or_ge us.length 2 with h | h
        · exact h
        · exact absurd ⟨us, by simp, h⟩ hu
      match us, h2 with
      | [y], _ =>
        simp at hp; subst hp
        simp [literalsOf, hf', hf] at hl
      | [], _ => simp at hp

/-! ## Cases -/

def str (t : String) : Part := { flag := .lit .string, text := t }
def num (t : String) : Part := { flag := .lit .number, text := t }
def string : Part := { flag := .prim .string, text := "string" }
def number : Part := { flag := .prim .number, text := "number" }

/-- `"a" | string | "b"`, `any | 1`, `never | 1` (not in the type of a result) -/
example : runUnion id false [[str "\"a\""], [string], [str "\"b\""]] =
    [(0, .literalOverridden "\"a\"" "string"), (2, .literalOverridden "\"b\"" "string")] := by decide
example : runUnion id false [[{ flag := .any, text := "any" }], [num "1"]] = [(0, .overrides "any" .union)] := by decide
example : runUnion id true [[{ flag := .never, text := "never" }], [num "1"]] = [] := by decide
example : ∀ m : NodeMap, (id m).Perm m := fun m => .refl m
/-- `string & "a"` and `("a" | "b") & string` -/
example : runIntersection [[string], [str "\"a\""]] = [(0, .primitiveOverridden "\"a\"" "string")] := by decide
example : runIntersection [[str "\"a\"", str "\"b\""], [string]] = [(0, .primitiveOverridden "string" "\"a\" | \"b\"")] := by decide
example : ¬ HasUnion [[string], [str "a"]] := by rintro ⟨ps, hps, h⟩; simp at hps; rcases hps with rfl | rfl <;> simp at h

/-- A meaning exists: a literal has the values of its kind whose number is its own. -/
def sample : Meaning where
  has p v := match p.flag with
    | .any => True
    | .unknown => True
    | .never => False
    | .prim k => v.kind = some k
    | .lit k => v.kind = some k ∧ v.id = p.id
    | .booleanUnion => v.kind = some .boolean
    | .other => False
  any p v h := by simp [h]
  unknown p v h := by simp [h]
  never p v h := by simp [h]
  prim p k v h := by simp [h]
  boolean p v h := by simp [h]
  lit p k v h := by simp only [h]; exact And.left

/-- In the report on a union the literal and the primitive change places, and the text of the first union is repeated for the others:
`("a" | "b") & (1 | 2) & string & number` names `"a" | "b"` on both. -/
theorem C61_hazard_text : runIntersection [[str "a", str "b"], [num "1", num "2"], [string], [number]] =
    [(0, .primitiveOverridden "string" "a | b"), (1, .primitiveOverridden "number" "a | b")] := by decide

/-- `(never | string) & "a"`: never is said to override all others, but the intersection has values. -/
theorem C61_hazard_never : (0, Message.overrides "never" .intersection) ∈
      runIntersection [[{ flag := .never, text := "never" }, string], [str "a"]] ∧
    sample.inter [[{ flag := .never, text := "never" }, string], [str "a"]] ⟨some .string, 0⟩ := by
  refine ⟨by decide, ?_⟩
  intro ps hps
  simp at hps
  rcases hps with rfl | rfl
  · exact ⟨string, by simp, rfl⟩
  · exact ⟨str "a", by simp, rfl, rfl⟩

/-- `boolean` behind a reference: seen in unions, not in intersections. -/
theorem C61_hazard_boolean (t : String) :
    (runUnion id false [[{ flag := .booleanUnion, text := "B" }], [{ flag := .lit .boolean, text := t }]]).length = 1 ∧
    runIntersection [[{ flag := .booleanUnion, text := "B" }], [{ flag := .lit .boolean, text := t }]] = [] := by
  constructor <;> rfl

end Tsgolint.Redundant
