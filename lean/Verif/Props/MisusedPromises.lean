import Verif.Proof.MisusedPromises
import Verif.Props.TypeGraph
/-! # C96: no-misused-promises -/
namespace Tsgolint.MisusedPromises
open Tsgolint.TypeGraph

/-! ## Conditions -/

theorem judged_logical {b : Bool} {e : Node} {i op l r x} (h : strip e = .logical i op l r) :
    Judged b e x ↔ ((op ≠ .coalesce ∨ b = true) ∧ Judged b l x) ∨ (b = true ∧ Judged b r x) := by
  constructor
  · intro hj
    cases hj with
    | self _ h2 => rw [h] at h2; exact absurd trivial h2
    | left h1 h2 h3 => rw [h] at h1; cases h1; exact .inl ⟨h2, h3⟩
    | right h1 h2 h3 => rw [h] at h1; cases h1; exact .inr ⟨h2, h3⟩
  · rintro (⟨h1, h2⟩ | ⟨h1, h2⟩)
    · exact .left h h1 h2
    · exact .right h h1 h2

theorem judged_leaf {b : Bool} {e : Node} {x} (h : ¬ IsLogical (strip e)) :
    Judged b e x ↔ ¬ IsAssignment e ∧ x = (strip e).id := by
  constructor
  · intro hj
    cases hj with
    | self h1 _ => exact ⟨h1, rfl⟩
    | left h1 _ _ => rw [h1] at h; exact absurd trivial h
    | right h1 _ _ => rw [h1] at h; exact absurd trivial h
  · rintro ⟨h1, rfl⟩; exact .self h1 h

theorem mem_one (always : Nat → Bool) (i x : Nat) : x ∈ one always i ↔ always x = true ∧ x = i := by
  unfold one; split
  · rename_i h; simp; rintro rfl; exact h
  · rename_i h; simp; rintro h' rfl; exact h h'

theorem mem_judged (always : Nat → Bool) (b : Bool) (p : Nat) (e : Node) (x : Nat) :
    (x ∈ judged always b false e ↔ always x = true ∧ Judged b e x) ∧
    (x ∈ judged always b true e ↔ always x = true ∧ Judged b (.paren p e) x) := by
  induction e using Node.rec (motive_2 := fun _ => True) with
  | logical i op l r hl hr =>
    have hj : ∀ inner, x ∈ judged always b inner (.logical i op l r) ↔
        always x = true ∧ (((op ≠ .coalesce ∨ b = true) ∧ Judged b l x) ∨ (b = true ∧ Judged b r x)) := by
      intro inner
      simp only [judged, List.mem_append, List.mem_ite_nil_right, hl.1, hr.1, Bool.or_eq_true, decide_eq_true_eq]
      constructor
      · rintro (⟨h1, h2, h3⟩ | ⟨h1, h2, h3⟩)
        · exact ⟨h2, .inl ⟨h1, h3⟩⟩
        · exact ⟨h2, .inr ⟨h1, h3⟩⟩
      · rintro ⟨h2, ⟨h1, h3⟩ | ⟨h1, h3⟩⟩
        · exact .inl ⟨h1, h2, h3⟩
        · exact .inr ⟨h1, h2, h3⟩
    exact ⟨by rw [hj, judged_logical (e := .logical i op l r) rfl], by rw [hj, judged_logical (e := .paren p _) rfl]⟩
  | assign i l r =>
    constructor
    · rw [judged_leaf (by simp [strip, IsLogical])]; simp [judged, IsAssignment]
    · rw [judged_leaf (by simp [strip, IsLogical])]; simp [judged, IsAssignment, strip, Node.id, mem_one]
  | paren i e h =>
    have hs : ∀ q, Judged b (.paren q e) x ↔ Judged b (.paren p e) x := by
      intro q
      by_cases hl : IsLogical (strip e)
      · cases hse : strip e with
        | logical i op l r =>
          rw [judged_logical (e := .paren q e) (by simpa [strip] using hse), judged_logical (e := .paren p e) (by simpa [strip] using hse)]
        | _ => rw [hse] at hl; simp [IsLogical] at hl
      · rw [judged_leaf (by simpa [strip] using hl), judged_leaf (by simpa [strip] using hl)]; simp [IsAssignment, strip]
    have hs' : Judged b (.paren p (.paren i e)) x ↔ Judged b (.paren p e) x := by
      by_cases hl : IsLogical (strip e)
      · cases hse : strip e with
        | logical i' op l r =>
          rw [judged_logical (e := .paren p (.paren i e)) (by simpa [strip] using hse),
            judged_logical (e := .paren p e) (by simpa [strip] using hse)]
        | _ => rw [hse] at hl; simp [IsLogical] at hl
      · rw [judged_leaf (by simpa [strip] using hl), judged_leaf (by simpa [strip] using hl)]; simp [IsAssignment, strip]
    exact ⟨by rw [hs i, ← h.2]; simp [judged], by rw [hs', ← h.2]; simp [judged]⟩
  | binary i l r =>
    constructor <;> rw [judged_leaf (by simp [strip, IsLogical])] <;> simp [judged, IsAssignment, strip, Node.id, mem_one]
  | bang i e =>
    constructor <;> rw [judged_leaf (by simp [strip, IsLogical])] <;> simp [judged, IsAssignment, strip, Node.id, mem_one]
  | test i bs c as =>
    constructor <;> rw [judged_leaf (by simp [strip, IsLogical])] <;> simp [judged, IsAssignment, strip, Node.id, mem_one]
  | other i ks =>
    constructor <;> rw [judged_leaf (by simp [strip, IsLogical])] <;> simp [judged, IsAssignment, strip, Node.id, mem_one]
  | nil => trivial
  | cons => trivial

theorem judged_mono {e : Node} {x : Nat} (b : Bool) (h : Judged false e x) : Judged b e x := by
  induction h with
  | self h1 h2 => exact .self h1 h2
  | left h1 h2 _ ih => exact .left h1 (h2.elim .inl (fun h => by cases h)) ih
  | right h1 h2 _ _ => cases h2

theorem occurs_iff {file n : Node} : Occurs file n ↔ n = file ∨ ∃ k ∈ kids file, Occurs k n := by
  constructor
  · intro h
    induction h with
    | self => exact .inl rfl
    | kid _ hk ih =>
      rcases ih with rfl | ⟨k, hk', ho⟩
      · exact .inr ⟨_, hk, .self⟩
      · exact .inr ⟨k, hk', .kid ho hk⟩
  · rintro (rfl | ⟨k, hk, ho⟩)
    · exact .self
    · induction ho with
      | self => exact .kid .self hk
      | kid _ hk' ih => exact .kid ih hk'

theorem decides_iff {file : Node} {x : Nat} :
    Decides file x ↔ ((∃ c, Tests file c ∧ Judged true c x) ∨ (IsBinary file ∧ Judged false file x)) ∨
      ∃ k ∈ kids file, Decides k x := by
  constructor
  · rintro (⟨n, c, ho, ht, hj⟩ | ⟨n, ho, hb, hj⟩)
    · rcases occurs_iff.1 ho with rfl | ⟨k, hk, ho⟩
      · exact .inl (.inl ⟨c, ht, hj⟩)
      · exact .inr ⟨k, hk, .inl ⟨n, c, ho, ht, hj⟩⟩
    · rcases occurs_iff.1 ho with rfl | ⟨k, hk, ho⟩
      · exact .inl (.inr ⟨hb, hj⟩)
      · exact .inr ⟨k, hk, .inr ⟨n, ho, hb, hj⟩⟩
  · rintro ((⟨c, ht, hj⟩ | ⟨hb, hj⟩) | ⟨k, hk, ⟨n, c, ho, ht, hj⟩ | ⟨n, ho, hb, hj⟩⟩)
    · exact .inl ⟨_, c, .self, ht, hj⟩
    · exact .inr ⟨_, .self, hb, hj⟩
    · exact .inl ⟨n, c, occurs_iff.2 (.inr ⟨k, hk, ho⟩), ht, hj⟩
    · exact .inr ⟨n, occurs_iff.2 (.inr ⟨k, hk, ho⟩), hb, hj⟩

theorem lctx_pre (always : Nat → Bool) (op : LogicalOp) (b : Bool) (l : Node) :
    (lctx op b).pre always l = if (decide (op ≠ .coalesce) || b) = true then judged always b false l else [] := by
  unfold lctx; split <;> simp [Ctx.pre]

theorem rctx_pre (always : Nat → Bool) (b : Bool) (r : Node) :
    (rctx b).pre always r = if b = true then judged always b false r else [] := by
  unfold rctx; split <;> simp [Ctx.pre]

/-- everything a traversal finds, together with what was found before, is what decides -/
def Right (always : Nat → Bool) (x : Nat) (c : Ctx) (e : Node) : Prop :=
  (x ∈ out always c e → always x = true ∧ Decides e x) ∧
  (always x = true → Decides e x → x ∈ out always c e ∨ x ∈ c.pre always e)

mutual
theorem out_right (always : Nat → Bool) (x : Nat) (c : Ctx) : (e : Node) → Right always x c e
  | .logical i op l r => by
    have hl := out_right always x (lctx op c.mode) l
    have hr := out_right always x (rctx c.mode) r
    constructor
    · simp only [out, List.mem_append]
      rintro (h | h | h)
      · cases c with
        | fresh =>
          have := (mem_judged always false 0 _ x).1.1 h
          exact ⟨this.1, decides_iff.2 (.inl (.inr ⟨trivial, this.2⟩))⟩
        | done b => simp at h
        | spanned b => simp at h
      · have := hl.1 h; exact ⟨this.1, decides_iff.2 (.inr ⟨l, by simp [kids], this.2⟩)⟩
      · have := hr.1 h; exact ⟨this.1, decides_iff.2 (.inr ⟨r, by simp [kids], this.2⟩)⟩
    · intro ha hd
      -- found before: the operands' share
      have hpre : ∀ y, y ∈ (lctx op c.mode).pre always l ∨ y ∈ (rctx c.mode).pre always r →
          y ∈ out always c (.logical i op l r) ∨ y ∈ c.pre always (.logical i op l r) := by
        intro y hy
        rw [lctx_pre, rctx_pre] at hy
        cases c with
        | fresh => refine .inl ?_; simp only [out, judged, List.mem_append]; exact .inl hy
        | done b => refine .inr ?_; simp only [Ctx.pre, judged, List.mem_append]; exact hy
        | spanned b => refine .inr ?_; simp only [Ctx.pre, judged, List.mem_append]; exact hy
      rcases decides_iff.1 hd with (⟨c', ht, _⟩ | ⟨_, hj⟩) | ⟨k, hk, hd'⟩
      · exact absurd ht (by simp [Tests])
      · apply hpre
        have hj' := judged_mono c.mode hj
        have hm := (mem_judged always c.mode 0 _ x).1.2 ⟨ha, hj'⟩
        simp only [judged, List.mem_append] at hm
        rw [lctx_pre, rctx_pre]; exact hm
      · simp only [kids, List.mem_cons, List.not_mem_nil, or_false] at hk
        rcases hk with rfl | rfl
        · rcases hl.2 ha hd' with h | h
          · exact .inl (by simp [out, h])
          · exact hpre x (.inl h)
        · rcases hr.2 ha hd' with h | h
          · exact .inl (by simp [out, h])
          · exact hpre x (.inr h)
  | .assign i l r => by
    have hl := out_right always x .fresh l
    have hr := out_right always x .fresh r
    constructor
    · simp only [out, List.mem_append]
      rintro (h | h)
      · have := hl.1 h; exact ⟨this.1, decides_iff.2 (.inr ⟨l, by simp [kids], this.2⟩)⟩
      · have := hr.1 h; exact ⟨this.1, decides_iff.2 (.inr ⟨r, by simp [kids], this.2⟩)⟩
    · intro ha hd
      rcases decides_iff.1 hd with (⟨c', ht, _⟩ | ⟨_, hj⟩) | ⟨k, hk, hd'⟩
      · exact absurd ht (by simp [Tests])
      · rw [judged_leaf (by simp [strip, IsLogical])] at hj; exact absurd trivial hj.1
      · simp only [kids, List.mem_cons, List.not_mem_nil, or_false] at hk
        rcases hk with rfl | rfl
        · rcases hl.2 ha hd' with h | h
          · exact .inl (by simp [out, h])
          · simp [Ctx.pre] at h
        · rcases hr.2 ha hd' with h | h
          · exact .inl (by simp [out, h])
          · simp [Ctx.pre] at h
  | .binary i l r => by
    have hl := out_right always x .fresh l
    have hr := out_right always x .fresh r
    constructor
    · simp only [out, List.mem_append]
      rintro (h | h | h)
      · have : x ∈ one always i := by cases c <;> simp at h <;> exact h
        rw [mem_one] at this
        refine ⟨this.1, decides_iff.2 (.inl (.inr ⟨trivial, ?_⟩))⟩
        rw [judged_leaf (by simp [strip, IsLogical])]
        exact ⟨fun h => h, this.2⟩
      · have := hl.1 h; exact ⟨this.1, decides_iff.2 (.inr ⟨l, by simp [kids], this.2⟩)⟩
      · have := hr.1 h; exact ⟨this.1, decides_iff.2 (.inr ⟨r, by simp [kids], this.2⟩)⟩
    · intro ha hd
      rcases decides_iff.1 hd with (⟨c', ht, _⟩ | ⟨_, hj⟩) | ⟨k, hk, hd'⟩
      · exact absurd ht (by simp [Tests])
      · rw [judged_leaf (by simp [strip, IsLogical])] at hj
        have : x ∈ one always i := (mem_one ..).2 ⟨ha, hj.2⟩
        cases c <;> simp [out, Ctx.pre, judged, this]
      · simp only [kids, List.mem_cons, List.not_mem_nil, or_false] at hk
        rcases hk with rfl | rfl
        · rcases hl.2 ha hd' with h | h
          · exact .inl (by simp [out, h])
          · simp [Ctx.pre] at h
        · rcases hr.2 ha hd' with h | h
          · exact .inl (by simp [out, h])
          · simp [Ctx.pre] at h
  | .paren i e => by
    have h := out_right always x c.span e
    constructor
    · simp only [out]; intro hx
      have := h.1 hx; exact ⟨this.1, decides_iff.2 (.inr ⟨e, by simp [kids], this.2⟩)⟩
    · intro ha hd
      rcases decides_iff.1 hd with (⟨c', ht, _⟩ | ⟨hb, _⟩) | ⟨k, hk, hd'⟩
      · exact absurd ht (by simp [Tests])
      · exact absurd hb (by simp [IsBinary])
      · simp only [kids, List.mem_cons, List.not_mem_nil, or_false] at hk
        subst hk
        rcases h.2 ha hd' with h | h
        · exact .inl (by simpa [out] using h)
        · refine .inr ?_
          cases c <;> simpa [Ctx.pre, Ctx.span, judged] using h
  | .bang i e => by
    have h := out_right always x (.done true) e
    constructor
    · simp only [out, List.mem_append]
      rintro (hx | hx)
      · have := (mem_judged always true 0 _ x).1.1 hx
        exact ⟨this.1, decides_iff.2 (.inl (.inl ⟨e, rfl, this.2⟩))⟩
      · have := h.1 hx; exact ⟨this.1, decides_iff.2 (.inr ⟨e, by simp [kids], this.2⟩)⟩
    · intro ha hd
      refine .inl ?_
      simp only [out, List.mem_append]
      rcases decides_iff.1 hd with (⟨c', ht, hj⟩ | ⟨hb, _⟩) | ⟨k, hk, hd'⟩
      · simp only [Tests] at ht; subst ht
        exact .inl ((mem_judged always true 0 _ x).1.2 ⟨ha, hj⟩)
      · exact absurd hb (by simp [IsBinary])
      · simp only [kids, List.mem_cons, List.not_mem_nil, or_false] at hk
        subst hk
        rcases h.2 ha hd' with h | h
        · exact .inr h
        · exact .inl (by simpa [Ctx.pre] using h)
  | .test i before cnd after => by
    have h := out_right always x (.done true) cnd
    have hB := outs_right always x before
    have hA := outs_right always x after
    constructor
    · simp only [out, List.mem_append]
      rintro (hx | hx | hx | hx)
      · have := (mem_judged always true 0 _ x).1.1 hx
        exact ⟨this.1, decides_iff.2 (.inl (.inl ⟨cnd, rfl, this.2⟩))⟩
      · obtain ⟨h1, k, h2, h3⟩ := hB.1 hx
        exact ⟨h1, decides_iff.2 (.inr ⟨k, by simp [kids, h2], h3⟩)⟩
      · have := h.1 hx; exact ⟨this.1, decides_iff.2 (.inr ⟨cnd, by simp [kids], this.2⟩)⟩
      · obtain ⟨h1, k, h2, h3⟩ := hA.1 hx
        exact ⟨h1, decides_iff.2 (.inr ⟨k, by simp [kids, h2], h3⟩)⟩
    · intro ha hd
      refine .inl ?_
      simp only [out, List.mem_append]
      rcases decides_iff.1 hd with (⟨c', ht, hj⟩ | ⟨hb, _⟩) | ⟨k, hk, hd'⟩
      · simp only [Tests] at ht; subst ht
        exact .inl ((mem_judged always true 0 _ x).1.2 ⟨ha, hj⟩)
      · exact absurd hb (by simp [IsBinary])
      · simp only [kids, List.mem_append, List.mem_cons] at hk
        rcases hk with hk | rfl | hk
        · exact .inr (.inl (hB.2 ha k hk hd'))
        · rcases h.2 ha hd' with h | h
          · exact .inr (.inr (.inl h))
          · exact .inl (by simpa [Ctx.pre] using h)
        · exact .inr (.inr (.inr (hA.2 ha k hk hd')))
  | .other i ks => by
    have hK := outs_right always x ks
    constructor
    · simp only [out]; intro hx
      obtain ⟨h1, k, h2, h3⟩ := hK.1 hx
      exact ⟨h1, decides_iff.2 (.inr ⟨k, by simpa [kids] using h2, h3⟩)⟩
    · intro ha hd
      refine .inl ?_
      simp only [out]
      rcases decides_iff.1 hd with (⟨c', ht, hj⟩ | ⟨hb, _⟩) | ⟨k, hk, hd'⟩
      · exact absurd ht (by simp [Tests])
      · exact absurd hb (by simp [IsBinary])
      · exact hK.2 ha k (by simpa [kids] using hk) hd'
theorem outs_right (always : Nat → Bool) (x : Nat) : (ks : List Node) →
    (x ∈ outs always ks → always x = true ∧ ∃ k ∈ ks, Decides k x) ∧
    (always x = true → ∀ k ∈ ks, Decides k x → x ∈ outs always ks)
  | [] => by simp [outs]
  | n :: rest => by
    have h := out_right always x .fresh n
    have hr := outs_right always x rest
    constructor
    · simp only [outs, List.mem_append]
      rintro (hx | hx)
      · have := h.1 hx; exact ⟨this.1, n, by simp, this.2⟩
      · obtain ⟨h1, k, h2, h3⟩ := hr.1 hx; exact ⟨h1, k, by simp [h2], h3⟩
    · intro ha k hk hd
      simp only [outs, List.mem_append]
      rcases List.mem_cons.1 hk with rfl | hk
      · rcases h.2 ha hd with h | h
        · exact .inl h
        · simp [Ctx.pre] at h
      · exact .inr (hr.2 ha k hk hd)
end

/-- A node is reported as a promise in a condition exactly if it is always a promise and its truth is judged somewhere in the file: by a
test, or by a logical operator. -/
theorem C96_conditions (always : Nat → Bool) (file : Node) (hn : (ids file).Nodup) (x : Nat) :
    x ∈ conditionals always file ↔ always x = true ∧ Decides file x := by
  rw [conditionals_eq always file hn]
  have h := out_right always x .fresh file
  exact ⟨h.1, fun ⟨ha, hd⟩ => (h.2 ha hd).resolve_right (by simp [Ctx.pre])⟩

/-- No expression in parentheses is a (non-logical) binary expression that is always a promise: `(a, fetch(x))`. -/
def NoParenthesisedComma (always : Nat → Bool) (file : Node) : Prop :=
  ∀ p n i l r, Occurs file (.paren p n) → strip n = .binary i l r → always i = false

theorem NoParenthesisedComma.kid {always : Nat → Bool} {file k : Node} (h : NoParenthesisedComma always file) (hk : k ∈ kids file) :
    NoParenthesisedComma always k := fun p n i l r ho hs => h p n i l r (occurs_iff.2 (.inr ⟨k, hk, ho⟩)) hs

/-- inside parentheses -/
def Ctx.Clean (always : Nat → Bool) : Ctx → Node → Prop
  | .spanned _, e => ∀ i l r, strip e = .binary i l r → always i = false
  | _, _ => True

theorem count_one (always : Nat → Bool) (i x : Nat) : (one always i).count x ≤ if i = x then 1 else 0 := by
  unfold one; split <;> simp [List.count_cons]

theorem lctx_clean (always : Nat → Bool) (op : LogicalOp) (b : Bool) (l : Node) : (lctx op b).Clean always l := by
  unfold lctx; split <;> trivial
theorem rctx_clean (always : Nat → Bool) (b : Bool) (r : Node) : (rctx b).Clean always r := by
  unfold rctx; split <;> trivial

theorem count_cons' (i x : Nat) (l : List Nat) : (i :: l).count x = l.count x + if i = x then 1 else 0 := by
  simp [List.count_cons]

theorem judged_eq (always : Nat → Bool) (b inner : Bool) (i : Nat) (op : LogicalOp) (l r : Node) :
    judged always b inner (.logical i op l r) = (lctx op b).pre always l ++ (rctx b).pre always r := by
  rw [lctx_pre, rctx_pre]; simp only [judged]

mutual
theorem out_once (always : Nat → Bool) (x : Nat) : (c : Ctx) → (e : Node) → NoParenthesisedComma always e → c.Clean always e →
    (c.pre always e).count x + (out always c e).count x ≤ (ids e).count x
  | c, .logical i op l r, hn, _ => by
    have hl := out_once always x (lctx op c.mode) l (hn.kid (by simp [kids])) (lctx_clean ..)
    have hr := out_once always x (rctx c.mode) r (hn.kid (by simp [kids])) (rctx_clean ..)
    simp only [out, ids, List.count_append, count_cons']
    cases c with
    | fresh => simp only [show Ctx.pre always .fresh = fun _ => [] from rfl, judged_eq, List.count_append, List.count_nil, Ctx.mode] at hl hr ⊢; omega
    | done b => simp only [show ∀ e, Ctx.pre always (.done b) e = judged always b false e from fun _ => rfl, judged_eq, List.count_append, List.count_nil, Ctx.mode] at hl hr ⊢; omega
    | spanned b => simp only [show ∀ e, Ctx.pre always (.spanned b) e = judged always b true e from fun _ => rfl, judged_eq, List.count_append, List.count_nil, Ctx.mode] at hl hr ⊢; omega
  | c, .assign i l r, hn, _ => by
    have hl := out_once always x .fresh l (hn.kid (by simp [kids])) trivial
    have hr := out_once always x .fresh r (hn.kid (by simp [kids])) trivial
    have h1 := count_one always i x
    simp only [out, ids, List.count_append, count_cons']
    cases c <;> simp [Ctx.pre, judged] at hl hr ⊢ <;> omega
  | c, .binary i l r, hn, hc => by
    have hl := out_once always x .fresh l (hn.kid (by simp [kids])) trivial
    have hr := out_once always x .fresh r (hn.kid (by simp [kids])) trivial
    have h1 := count_one always i x
    simp only [out, ids, List.count_append, count_cons']
    cases c with
    | fresh => simp [Ctx.pre] at hl hr ⊢; omega
    | done b => simp [Ctx.pre, judged] at hl hr ⊢; omega
    | spanned b =>
      have : one always i = [] := by simp [one, hc i l r rfl]
      simp [Ctx.pre, judged, this] at hl hr ⊢; omega
  | c, .paren i e, hn, hc => by
    have hcl : c.span.Clean always e := by
      cases c with
      | fresh => trivial
      | done b => exact fun j l r h => hn i e j l r .self h
      | spanned b => exact fun j l r h => hc j l r (by simpa [strip] using h)
    have h := out_once always x c.span e (hn.kid (by simp [kids])) hcl
    simp only [out, ids, count_cons']
    cases c <;> simp only [Ctx.pre, Ctx.span, judged] at h ⊢ <;> omega
  | c, .bang i e, hn, _ => by
    have h := out_once always x (.done true) e (hn.kid (by simp [kids])) trivial
    have h1 := count_one always i x
    simp only [out, ids, List.count_append, count_cons']
    simp only [Ctx.pre] at h
    cases c <;> simp only [Ctx.pre, judged, List.count_nil] <;> omega
  | c, .test i before cnd after, hn, _ => by
    have h := out_once always x (.done true) cnd (hn.kid (by simp [kids])) trivial
    have hB := outs_once always x before (fun k hk => hn.kid (by simp [kids, hk]))
    have hA := outs_once always x after (fun k hk => hn.kid (by simp [kids, hk]))
    have h1 := count_one always i x
    simp only [out, ids, List.count_append, count_cons']
    simp only [Ctx.pre] at h
    cases c <;> simp only [Ctx.pre, judged, List.count_nil] <;> omega
  | c, .other i ks, hn, _ => by
    have hK := outs_once always x ks (fun k hk => hn.kid (by simpa [kids] using hk))
    have h1 := count_one always i x
    simp only [out, ids, count_cons']
    cases c <;> simp only [Ctx.pre, judged, List.count_nil] <;> omega
theorem outs_once (always : Nat → Bool) (x : Nat) : (ks : List Node) → (∀ k ∈ ks, NoParenthesisedComma always k) →
    (outs always ks).count x ≤ (idsAll ks).count x
  | [], _ => by simp [outs]
  | n :: rest, hn => by
    have h := out_once always x .fresh n (hn n (by simp)) trivial
    have hr := outs_once always x rest (fun k hk => hn k (by simp [hk]))
    simp only [outs, idsAll, List.count_append]
    simp only [Ctx.pre, List.count_nil] at h
    omega
end

/-- No node is reported twice, unless it is a promise-valued comma expression (or other non-logical binary) in parentheses. -/
theorem C96_conditions_once (always : Nat → Bool) (file : Node) (hn : (ids file).Nodup) (hp : NoParenthesisedComma always file) :
    (conditionals always file).Nodup := by
  rw [conditionals_eq always file hn, List.nodup_iff_count]
  intro x
  have h := out_once always x .fresh file hp trivial
  have := (List.nodup_iff_count.1 hn) x
  omega

/-- `if (p && !q) { r || s }` with promises p, q, r, s: `p`, `q`, `r` are judged, `s` is not. -/
def sampleFile : Node :=
  .test 0 [] (.logical 1 .and (.other 2 []) (.bang 3 (.other 4 []))) [.logical 5 .or (.other 6 []) (.other 7 [])]
example : conditionals (fun i => [2, 4, 6, 7].contains i) sampleFile = [2, 4, 6] ∧ (ids sampleFile).Nodup := by decide
example : Decides sampleFile 4 :=
  .inl ⟨.bang 3 (.other 4 []), .other 4 [], .kid (n := .logical 1 .and (.other 2 []) (.bang 3 (.other 4 []))) (.kid .self (by simp [kids, sampleFile])) (by simp [kids]), rfl,
    .self (fun h => h) (fun h => h)⟩
/-- `const p = (0, fetch(x))` outside of any condition is reported, since every binary expression counts as judged … -/
example : conditionals (· == 2) (.other 0 [.paren 1 (.binary 2 (.other 3 []) (.other 4 []))]) = [2] := by decide
/-- … and `if ((a, p))` is reported twice, since the marking is of the parentheses. -/
example : conditionals (· == 2) (.test 0 [] (.paren 1 (.binary 2 (.other 3 []) (.other 4 []))) []) = [2, 2] := by decide
/-- `if (a = p)` is skipped, `if ((a = p))` is not. -/
example : conditionals (· == 2) (.test 0 [] (.assign 2 (.other 3 []) (.other 4 [])) []) = [] ∧
    conditionals (· == 2) (.test 0 [] (.paren 1 (.assign 2 (.other 3 []) (.other 4 []))) []) = [2] := by decide
/-- `a ?? p` outside of tests judges nothing; in a test both. -/
example : conditionals (fun i => [1, 2].contains i) (.logical 0 .coalesce (.other 1 []) (.other 2 [])) = [] ∧
    conditionals (fun i => [1, 2].contains i) (.bang 3 (.paren 4 (.logical 0 .coalesce (.other 1 []) (.other 2 [])))) = [1, 2] := by decide

/-! ## Types -/

section
variable {T : Type}

theorem anySignature_iff (E : Env T) (t : T) : anySignatureIsThenable E t = true ↔ ∃ r ∈ E.returns t, Thenable E.then_ r := by
  haveI : DecidableEq T := fun _ _ => Classical.propDecidable _
  simp [anySignatureIsThenable, C52_thenable]

theorem isThenableReturning_iff (E : Env T) (t : T) : isThenableReturning E t = true ↔ ReturnsPromise E t := by
  simp only [isThenableReturning, List.any_eq_true, mem_unionParts, anySignature_iff, ReturnsPromise]

/-- "Returns a promise": some call signature of some part of the apparent type does. -/
theorem C96_returns_promise (E : Env T) (t : T) : returnsThenable E t = true ↔ ReturnsPromise E (E.then_.apparent t) := by
  simp only [returnsThenable, List.any_eq_true, mem_unionParts, anySignature_iff, ReturnsPromise]

theorem voidSignatures_iff (E : Env T) : (rs : List T) → (had : Bool) →
    (voidSignatures E rs had = none ↔ ∃ r ∈ rs, Thenable E.then_ r) ∧
    (∀ h, voidSignatures E rs had = some h → (h = true ↔ had = true ∨ ∃ r ∈ rs, E.isVoid r = true))
  | [], had => by simp [voidSignatures]
  | r :: rest, had => by
    have ih := voidSignatures_iff E rest (had || E.isVoid r)
    haveI : DecidableEq T := fun _ _ => Classical.propDecidable _
    by_cases hr : isThenable E.then_ r = true
    · simp only [voidSignatures, hr, if_true]
      refine ⟨by simp; exact .inl ((C52_thenable ..).1 hr), by simp⟩
    · simp only [voidSignatures, hr, Bool.false_eq_true, if_false]
      have hr' : ¬ Thenable E.then_ r := fun h => hr ((C52_thenable ..).2 h)
      refine ⟨by rw [ih.1]; simp [hr'], fun h hh => ?_⟩
      rw [ih.2 h hh]; simp [or_assoc]

theorem voidParts_iff (E : Env T) : (ps : List T) → (had : Bool) →
    (voidParts E ps had = true ↔ (had = true ∨ ∃ p ∈ ps, ∃ r ∈ E.returns p, E.isVoid r = true) ∧
      ¬ ∃ p ∈ ps, ∃ r ∈ E.returns p, Thenable E.then_ r)
  | [], had => by simp [voidParts]
  | p :: rest, had => by
    have hs := voidSignatures_iff E (E.returns p) had
    simp only [voidParts]
    cases h : voidSignatures E (E.returns p) had with
    | none =>
      have := hs.1.1 h
      simp only [Bool.false_eq_true, false_iff]
      exact fun hn => hn.2 ⟨p, by simp, this⟩
    | some b =>
      have h1 : ¬ ∃ r ∈ E.returns p, Thenable E.then_ r := fun hx => by rw [hs.1.2 hx] at h; cases h
      simp only [voidParts_iff E rest b, hs.2 b h, List.mem_cons]
      constructor
      · rintro ⟨h2, h3⟩
        refine ⟨?_, ?_⟩
        · rcases h2 with (h2 | h2) | ⟨q, hq, h2⟩
          · exact .inl h2
          · exact .inr ⟨p, .inl rfl, h2⟩
          · exact .inr ⟨q, .inr hq, h2⟩
        · rintro ⟨q, rfl | hq, hr⟩
          · exact h1 hr
          · exact h3 ⟨q, hq, hr⟩
      · rintro ⟨h2, h3⟩
        refine ⟨?_, fun ⟨q, hq, hr⟩ => h3 ⟨q, .inr hq, hr⟩⟩
        rcases h2 with h2 | ⟨q, rfl | hq, h2⟩
        · exact .inl (.inl h2)
        · exact .inl (.inr h2)
        · exact .inr ⟨q, hq, h2⟩

/-- "Void is expected": some call returns void and no call of the type returns a promise. -/
theorem C96_returns_void (E : Env T) (t : T) : isVoidReturning E t = true ↔ ReturnsVoid E t := by
  simp only [isVoidReturning, voidParts_iff, Bool.false_eq_true, false_or, mem_unionParts, ReturnsVoid, ReturnsPromise]

theorem takesCallback_iff (E : Env T) (t : T) :
    takesCallback E t = true ↔ ∃ a, some (some a) ∈ E.firstParams t ∧ Callable E a := by
  simp only [takesCallback, List.any_eq_true]
  constructor
  · rintro ⟨s, hs, h⟩
    cases s with
    | none => simp at h
    | some p => cases p with
      | none => simp [isFunctionParam] at h
      | some a =>
        simp only [isFunctionParam, List.any_eq_true, mem_unionParts, decide_eq_true_eq] at h
        obtain ⟨q, h1, h2⟩ := h
        exact ⟨a, hs, q, h1, fun h => h2 (by simp [h])⟩
  · rintro ⟨a, hs, q, h1, h2⟩
    refine ⟨_, hs, ?_⟩
    simp only [isFunctionParam, List.any_eq_true, mem_unionParts, decide_eq_true_eq]
    exact ⟨q, h1, fun h => h2 (List.eq_nil_of_length_eq_zero h)⟩

theorem hasThenableSignature_iff (E : Env T) : (ps : List T) → (hasThenableSignature E ps = true ↔ ∃ p ∈ ps, takesCallback E p = true)
  | [] => by simp [hasThenableSignature]
  | p :: rest => by
    have ih := hasThenableSignature_iff E rest
    simp only [hasThenableSignature]
    by_cases h : takesCallback E p = true
    · simp [h]
    · simp [h, ih]

theorem alwaysThenableParts_iff (E : Env T) : (ps : List T) → (alwaysThenableParts E ps = true ↔ ∀ p ∈ ps, ∃ th,
    E.then_.thenOf p = some th ∧ ∃ q, UnionPart E.then_.shape th q ∧ ∃ a, some (some a) ∈ E.firstParams q ∧ Callable E a)
  | [] => by simp [alwaysThenableParts]
  | p :: rest => by
    have ih := alwaysThenableParts_iff E rest
    simp only [alwaysThenableParts]
    cases h : E.then_.thenOf p with
    | none =>
      simp only [Bool.false_eq_true, false_iff]
      intro hn
      obtain ⟨th, h1, _⟩ := hn p (by simp)
      rw [h] at h1; cases h1
    | some th =>
      simp only [List.forall_mem_cons, h]
      by_cases hs : hasThenableSignature E (unionParts E.then_.shape th) = true
      · simp only [hs, if_true, ih]
        simp only [hasThenableSignature_iff, mem_unionParts, takesCallback_iff] at hs
        exact ⟨fun h => ⟨⟨th, rfl, hs⟩, h⟩, fun h => h.2⟩
      · simp only [hs, Bool.false_eq_true, if_false, false_iff]
        simp only [hasThenableSignature_iff, mem_unionParts, takesCallback_iff] at hs
        rintro ⟨⟨th', h1, h2⟩, _⟩
        cases h1; exact hs h2

/-- "Always a promise": every part of the apparent type is thenable (so `Promise<x> | undefined` is not). -/
theorem C96_always_promise (E : Env T) (t : T) : isAlwaysThenable E t = true ↔ AlwaysPromise E t := by
  simp only [isAlwaysThenable, alwaysThenableParts_iff, mem_unionParts, AlwaysPromise]

end

/-! ## Predicates -/

section
variable {T : Type}

/-- An array predicate that returns a promise is reported once per access among the callee and the arguments: once for `xs.filter(f)`, but
twice for `xs.filter(o.f)`. -/
theorem C96_predicates (E : Env T) (c : PredicateCall T) :
    predicateReports E c = match c.args with
      | [] => []
      | (f, _) :: _ =>
        if c.arrayPredicate = true ∧ returnsThenable E f = true
        then List.replicate ((if c.calleeIsAccess then 1 else 0) + (c.args.filter (·.2)).length) f else [] := by
  unfold predicateReports checkArrayPredicates
  cases ha : c.args with
  | nil => simp
  | cons a rest =>
    obtain ⟨f, d⟩ := a
    have key : ∀ (l : List (T × Bool)) (r : List T), l.flatMap (fun a => if a.2 = true then r else []) =
        (List.replicate (l.filter (·.2)).length r).flatten := by
      intro l r
      induction l with
      | nil => simp
      | cons b l ih => by_cases hb : b.2 = true <;> simp [hb, ih, List.replicate_succ]
    simp only [key]
    by_cases h : c.arrayPredicate = true ∧ returnsThenable E f = true
    · have hb : (c.arrayPredicate && returnsThenable E f) = true := by simp [h.1, h.2]
      simp only [hb, h, and_self, Bool.and_self, if_true]
      have : ∀ n, (List.replicate n [f]).flatten = List.replicate n f := by
        intro n; induction n with
        | zero => rfl
        | succ n ih => simp [List.replicate_succ, ih]
      rw [this]
      cases c.calleeIsAccess <;> simp [Nat.add_comm 1, List.replicate_succ]
    · have hb : (c.arrayPredicate && returnsThenable E f) = false := by
        rw [Bool.eq_false_iff]; simpa using h
      simp only [hb, h, Bool.false_eq_true, if_false]
      simp

end

/-! ## Arguments -/

section
variable {T : Type} [DecidableEq T]

/-- the effect of one type on the two counts of one position -/
def tick (E : Env T) (c : Nat × Nat) (t : T) : Nat × Nat :=
  if isThenableReturning E t then (c.1 + 1, c.2) else if isVoidReturning E t && c.1 == 0 then (c.1, c.2 + 1) else c

/-- the two counts of one position -/
def proj (i : Nat) (s : Indices) : Nat × Nat := (s.thenable.count i, s.voids.count i)

omit [DecidableEq T] in
theorem classify_proj (E : Env T) (i j : Nat) (t : T) (s : Indices) :
    proj i (classify E t j s) = if i = j then tick E (proj i s) t else proj i s := by
  unfold classify tick proj
  by_cases hij : i = j
  · subst hij
    by_cases h1 : isThenableReturning E t = true
    · simp [h1]
    · by_cases h2 : isVoidReturning E t = true
      · by_cases h3 : i ∈ s.thenable
        · have : s.thenable.count i ≠ 0 := by simpa [List.count_eq_zero] using h3
          simp [h1, h2, h3, this]
        · have : s.thenable.count i = 0 := by simpa [List.count_eq_zero] using h3
          simp [h1, h2, h3, this]
      · simp [h1, h2]
  · have hji : j ≠ i := fun h => hij h.symm
    simp only [hij, if_false]
    split
    · simp [List.count_append, List.count_cons, hji]
    · split
      · simp [List.count_append, List.count_cons, hji]
      · rfl

/-- the types `checkArgument` looks at -/
def looks (contextual : Nat → T) (i : Nat) (t : T) : List T := if contextual i ≠ t then [t, contextual i] else [t]

theorem checkArgument_proj (E : Env T) (contextual : Nat → T) (i j : Nat) (t : T) (s : Indices) :
    proj i (checkArgument E contextual t j s) = if i = j then (looks contextual i t).foldl (tick E) (proj i s) else proj i s := by
  unfold checkArgument looks
  by_cases hij : i = j
  · subst hij
    by_cases hc : contextual i ≠ t
    · simp [hc, classify_proj]
    · simp [hc, classify_proj]
  · simp only [hij, if_false]
    split <;> simp [classify_proj, hij]

theorem checkAll_proj (E : Env T) (contextual : Nat → T) (i : Nat) (elem : T) : (fuel k : Nat) → (s : Indices) →
    proj i (checkAll E contextual elem fuel k s) =
      if k ≤ i ∧ i < k + fuel then (looks contextual i elem).foldl (tick E) (proj i s) else proj i s
  | 0, k, s => by simp only [checkAll]; rw [if_neg (by omega)]
  | fuel + 1, k, s => by
    rw [checkAll, checkAll_proj E contextual i elem fuel (k + 1), checkArgument_proj]
    by_cases h1 : i = k
    · subst h1; rw [if_neg (by omega), if_pos rfl, if_pos (by omega)]
    · by_cases h2 : k ≤ i ∧ i < k + (fuel + 1)
      · rw [if_pos (by omega), if_neg h1, if_pos h2]
      · rw [if_neg (by omega), if_neg h1, if_neg h2]

theorem checkTuple_proj (E : Env T) (contextual : Nat → T) (n i : Nat) : (ts : List T) → (k : Nat) → (s : Indices) →
    proj i (checkTuple E contextual n ts k s) =
      ((if k ≤ i ∧ i < n then (ts[i - k]?).toList else []).flatMap (looks contextual i)).foldl (tick E) (proj i s)
  | [], k, s => by simp [checkTuple]
  | t :: ts, k, s => by
    rw [checkTuple]
    by_cases hk : k < n
    · rw [if_pos hk, checkTuple_proj E contextual n i ts (k + 1), checkArgument_proj]
      by_cases h1 : i = k
      · subst h1
        rw [if_pos (show i = i from rfl), if_neg (show ¬ (i + 1 ≤ i ∧ i < n) by omega), if_pos (show i ≤ i ∧ i < n by omega)]; simp
      · rw [if_neg h1]
        by_cases h2 : k ≤ i ∧ i < n
        · rw [if_pos (show k + 1 ≤ i ∧ i < n by omega), if_pos h2]
          have : i - k = (i - (k + 1)) + 1 := by omega
          rw [this]; simp
        · rw [if_neg (show ¬ (k + 1 ≤ i ∧ i < n) by omega), if_neg h2]
    · rw [if_neg hk, if_neg (show ¬ (k ≤ i ∧ i < n) by omega)]; simp

theorem checkParams_proj (E : Env T) (contextual : Nat → T) (n i : Nat) : (ps : List (Param T)) → (k : Nat) → (s : Indices) →
    proj i (checkParams E contextual n ps k s) =
      ((ps.zipIdx k).flatMap fun pk => (offers n i pk.2 pk.1).flatMap (looks contextual i)).foldl (tick E) (proj i s)
  | [], k, s => by simp [checkParams]
  | p :: ps, k, s => by
    rw [checkParams.eq_def]
    simp only [checkParams_proj E contextual n i ps (k + 1), List.zipIdx_cons, List.flatMap_cons, List.foldl_append]
    congr 1
    cases p with
    | plain t => simp only [checkArgument_proj, offers]; split <;> simp
    | restArray elem =>
      simp only [checkAll_proj, offers]
      by_cases h : k ≤ i ∧ i < n
      · rw [if_pos (by omega), if_pos h]; simp
      · rw [if_neg (by omega), if_neg h]; simp
    | restTuple elems => simp only [checkTuple_proj, offers]
    | restOther => simp [offers]

theorem checkSignatures_proj (E : Env T) (contextual : Nat → T) (n i : Nat) : (sigs : List (List (Param T))) → (s : Indices) →
    proj i (checkSignatures E contextual n sigs s) = (considered contextual n i sigs).foldl (tick E) (proj i s)
  | [], s => by simp [checkSignatures, considered]
  | sig :: rest, s => by
    rw [checkSignatures, checkSignatures_proj E contextual n i rest, checkParams_proj]
    simp only [considered, List.flatMap_cons, List.foldl_append]
    rfl

omit [DecidableEq T] in
theorem tally_after (E : Env T) : (ts : List T) → (a b : Nat) → a ≠ 0 →
    ts.foldl (tick E) (a, b) = (a + ts.countP (isThenableReturning E), b)
  | [], a, b, _ => by simp
  | t :: ts, a, b, ha => by
    simp only [List.foldl_cons, tick]
    by_cases h : isThenableReturning E t = true
    · simp only [h, if_true]; rw [tally_after E ts _ _ (by omega)]; simp [h]; omega
    · simp only [h, Bool.false_eq_true, if_false]
      have : (a == 0) = false := by simpa using ha
      simp only [this, Bool.and_false, Bool.false_eq_true, if_false]
      rw [tally_after E ts a b ha]; simp [h]

omit [DecidableEq T] in
theorem tally (E : Env T) : (ts : List T) → (b : Nat) →
    ts.foldl (tick E) (0, b) = (ts.countP (isThenableReturning E),
      b + (ts.takeWhile fun t => !isThenableReturning E t).countP (isVoidReturning E))
  | [], b => by simp
  | t :: ts, b => by
    simp only [List.foldl_cons, tick]
    by_cases h : isThenableReturning E t = true
    · simp only [h, if_true]; rw [tally_after E ts _ _ (by omega)]; simp [h]; omega
    · simp only [h, Bool.false_eq_true, if_false]
      by_cases hv : isVoidReturning E t = true
      · simp only [hv, Bool.true_and, beq_self_eq_true, if_true]
        rw [tally E ts]; simp [h, hv]; omega
      · simp only [hv, Bool.false_and, Bool.false_eq_true, if_false]
        rw [tally E ts]; simp [h, hv]

theorem count_delete (i : Nat) : (th v : List Nat) → (deleteThenable th v).count i = v.count i - th.count i
  | [], v => by simp [deleteThenable]
  | j :: th, v => by
    rw [deleteThenable, count_delete i th]
    by_cases hj : j ∈ v
    · simp only [List.contains_eq_mem, hj, decide_true, if_true]
      by_cases h : j = i
      · subst h; rw [List.count_erase_self]; simp; omega
      · rw [List.count_erase_of_ne (fun e => h e.symm)]; simp [List.count_cons, h]
    · simp only [List.contains_eq_mem, hj, decide_false, Bool.false_eq_true, if_false]
      by_cases h : j = i
      · subst h
        have : v.count j = 0 := List.count_eq_zero.2 hj
        omega
      · simp [List.count_cons, h]

omit [DecidableEq T] in
theorem promises_eq (E : Env T) (ts : List T) : promises E ts = ts.countP (isThenableReturning E) := by
  unfold promises; apply List.countP_congr; intro t _; simp [isThenableReturning_iff]

omit [DecidableEq T] in
theorem takeWhile_congr' {p q : T → Bool} (h : ∀ t, p t = q t) (ts : List T) : ts.takeWhile p = ts.takeWhile q := by
  have : p = q := funext h
  rw [this]

omit [DecidableEq T] in
theorem voidsBefore_eq (E : Env T) (ts : List T) :
    voidsBefore E ts = (ts.takeWhile fun t => !isThenableReturning E t).countP (isVoidReturning E) := by
  classical
  unfold voidsBefore
  rw [takeWhile_congr' (q := fun t => !isThenableReturning E t)]
  · apply List.countP_congr; intro t _; simp [C96_returns_void]
  · intro t
    have := isThenableReturning_iff E t
    by_cases h : ReturnsPromise E t
    · simp [h, this.2 h]
    · have : isThenableReturning E t = false := by rw [Bool.eq_false_iff]; exact fun h' => h (this.1 h')
      simp [h, this]

theorem mem_voidArguments (E : Env T) (c : Call T) (i : Nat) :
    i ∈ voidFunctionArguments E c ↔ ∃ args, c.args = some args ∧
      promises E (considered c.contextual args.length i c.signatures) < voidsBefore E (considered c.contextual args.length i c.signatures) := by
  unfold voidFunctionArguments
  cases h : c.args with
  | none => simp
  | some args =>
    have hp := checkSignatures_proj E c.contextual args.length i c.signatures {}
    have h0 : proj i {} = (0, 0) := by simp [proj]
    rw [h0, tally] at hp
    simp only [proj, Prod.mk.injEq] at hp
    simp only [Option.some.injEq, exists_eq_left', ← List.count_pos_iff, count_delete, hp.1, hp.2, promises_eq, voidsBefore_eq]
    omega

omit [DecidableEq T] in
theorem mem_reportArguments (E : Env T) (v : List Nat) (i : Nat) : (args : List T) → (k : Nat) →
    (i ∈ reportArguments E v args k ↔ k ≤ i ∧ i ∈ v ∧ ∃ a, args[i - k]? = some a ∧ returnsThenable E a = true)
  | [], k => by simp [reportArguments]
  | a :: rest, k => by
    rw [reportArguments, List.mem_append, mem_reportArguments E v i rest (k + 1)]
    by_cases hk : i = k
    · subst hk
      have : ¬ i + 1 ≤ i := by omega
      by_cases hh : (v.contains i && returnsThenable E a) = true
      · simp only [hh, if_true]; simp at hh; simp [hh]
      · simp only [hh]; simp only [Bool.and_eq_true, List.contains_eq_mem, decide_eq_true_eq] at hh
        simp [this]; exact fun h => Bool.eq_false_iff.2 fun h' => hh ⟨h, h'⟩
    · have h0 : i ∉ (if (v.contains k && returnsThenable E a) = true then [k] else []) := by
        split <;> simp [hk]
      simp only [h0, false_or]
      constructor
      · rintro ⟨h1, h2, h3⟩
        refine ⟨by omega, h2, ?_⟩
        have : i - k = (i - (k + 1)) + 1 := by omega
        rw [this]; simpa using h3
      · rintro ⟨h1, h2, h3⟩
        have : i - k = (i - (k + 1)) + 1 := by omega
        rw [this] at h3
        exact ⟨by omega, h2, by simpa using h3⟩

omit [DecidableEq T] in
theorem reportArguments_sorted (E : Env T) (v : List Nat) : (args : List T) → (k : Nat) → (reportArguments E v args k).Pairwise (· < ·)
  | [], _ => by simp [reportArguments]
  | a :: rest, k => by
    rw [reportArguments, List.pairwise_append]
    refine ⟨by split <;> simp, reportArguments_sorted E v rest (k + 1), ?_⟩
    intro x hx y hy
    have := ((mem_reportArguments E v y rest (k + 1)).1 hy).1
    split at hx
    · simp at hx; omega
    · simp at hx

/-- An argument is reported, once and in order, exactly if it is a promise-returning function and, of the types under which it is considered, more
return void before the first that returns a promise than there are that return promises. -/
theorem C96_arguments (E : Env T) (c : Call T) :
    (∀ i, i ∈ checkArguments E c ↔ ∃ args v, c.args = some args ∧ args[i]? = some v ∧ ReturnsPromise E (E.then_.apparent v) ∧
      promises E (considered c.contextual args.length i c.signatures) <
        voidsBefore E (considered c.contextual args.length i c.signatures)) ∧
    (checkArguments E c).Pairwise (· < ·) := by
  unfold checkArguments
  constructor
  · intro i
    by_cases he : (voidFunctionArguments E c).isEmpty = true
    · simp only [he, if_true, List.not_mem_nil, false_iff]
      rintro ⟨args, v, h1, h2, h3, h4⟩
      have := (mem_voidArguments E c i).2 ⟨args, h1, h4⟩
      rw [List.isEmpty_iff] at he; rw [he] at this; simp at this
    · simp only [he, Bool.false_eq_true, if_false]
      rw [mem_reportArguments, mem_voidArguments]
      cases hA : c.args with
      | none => simp
      | some args =>
        simp only [Nat.zero_le, true_and, Option.getD_some, Nat.sub_zero, Option.some.injEq, exists_eq_left', C96_returns_promise]
        constructor
        · rintro ⟨h1, v, h2, h3⟩; exact ⟨args, v, rfl, h2, h3, h1⟩
        · rintro ⟨_, v, rfl, h2, h3, h1⟩; exact ⟨h1, v, h2, h3⟩
  · dsimp only
    split
    · simp
    · exact reportArguments_sorted ..

omit [DecidableEq T] in
theorem takeWhile_all (p : T → Bool) : (l : List T) → (∀ t ∈ l, p t = true) → l.takeWhile p = l
  | [], _ => rfl
  | t :: l, h => by
    rw [List.takeWhile_cons, if_pos (h t (by simp)), takeWhile_all p l fun t ht => h t (by simp [ht])]

/-- Where no considered type returns a promise: exactly the promise-returning arguments for which void is expected are reported. -/
theorem C96_arguments_void (E : Env T) (c : Call T) (args : List T) (ha : c.args = some args) (i : Nat) (v : T) (hv : args[i]? = some v)
    (hno : ∀ t ∈ considered c.contextual args.length i c.signatures, ¬ ReturnsPromise E t) :
    i ∈ checkArguments E c ↔ ReturnsPromise E (E.then_.apparent v) ∧
      ∃ t ∈ considered c.contextual args.length i c.signatures, ReturnsVoid E t := by
  classical
  rw [(C96_arguments E c).1]
  have h0 : promises E (considered c.contextual args.length i c.signatures) = 0 := by
    unfold promises; rw [List.countP_eq_zero]; intro t ht; simp [hno t ht]
  have h1 : 0 < voidsBefore E (considered c.contextual args.length i c.signatures) ↔
      ∃ t ∈ considered c.contextual args.length i c.signatures, ReturnsVoid E t := by
    unfold voidsBefore
    have htw : ((considered c.contextual args.length i c.signatures).takeWhile fun t => decide (¬ ReturnsPromise E t)) =
        considered c.contextual args.length i c.signatures := by
      refine takeWhile_all _ _ (fun t ht => ?_); simp [hno t ht]
    rw [List.countP_pos_iff]
    simp only [decide_eq_true_eq]
    have := congrArg (fun l => ∃ a, a ∈ l ∧ ReturnsVoid E a) htw
    simp only [decide_not] at this ⊢
    rw [this]
  constructor
  · rintro ⟨args', v', h2, h3, h4, h5⟩
    rw [ha] at h2; cases h2
    rw [hv] at h3; cases h3
    exact ⟨h4, h1.1 (by omega)⟩
  · rintro ⟨h4, h5⟩
    exact ⟨args, v, ha, hv, h4, by have := h1.2 h5; omega⟩

/-- Where some considered type returns a promise, so that promise-returning functions are welcome, an argument is reported only if at least
two void-returning types were considered before it. -/
theorem C96_arguments_accepted (E : Env T) (c : Call T) (args : List T) (ha : c.args = some args) (i : Nat)
    (hyes : ∃ t ∈ considered c.contextual args.length i c.signatures, ReturnsPromise E t)
    (h : i ∈ checkArguments E c) : 2 ≤ voidsBefore E (considered c.contextual args.length i c.signatures) := by
  classical
  obtain ⟨args', v, h2, _, _, h5⟩ := ((C96_arguments E c).1 i).1 h
  rw [ha] at h2; cases h2
  have : 0 < promises E (considered c.contextual args.length i c.signatures) := by
    unfold promises; rw [List.countP_pos_iff]
    obtain ⟨t, h1, h2⟩ := hyes
    exact ⟨t, h1, by simpa using h2⟩
  omega

end

/-- Types for the examples: 0 void, 1 a promise (its `then` is 2, which takes a 3), 3 `() => void`, 4 `() => Promise`, 5 `(x) => void`,
6 `Promise | undefined`, 7 undefined. -/
def demo : Env Nat where
  then_ := { shape := fun t => if t = 6 then .union [1, 7] else .other, apparent := id, thenOf := fun t => if t = 1 then some 2 else none,
             calls := fun t => if t = 2 then [some (some 3)] else if [3, 4, 5].contains t then [none] else [] }
  returns := fun t => if t = 3 ∨ t = 5 then [0] else if t = 4 then [1] else []
  firstParams := fun t => if t = 2 then [some (some 3)] else []
  isVoid := fun t => t == 0

example : isAlwaysThenable demo 1 = true ∧ isAlwaysThenable demo 6 = false ∧ returnsThenable demo 4 = true ∧ isVoidReturning demo 3 = true ∧
    isVoidReturning demo 4 = false := by decide
/-- `xs.filter(async x => …)` once, `xs.filter(o.asyncMethod)` twice -/
example : predicateReports demo ⟨true, true, [(4, false)]⟩ = [4] ∧ predicateReports demo ⟨true, true, [(4, true)]⟩ = [4, 4] := by decide
/-- `f(async () => {})` with `f(cb: () => void)` -/
example : checkArguments demo ⟨some [4], [[.plain 3]], fun _ => 3⟩ = [0] := by decide
/-- overloads `f(cb: () => void)` and `f(cb: () => Promise<void>)`: not reported -/
example : checkArguments demo ⟨some [4], [[.plain 3], [.plain 4]], fun _ => 3⟩ = [] := by decide
/-- but with another overload that returns void in front (or with a generic one, whose contextual type is another), reported although a
promise is welcome: only one of the two occurrences is deleted -/
example : checkArguments demo ⟨some [4], [[.plain 3], [.plain 5], [.plain 4]], fun _ => 3⟩ = [0] := by decide
example : checkArguments demo ⟨some [4], [[.plain 5], [.plain 4]], fun _ => 3⟩ = [0] := by decide
/-- a rest parameter -/
example : checkArguments demo ⟨some [4, 0, 4], [[.plain 0, .restArray 3]], fun i => if i = 0 then 0 else 3⟩ = [2] := by decide

/-! ## Inherited methods -/

section
variable {T : Type}

/-- the names by which members are compared: not computed ones -/
def PlainName : NameKind → Prop
  | .computed | .otherName => False
  | _ => True

/-- A member is reported for a heritage type exactly if it has a plain name, is not static, returns a promise, and the heritage type has a
member of that name from which void is expected; and each pair once. -/
theorem C96_inherited (E : Env T) (clauses : Option (List (List (Heritage T)))) (members : List (Member T)) :
    (∀ i j, (i, j) ∈ checkClassLike E clauses members ↔ ∃ m h k name t, members[i]? = some m ∧ (clauses.getD []).flatten[j]? = some h ∧
      m.name = some (k, name) ∧ PlainName k ∧ m.isStatic = false ∧ ReturnsPromise E (E.then_.apparent m.type) ∧
      h name = some t ∧ ReturnsVoid E t) ∧
    (checkClassLike E clauses members).Nodup := by
  have hm : ∀ (hs : List (Heritage T)) (m : Member T) (j : Nat), j ∈ checkMember E hs m ↔ ∃ h k name t, hs[j]? = some h ∧
      m.name = some (k, name) ∧ PlainName k ∧ m.isStatic = false ∧ ReturnsPromise E (E.then_.apparent m.type) ∧
      h name = some t ∧ ReturnsVoid E t := by
    intro hs m j
    unfold checkMember
    cases hn : m.name with
    | none => simp
    | some kn =>
      obtain ⟨k, name⟩ := kn
      have hk : (!(decide (k = .identifier) || decide (k = .privateIdentifier) || decide (k = .string) || decide (k = .number) ||
          decide (k = .bigint))) = true ↔ ¬ PlainName k := by cases k <;> simp [PlainName]
      by_cases h1 : PlainName k
      · dsimp only
        rw [if_neg (fun h => hk.1 h h1)]
        cases hst : m.isStatic
        · simp only [Bool.false_eq_true, if_false]
          by_cases h2 : returnsThenable E m.type = true
          · simp only [h2, Bool.not_true, Bool.false_eq_true, if_false, List.mem_map, List.mem_filter, Prod.exists, List.mk_mem_zipIdx_iff_getElem?]
            have h2' := (C96_returns_promise ..).1 h2
            constructor
            · rintro ⟨h, j', ⟨hj, hc⟩, rfl⟩
              unfold checkHeritage at hc
              cases hh : h name with
              | none => simp [hh] at hc
              | some t =>
                simp only [hh, C96_returns_void] at hc
                exact ⟨h, k, name, t, hj, rfl, h1, trivial, h2', hh, hc⟩
            · rintro ⟨h, k', name', t, hj, he, _, _, _, hh, hv⟩
              cases he
              refine ⟨h, j, ⟨hj, ?_⟩, rfl⟩
              simp [checkHeritage, hh, C96_returns_void, hv]
          · have h2' : ¬ ReturnsPromise E (E.then_.apparent m.type) := fun h => h2 ((C96_returns_promise ..).2 h)
            simp [h2, h2']
        · simp
      · dsimp only
        rw [if_pos (hk.2 h1)]
        constructor
        · intro h; simp at h
        · rintro ⟨_, _, _, _, _, he, hp, _⟩
          cases he; exact absurd hp h1
  have hnd : ∀ (hs : List (Heritage T)) (m : Member T), (checkMember E hs m).Nodup := by
    intro hs m
    unfold checkMember
    cases m.name with
    | none => simp
    | some kn =>
      obtain ⟨k, name⟩ := kn
      dsimp only
      split
      · simp
      · split
        · simp
        · split
          · simp
          · have : ((hs.zipIdx.filter fun h => checkHeritage E h.1 name).map (·.2)).Sublist (hs.zipIdx.map (·.2)) :=
              List.Sublist.map _ List.filter_sublist
            refine this.nodup ?_
            rw [List.zipIdx_map_snd]
            exact List.nodup_range'
  have heq : checkClassLike E clauses members =
      members.zipIdx.flatMap fun m => (checkMember E (clauses.getD []).flatten m.1).map fun h => (m.2, h) := by
    unfold checkClassLike
    have hnil : ∀ m : Member T, checkMember E [] m = [] := by
      intro m
      rw [List.eq_nil_iff_forall_not_mem]; intro j hj
      obtain ⟨h, _, _, _, hj, _⟩ := (hm [] m j).1 hj
      simp at hj
    cases clauses with
    | none => simp [hnil]
    | some cs => cases cs with
      | nil => simp [hnil]
      | cons c cs => rfl
  rw [heq]
  constructor
  · intro i j
    simp only [List.mem_flatMap, List.mem_map, Prod.exists, List.mk_mem_zipIdx_iff_getElem?, Prod.mk.injEq]
    constructor
    · rintro ⟨m, i', hi, j', hj, rfl, rfl⟩
      obtain ⟨h, k, name, t, hh⟩ := (hm _ m _).1 hj
      exact ⟨m, h, k, name, t, hi, hh⟩
    · rintro ⟨m, h, k, name, t, hi, hh⟩
      exact ⟨m, i, hi, j, (hm _ m j).2 ⟨h, k, name, t, hh⟩, rfl, rfl⟩
  · have : ∀ (ms : List (Member T)) (n : Nat), ((ms.zipIdx n).flatMap fun m =>
        (checkMember E (clauses.getD []).flatten m.1).map fun h => (m.2, h)).Nodup := by
      intro ms
      induction ms with
      | nil => simp
      | cons m ms ih =>
        intro n
        simp only [List.zipIdx_cons, List.flatMap_cons, List.nodup_append]
        refine ⟨?_, ih (n + 1), ?_⟩
        · have hh := hnd (clauses.getD []).flatten m
          rw [List.nodup_iff_pairwise_ne, List.pairwise_map]
          exact List.Pairwise.imp (fun h he => h (by cases he; rfl)) (List.nodup_iff_pairwise_ne.1 hh)
        · rintro ⟨a, b⟩ ha ⟨a', b'⟩ hb he
          cases he
          simp only [List.mem_map, Prod.mk.injEq] at ha
          obtain ⟨_, _, rfl, _⟩ := ha
          simp only [List.mem_flatMap, List.mem_map, Prod.mk.injEq, Prod.exists] at hb
          obtain ⟨m', k, hk, _, _, he, _⟩ := hb
          have := List.le_snd_of_mem_zipIdx hk
          simp only at this; omega
    exact this members 0

/-- `class A extends B implements C { async m() {} static async s() {} }` where both have `m(): void` -/
example : checkClassLike demo (some [[fun n => if n = "m" then some 3 else none], [fun n => if n = "m" then some 5 else none]])
    [⟨some (.identifier, "m"), false, 4⟩, ⟨some (.identifier, "m"), true, 4⟩, ⟨some (.computed, "m"), false, 4⟩] = [(0, 0), (0, 1)] := by decide

/-! ## Properties, attributes, returns, variables, spreads -/

theorem filtered_iff (n : Annotation) : isPossiblyFunctionType n = true ↔ Filtered n := by
  cases n <;> simp [isPossiblyFunctionType, Filtered]

/-- A property or attribute value, returned value, variable or assigned value is reported exactly if it is a promise-returning function where a
void-returning one is expected — and, for methods, the name is not computed and, for returns and variables, the annotation passes the
syntactic filter. -/
theorem C96_values (E : Env T) :
    (∀ c v, checkProperty E (.assignment c v) = true ↔ ∃ t, c = some t ∧ Mismatch E t v) ∧
    (∀ c v, checkProperty E (.shorthand c v) = true ↔ ∃ t, c = some t ∧ Mismatch E t v) ∧
    (∀ computed lit e v, checkProperty E (.method computed lit e v) = true ↔
      computed = false ∧ lit = true ∧ ∃ t, e = some t ∧ Mismatch E t v) ∧
    (∀ v c, checkAttribute E v c = true ↔ ∃ u t, v = some u ∧ c = some t ∧ Mismatch E t u) ∧
    (∀ v a c, checkReturn E v a c = true ↔ (∀ n, a = some n → Filtered n) ∧
      ∃ u t, v = some u ∧ c = some t ∧ Mismatch E t u) ∧
    (∀ c v, checkAssignment E c v = true ↔ Mismatch E c v) ∧
    (∀ a v c, checkVariable E a v c = true ↔ ∃ n u, a = some n ∧ Filtered n ∧ v = some u ∧ Mismatch E c u) ∧
    (∀ v, checkSpread E v = true ↔ Thenable E.then_ v) := by
  simp only [← filtered_iff]
  have hM : ∀ c v, (isVoidReturning E c && returnsThenable E v) = true ↔ Mismatch E c v := by
    intro c v; simp [C96_returns_void, C96_returns_promise, Mismatch]
  haveI : DecidableEq T := fun _ _ => Classical.propDecidable _
  refine ⟨?_, ?_, ?_, ?_, ?_, ?_, ?_, ?_⟩
  · intro c v; cases c with
    | none => simp [checkProperty]
    | some c => simp only [checkProperty, hM]; simp
  · intro c v; cases c with
    | none => simp [checkProperty]
    | some c => simp only [checkProperty, hM]; simp
  · intro computed lit e v
    cases computed <;> cases lit <;> simp only [checkProperty, Bool.not_true, Bool.not_false, Bool.false_eq_true, if_true, if_false,
      false_and, and_false, true_and, reduceCtorEq]
    by_cases h : returnsThenable E v = true
    · simp only [h, Bool.not_true, Bool.false_eq_true, if_false]
      cases e with
      | none => simp
      | some t => simp [C96_returns_void, Mismatch, (C96_returns_promise ..).1 h]
    · have : ¬ ReturnsPromise E (E.then_.apparent v) := fun h' => h ((C96_returns_promise ..).2 h')
      simp [h, Mismatch, this]
  · intro v c; cases v <;> cases c <;> simp only [checkAttribute, hM] <;> simp
  · intro v a c
    cases v with
    | none => simp [checkReturn]
    | some v =>
      cases a with
      | none => cases c <;> simp only [checkReturn, Bool.false_eq_true, if_false, hM] <;> simp
      | some a =>
        by_cases h : isPossiblyFunctionType a = true
        · cases c <;> simp only [checkReturn, h, Bool.not_true, Bool.false_eq_true, if_false, hM] <;> simp [h]
        · simp [checkReturn, h]
  · intro c v
    by_cases h : isVoidReturning E c = true
    · simp [checkAssignment, h, Mismatch, (C96_returns_void ..).1 h, C96_returns_promise]
    · have : ¬ ReturnsVoid E c := fun h' => h ((C96_returns_void ..).2 h')
      simp [checkAssignment, h, Mismatch, this]
  · intro a v c
    cases v <;> cases a <;> simp only [checkVariable, Bool.false_eq_true, false_iff] <;> try simp
    rename_i v a
    by_cases h : isPossiblyFunctionType a = true
    · by_cases hv : isVoidReturning E c = true
      · simp [h, hv, Mismatch, (C96_returns_void ..).1 hv, C96_returns_promise]
      · have : ¬ ReturnsVoid E c := fun h' => hv ((C96_returns_void ..).2 h')
        simp [h, hv, Mismatch, this]
    · simp [h]
  · intro v; simp [checkSpread, C52_thenable]

example : checkProperty demo (.assignment (some 3) 4) = true ∧ checkProperty demo (.method true true (some 3) 4) = false ∧
    checkReturn demo (some 4) (some .functionType) (some 3) = true ∧ checkVariable demo (some .reference) (some 4) 3 = true ∧
    checkSpread demo 1 = true := by decide

/-- The syntactic filter overlooks parentheses: `const f: (() => void) = async () => {}` is never looked at, nor is a value returned from a
function whose return type is in parentheses. -/
theorem C96_parenthesised (E : Env T) (n : Annotation) (v : Option T) (c : T) :
    checkVariable E (some (.parenthesized n)) v c = false ∧ checkReturn E v (some (.parenthesized n)) (some c) = false := by
  cases v <;> simp [checkVariable, checkReturn, isPossiblyFunctionType]

example : checkVariable demo (some .functionType) (some 4) 3 = true ∧ checkVariable demo (some (.parenthesized .functionType)) (some 4) 3 = false := by
  decide

end

/-! ## Options -/

/-- Which option a check belongs to. -/
def Enabled (o : Options) : Check → Prop
  | .condition | .predicate => o.conditionals = true
  | .argument => ∃ v, o.voidReturn = some v ∧ v.arguments = true
  | .attribute => ∃ v, o.voidReturn = some v ∧ v.attributes = true
  | .inherited => ∃ v, o.voidReturn = some v ∧ v.inheritedMethods = true
  | .property => ∃ v, o.voidReturn = some v ∧ v.properties = true
  | .returnValue => ∃ v, o.voidReturn = some v ∧ v.returns = true
  | .assignment | .declaration => ∃ v, o.voidReturn = some v ∧ v.variables = true
  | .spread => o.spreads = true

/-- Where a check looks. -/
def Looks : Check → List Kind
  | .condition => [.binaryExpression, .prefixUnary, .conditional, .forStatement, .doStatement, .whileStatement, .ifStatement]
  | .predicate => [.propertyAccess, .elementAccess]
  | .argument => [.call, .new]
  | .attribute => [.jsxAttribute]
  | .inherited => [.classDeclaration, .classExpression, .interfaceDeclaration]
  | .property => [.propertyAssignment, .methodDeclaration, .shorthandPropertyAssignment]
  | .returnValue => [.returnStatement]
  | .assignment => [.binaryExpression]
  | .declaration => [.variableDeclaration]
  | .spread => [.spreadElement, .spreadAssignment]

/-- Each check runs exactly where it looks, and exactly if its option is on; never twice. -/
theorem C96_options (o : Options) (k : Kind) (c : Check) :
    (c ∈ listeners o k ↔ Enabled o c ∧ k ∈ Looks c) ∧ (listeners o k).Nodup := by
  obtain ⟨cond, vr, sp⟩ := o
  constructor
  · cases vr with
    | none => cases cond <;> cases sp <;> cases k <;> cases c <;> simp [listeners, binaryChecks, Enabled, Looks]
    | some v =>
      obtain ⟨a, b, i, p, r, w⟩ := v
      cases k <;> cases c <;> simp [listeners, binaryChecks, Enabled, Looks]
  · cases vr with
    | none => cases cond <;> cases sp <;> cases k <;> simp [listeners, binaryChecks]
    | some v =>
      obtain ⟨a, b, i, p, r, w⟩ := v
      cases k <;> simp only [listeners, binaryChecks] <;> (repeat' split) <;> simp

example : listeners ⟨true, some ⟨false, true, true, true, true, true⟩, true⟩ .binaryExpression = [.condition, .assignment] ∧
    listeners ⟨true, some ⟨false, true, true, true, true, true⟩, true⟩ .call = [] := by decide

end Tsgolint.MisusedPromises
