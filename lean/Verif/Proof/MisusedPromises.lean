import Verif.Spec.MisusedPromises
/-! The memoised traversal of conditions: `visit` computes `out`, which needs no memory. -/
namespace Tsgolint.MisusedPromises

/-- What is known about a node when it is visited: nothing below it was checked, it was checked, or what is inside its parentheses was. -/
inductive Ctx | fresh | done (b : Bool) | spanned (b : Bool)

def Ctx.span : Ctx → Ctx
  | .fresh => .fresh
  | .done b => .spanned b
  | .spanned b => .spanned b

def Ctx.mode : Ctx → Bool
  | .fresh => false
  | .done b => b
  | .spanned b => b

def lctx (op : LogicalOp) (b : Bool) : Ctx := if op ≠ .coalesce || b then .done b else .fresh
def rctx (b : Bool) : Ctx := if b then .done b else .fresh

/-- the leaf, if it is always a promise -/
def one (always : Nat → Bool) (i : Nat) : List Nat := if always i then [i] else []

/-- the reports of `checkConditional` on a tree without marks -/
def judged (always : Nat → Bool) (b : Bool) : Bool → Node → List Nat
  | inner, .assign i _ _ => if inner then one always i else []
  | _, .logical _ op l r =>
    (if op ≠ .coalesce || b then judged always b false l else []) ++ (if b then judged always b false r else [])
  | _, .paren _ e => judged always b true e
  | _, .binary i _ _ => one always i
  | _, .bang i _ => one always i
  | _, .test i _ _ _ => one always i
  | _, .other i _ => one always i

def own (inner : Bool) (i : Nat) : List Nat := if inner then [] else [i]

/-- the marks of `checkConditional` on a tree without marks -/
def marks (b : Bool) : Bool → Node → List Nat
  | _, .assign .. => []
  | inner, .logical i op l r =>
    own inner i ++ ((if op ≠ .coalesce || b then marks b false l else []) ++ (if b then marks b false r else []))
  | inner, .paren i e => own inner i ++ marks b true e
  | inner, .binary i _ _ => own inner i
  | inner, .bang i _ => own inner i
  | inner, .test i _ _ _ => own inner i
  | inner, .other i _ => own inner i

def Ctx.marks : Ctx → Node → List Nat
  | .fresh, _ => []
  | .done b, e => MisusedPromises.marks b false e
  | .spanned b, e => MisusedPromises.marks b true e

def Ctx.pre (always : Nat → Bool) : Ctx → Node → List Nat
  | .fresh, _ => []
  | .done b, e => judged always b false e
  | .spanned b, e => judged always b true e

mutual
def out (always : Nat → Bool) : Ctx → Node → List Nat
  | c, .logical i op l r =>
    (match c with | .fresh => judged always false false (.logical i op l r) | _ => []) ++
      (out always (lctx op c.mode) l ++ out always (rctx c.mode) r)
  | _, .assign _ l r => out always .fresh l ++ out always .fresh r
  | c, .binary i l r => (match c with | .done _ => [] | _ => one always i) ++ (out always .fresh l ++ out always .fresh r)
  | c, .paren _ e => out always c.span e
  | _, .bang _ e => judged always true false e ++ out always (.done true) e
  | _, .test _ before c after =>
    judged always true false c ++ (outs always before ++ (out always (.done true) c ++ outs always after))
  | _, .other _ ks => outs always ks
def outs (always : Nat → Bool) : List Node → List Nat
  | [] => []
  | n :: rest => out always .fresh n ++ outs always rest
end

theorem marks_sub (b inner : Bool) (e : Node) : ∀ x ∈ marks b inner e, x ∈ ids e := by
  induction e using Node.rec (motive_2 := fun _ => True) generalizing inner with
  | logical i op l r hl hr =>
    intro x hx
    simp only [marks, own, List.mem_append] at hx
    simp only [ids, List.mem_cons, List.mem_append]
    rcases hx with hx | hx | hx
    · cases inner <;> simp at hx; exact .inl hx
    · split at hx
      · exact .inr (.inl (hl false x hx))
      · simp at hx
    · split at hx
      · exact .inr (.inr (hr false x hx))
      · simp at hx
  | assign => intro x hx; simp [marks] at hx
  | binary i => intro x hx; cases inner <;> simp [marks, own] at hx; simp [ids, hx]
  | paren i e h =>
    intro x hx
    simp only [marks, own, List.mem_append] at hx
    simp only [ids, List.mem_cons]
    rcases hx with hx | hx
    · cases inner <;> simp at hx; exact .inl hx
    · exact .inr (h true x hx)
  | bang i => intro x hx; cases inner <;> simp [marks, own] at hx; simp [ids, hx]
  | test i => intro x hx; cases inner <;> simp [marks, own] at hx; simp [ids, hx]
  | other i => intro x hx; cases inner <;> simp [marks, own] at hx; simp [ids, hx]
  | nil => trivial
  | cons => trivial

/-- Same marks as a list, up to order. -/
def Marked (s : State) (old : List Nat) (new : List Nat) : Prop := ∀ x, x ∈ s.checked ↔ x ∈ new ∨ x ∈ old

theorem leaf_eq (always : Nat → Bool) (i : Nat) (s : State) :
    leaf always i s = ⟨s.checked, (one always i).reverse ++ s.reports⟩ := by
  unfold leaf one; split <;> simp

/-- `checkConditional` on a tree without marks. -/
theorem check_fresh (always : Nat → Bool) (b inner : Bool) (e : Node) (s : State) (hn : (ids e).Nodup)
    (hs : ∀ x ∈ ids e, x ∉ s.checked) :
    (checkConditional always inner e b s).reports = (judged always b inner e).reverse ++ s.reports ∧
    Marked (checkConditional always inner e b s) s.checked (marks b inner e) := by
  induction e using Node.rec (motive_2 := fun _ => True) generalizing inner s with
  | logical i op l r hl hr =>
    have hi : i ∉ s.checked := hs i (by simp [ids])
    simp only [ids, List.nodup_cons, List.nodup_append, List.mem_append, not_or] at hn
    obtain ⟨⟨hil, hir⟩, hnl, hnr, hd⟩ := hn
    have hL : ∀ x ∈ ids l, x ∉ s.checked := fun x hx => hs x (by simp [ids, hx])
    have hR : ∀ x ∈ ids r, x ∉ s.checked := fun x hx => hs x (by simp [ids, hx])
    rw [checkConditional.eq_def]
    have hc : (!inner && s.checked.contains i) = false := by cases inner <;> simp [hi]
    simp only [hc, Bool.false_eq_true, if_false]
    -- the state after marking
    generalize hs1 : (if inner = true then s else { s with checked := i :: s.checked }) = s1
    have h1r : s1.reports = s.reports := by rw [← hs1]; split <;> rfl
    have h1c : ∀ x, x ∈ s1.checked ↔ x ∈ own inner i ∨ x ∈ s.checked := by
      intro x; rw [← hs1]; cases inner <;> simp [own]
    have hL1 : ∀ x ∈ ids l, x ∉ s1.checked := by
      intro x hx; rw [h1c]; rintro (h | h)
      · cases inner <;> simp [own] at h; subst h; exact hil hx
      · exact hL x hx h
    have hR1 : ∀ x ∈ ids r, x ∉ s1.checked := by
      intro x hx; rw [h1c]; rintro (h | h)
      · cases inner <;> simp [own] at h; subst h; exact hir hx
      · exact hR x hx h
    generalize hs2 : (if (decide (op ≠ .coalesce) || b) = true then checkConditional always false l b s1 else s1) = s2
    have h2 : s2.reports = (if (decide (op ≠ .coalesce) || b) = true then judged always b false l else []).reverse ++ s1.reports ∧
        Marked s2 s1.checked (if (decide (op ≠ .coalesce) || b) = true then marks b false l else []) := by
      rw [← hs2]
      by_cases hb : (decide (op ≠ .coalesce) || b) = true
      · simp only [hb, if_true]; exact hl false s1 hnl hL1
      · simp only [hb, if_false]; exact ⟨by simp, by intro x; simp⟩
    have hR2 : ∀ x ∈ ids r, x ∉ s2.checked := by
      intro x hx; rw [h2.2 x]; rintro (h | h)
      · split at h
        · exact hd x (marks_sub b false l x h) x hx rfl
        · simp at h
      · exact hR1 x hx h
    simp only [judged, marks]
    by_cases hb : b = true
    · simp only [hb, if_true] at h2 ⊢
      subst hb
      simp only [Bool.or_true, if_true] at h2 ⊢
      have h3 := hr false s2 hnr hR2
      refine ⟨?_, ?_⟩
      · rw [h3.1, h2.1, h1r]; simp
      · intro x; rw [h3.2 x, h2.2 x, h1c]; simp only [List.mem_append]
        constructor
        · rintro (h | h | h | h) <;> simp [h]
        · rintro ((h | h | h) | h) <;> simp [h]
    · simp only [hb, Bool.false_eq_true, if_false] at h2 ⊢
      refine ⟨?_, ?_⟩
      · rw [h2.1, h1r]; simp
      · intro x; rw [h2.2 x, h1c]; simp only [List.mem_append, List.not_mem_nil, or_false]
        generalize (x ∈ if (decide (op ≠ LogicalOp.coalesce) || false) = true then marks false false l else []) = A
        constructor
        · rintro (h | h | h) <;> simp [h]
        · rintro ((h | h) | h) <;> simp [h]
  | assign i l r =>
    rw [checkConditional.eq_def]
    cases inner
    · simp [judged, marks, Marked]
    · simp [judged, marks, Marked, leaf_eq]
  | paren i e h =>
    have hi : i ∉ s.checked := hs i (by simp [ids])
    simp only [ids, List.nodup_cons] at hn
    rw [checkConditional.eq_def]
    have hc : (!inner && s.checked.contains i) = false := by cases inner <;> simp [hi]
    simp only [hc, Bool.false_eq_true, if_false]
    generalize hs1 : (if inner = true then s else { s with checked := i :: s.checked }) = s1
    have h1r : s1.reports = s.reports := by rw [← hs1]; split <;> rfl
    have h1c : ∀ x, x ∈ s1.checked ↔ x ∈ own inner i ∨ x ∈ s.checked := by
      intro x; rw [← hs1]; cases inner <;> simp [own]
    have h2 := h true s1 hn.2 (by
      intro x hx; rw [h1c]; rintro (h | h)
      · cases inner <;> simp [own] at h; subst h; exact hn.1 hx
      · exact hs x (by simp [ids, hx]) h)
    refine ⟨by rw [h2.1, h1r]; simp [judged], ?_⟩
    intro x; rw [h2.2 x, h1c]; simp only [marks, List.mem_append]
    constructor
    · rintro (h | h | h) <;> simp [h]
    · rintro ((h | h) | h) <;> simp [h]
  | binary i l r =>
    have hi : i ∉ s.checked := hs i (by simp [ids])
    rw [checkConditional.eq_def]
    cases inner <;> simp [hi, judged, marks, Marked, own, leaf_eq]
  | bang i e =>
    have hi : i ∉ s.checked := hs i (by simp [ids])
    rw [checkConditional.eq_def]
    cases inner <;> simp [hi, judged, marks, Marked, own, leaf_eq]
  | test i bs c as =>
    have hi : i ∉ s.checked := hs i (by simp [ids])
    rw [checkConditional.eq_def]
    cases inner <;> simp [hi, judged, marks, Marked, own, leaf_eq]
  | other i ks =>
    have hi : i ∉ s.checked := hs i (by simp [ids])
    rw [checkConditional.eq_def]
    cases inner <;> simp [hi, judged, marks, Marked, own, leaf_eq]
  | nil => trivial
  | cons => trivial

theorem own_id_marked (b : Bool) (e : Node) : IsAssignment e ∨ e.id ∈ marks b false e := by
  cases e <;> simp [IsAssignment, marks, own, Node.id]

/-- A second check of the same node does nothing. -/
theorem check_again (always : Nat → Bool) (b b' : Bool) (e : Node) (s : State) (hm : ∀ x ∈ marks b false e, x ∈ s.checked) :
    checkConditional always false e b' s = s := by
  rcases own_id_marked b e with h | h
  · cases e <;> simp only [IsAssignment] at h
    rw [checkConditional.eq_def]; simp
  · have hi := hm _ h
    cases e <;> simp only [Node.id] at hi <;> rw [checkConditional.eq_def] <;> simp [hi]

/-- Of the identities of `e`, exactly those are marked which the context says. -/
def Fits (c : Ctx) (e : Node) (s : State) : Prop := ∀ x ∈ ids e, x ∈ s.checked ↔ x ∈ c.marks e

/-- only identities of `e` were added -/
def Only (l : List Nat) (s s' : State) : Prop := ∀ x, x ∉ l → (x ∈ s'.checked ↔ x ∈ s.checked)

theorem Fits.keep {c : Ctx} {e : Node} {s s' : State} {l : List Nat} (h : Fits c e s) (ho : Only l s s')
    (hd : ∀ x ∈ ids e, x ∉ l) : Fits c e s' := fun x hx => by rw [ho x (hd x hx)]; exact h x hx

theorem Only.trans {l s t u} (h : Only l s t) (h' : Only l t u) : Only l s u := fun x hx => (h' x hx).trans (h x hx)
theorem Only.mono {l l' s t} (h : Only l s t) (hl : ∀ x ∈ l, x ∈ l') : Only l' s t := fun x hx => h x (fun hx' => hx (hl x hx'))

theorem check_only (always : Nat → Bool) (b : Bool) (e : Node) (s : State) (hn : (ids e).Nodup)
    (hs : ∀ x ∈ ids e, x ∉ s.checked) : Only (ids e) s (checkConditional always false e b s) := by
  intro x hx
  rw [(check_fresh always b false e s hn hs).2 x]
  exact ⟨fun h => h.resolve_left fun h => hx (marks_sub b false e x h), .inr⟩

theorem check_fits (always : Nat → Bool) (b : Bool) (e : Node) (s : State) (hn : (ids e).Nodup)
    (hs : ∀ x ∈ ids e, x ∉ s.checked) : Fits (.done b) e (checkConditional always false e b s) := by
  intro x hx
  rw [(check_fresh always b false e s hn hs).2 x]
  exact ⟨fun h => h.resolve_right (hs x hx), .inl⟩

theorem fits_fresh {e : Node} {s : State} (h : Fits .fresh e s) : ∀ x ∈ ids e, x ∉ s.checked :=
  fun x hx hc => by have := (h x hx).1 hc; simp [Ctx.marks] at this

theorem fresh_fits {e : Node} {s : State} (h : ∀ x ∈ ids e, x ∉ s.checked) : Fits .fresh e s :=
  fun x hx => by simp [Ctx.marks, h x hx]

/-- the operands of a logical expression after its marks -/
theorem lctx_marks (op : LogicalOp) (b : Bool) (l : Node) :
    (lctx op b).marks l = if (decide (op ≠ .coalesce) || b) = true then marks b false l else [] := by
  unfold lctx; split <;> simp [Ctx.marks]

theorem rctx_marks (b : Bool) (r : Node) : (rctx b).marks r = if b = true then marks b false r else [] := by
  unfold rctx; split <;> simp [Ctx.marks]

theorem logical_fits {i : Nat} {op : LogicalOp} {l r : Node} {b inner : Bool} {s : State} (hn : (ids (.logical i op l r)).Nodup)
    (h : ∀ x ∈ ids (.logical i op l r), x ≠ i → (x ∈ s.checked ↔ x ∈ marks b inner (.logical i op l r))) :
    Fits (lctx op b) l s ∧ Fits (rctx b) r s := by
  simp only [ids, List.nodup_cons, List.nodup_append, List.mem_append, not_or] at hn
  obtain ⟨⟨hil, hir⟩, _, _, hd⟩ := hn
  have hnl : ∀ x ∈ ids l, x ∉ ids r := fun x hx hy => hd x hx x hy rfl
  constructor
  · intro x hx
    have hxi : x ≠ i := fun h => hil (h ▸ hx)
    rw [h x (by simp [ids, hx]) hxi, lctx_marks]
    simp only [marks, List.mem_append]
    constructor
    · rintro (h | h | h)
      · cases inner <;> simp [own] at h; exact absurd h hxi
      · exact h
      · split at h
        · exact absurd (marks_sub _ _ _ x h) (hnl x hx)
        · simp at h
    · intro h; exact .inr (.inl h)
  · intro x hx
    have hxi : x ≠ i := fun h => hir (h ▸ hx)
    rw [h x (by simp [ids, hx]) hxi, rctx_marks]
    simp only [marks, List.mem_append]
    constructor
    · rintro (h | h | h)
      · cases inner <;> simp [own] at h; exact absurd h hxi
      · split at h
        · exact absurd hx (hnl x (marks_sub _ _ _ x h))
        · simp at h
      · exact h
    · intro h; exact .inr (.inr h)

/-- the check which the visitor makes at a logical expression -/
theorem logical_step (always : Nat → Bool) (c : Ctx) (i : Nat) (op : LogicalOp) (l r : Node) (s : State)
    (hn : (ids (.logical i op l r)).Nodup) (hf : Fits c (.logical i op l r) s) :
    (checkConditional always false (.logical i op l r) false s).reports =
      (match c with | .fresh => judged always false false (.logical i op l r) | _ => []).reverse ++ s.reports ∧
    Fits (lctx op c.mode) l (checkConditional always false (.logical i op l r) false s) ∧
    Fits (rctx c.mode) r (checkConditional always false (.logical i op l r) false s) ∧
    Only (ids (.logical i op l r)) s (checkConditional always false (.logical i op l r) false s) := by
  cases c with
  | fresh =>
    have h := check_fresh always false false _ s hn (fits_fresh hf)
    have hf' := check_fits always false _ s hn (fits_fresh hf)
    have := logical_fits (b := false) (inner := false) hn (fun x hx _ => hf' x hx)
    exact ⟨h.1, this.1, this.2, check_only always false _ s hn (fits_fresh hf)⟩
  | done b =>
    have h := check_again always b false (.logical i op l r) s (fun x hx => (hf x (marks_sub _ _ _ x hx)).2 hx)
    rw [h]
    have := logical_fits (b := b) (inner := false) hn (fun x hx _ => hf x hx)
    exact ⟨by simp, this.1, this.2, fun _ _ => Iff.rfl⟩
  | spanned b =>
    have hfit := logical_fits (b := b) (inner := true) hn (fun x hx _ => hf x hx)
    have hii : i ∉ s.checked := by
      intro hi
      have := (hf i (by simp [ids])).1 hi
      simp only [ids, List.nodup_cons, List.mem_append, not_or] at hn
      simp only [Ctx.marks, marks, own, List.mem_append] at this
      rcases this with h | h | h
      · simp at h
      · split at h
        · exact hn.1.1 (marks_sub _ _ _ _ h)
        · simp at h
      · split at h
        · exact hn.1.2 (marks_sub _ _ _ _ h)
        · simp at h
    -- the state after marking `i`
    have hstep : checkConditional always false (.logical i op l r) false s = { s with checked := i :: s.checked } := by
      rw [checkConditional.eq_def]
      simp only [Bool.not_false, Bool.true_and, List.contains_eq_mem, hii, decide_false, Bool.false_eq_true, if_false]
      by_cases ho : op = .coalesce
      · simp [ho]
      · simp only [ho, ne_eq, not_false_eq_true, decide_true, Bool.true_or, if_true]
        apply check_again always b
        intro x hx
        have := (hfit.1 x (marks_sub _ _ _ x hx)).2 (by rw [lctx_marks]; simp [ho, hx])
        simp [this]
    rw [hstep]
    have hn' := hn
    simp only [ids, List.nodup_cons, List.mem_append, not_or] at hn'
    have hO : Only [i] s { s with checked := i :: s.checked } := by
      intro x hx; simp at hx; simp [hx]
    refine ⟨by simp, hfit.1.keep hO ?_, hfit.2.keep hO ?_, hO.mono ?_⟩
    · intro x hx h; simp at h; exact hn'.1.1 (h ▸ hx)
    · intro x hx h; simp at h; exact hn'.1.2 (h ▸ hx)
    · intro x hx; simp at hx; simp [ids, hx]

/-- the check which the visitor makes at another binary expression -/
theorem binary_step (always : Nat → Bool) (c : Ctx) (i : Nat) (l r : Node) (s : State)
    (hn : (ids (.binary i l r)).Nodup) (hf : Fits c (.binary i l r) s) :
    (checkConditional always false (.binary i l r) false s).reports =
      (match c with | .done _ => [] | _ => one always i).reverse ++ s.reports ∧
    Fits .fresh l (checkConditional always false (.binary i l r) false s) ∧
    Fits .fresh r (checkConditional always false (.binary i l r) false s) ∧
    Only (ids (.binary i l r)) s (checkConditional always false (.binary i l r) false s) := by
  have hn' := hn
  simp only [ids, List.nodup_cons, List.mem_append, not_or] at hn'
  have hfree : ∀ x, x ∈ ids l ∨ x ∈ ids r → x ∉ s.checked := by
    intro x hx hc
    have := (hf x (by simp [ids, hx])).1 hc
    have hxi : x ≠ i := by rintro rfl; exact hx.elim hn'.1.1 hn'.1.2
    cases c with
    | fresh => simp [Ctx.marks] at this
    | done b => simp [Ctx.marks, marks, own, hxi] at this
    | spanned b => simp [Ctx.marks, marks, own] at this
  have hO : Only [i] s (checkConditional always false (.binary i l r) false s) := by
    intro x hx; simp at hx
    rw [checkConditional.eq_def]; simp only [Bool.not_false, Bool.true_and]
    split
    · rfl
    · simp [leaf_eq, hx]
  have hd : ∀ x, x ∈ ids l ∨ x ∈ ids r → x ∉ [i] := by
    intro x hx h; simp at h; subst h; exact hx.elim hn'.1.1 hn'.1.2
  refine ⟨?_, fresh_fits fun x hx => ?_, fresh_fits fun x hx => ?_, hO.mono ?_⟩
  · rw [checkConditional.eq_def]; simp only [Bool.not_false, Bool.true_and]
    cases c with
    | fresh =>
      have : i ∉ s.checked := fits_fresh hf i (by simp [ids])
      simp [this, leaf_eq]
    | done b =>
      have : i ∈ s.checked := (hf i (by simp [ids])).2 (by simp [Ctx.marks, marks, own])
      simp [this]
    | spanned b =>
      have : i ∉ s.checked := fun h => by have := (hf i (by simp [ids])).1 h; simp [Ctx.marks, marks, own] at this
      simp [this, leaf_eq]
  · rw [hO x (hd x (.inl hx))]; exact hfree x (.inl hx)
  · rw [hO x (hd x (.inr hx))]; exact hfree x (.inr hx)
  · intro x hx; simp at hx; simp [ids, hx]

/-- the children of an assignment, `!`, test or other node carry no marks -/
theorem shallow_free {c : Ctx} {e : Node} {s : State} (hf : Fits c e s) (hm : ∀ x, x ≠ e.id → x ∉ c.marks e) :
    ∀ x ∈ ids e, x ≠ e.id → x ∉ s.checked := fun x hx hne hc => hm x hne ((hf x hx).1 hc)

mutual
theorem visit_out (always : Nat → Bool) (c : Ctx) : (e : Node) → (s : State) → (ids e).Nodup → Fits c e s →
    (visit always e s).reports = (out always c e).reverse ++ s.reports ∧ Only (ids e) s (visit always e s)
  | .logical i op l r, s, hn, hf => by
    obtain ⟨h1, h2, h3, h4⟩ := logical_step always c i op l r s hn hf
    have hn' := hn
    simp only [ids, List.nodup_cons, List.nodup_append, List.mem_append, not_or] at hn'
    obtain ⟨_, hnl, hnr, hd⟩ := hn'
    have hL := visit_out always _ l _ hnl h2
    have hR := visit_out always _ r _ hnr (h3.keep hL.2 fun x hx hy => hd x hy x hx rfl)
    simp only [visit, out]
    refine ⟨?_, (h4.trans (hL.2.mono ?_)).trans (hR.2.mono ?_)⟩
    · rw [hR.1, hL.1, h1]; simp
    · intro x hx; simp [ids, hx]
    · intro x hx; simp [ids, hx]
  | .binary i l r, s, hn, hf => by
    obtain ⟨h1, h2, h3, h4⟩ := binary_step always c i l r s hn hf
    have hn' := hn
    simp only [ids, List.nodup_cons, List.nodup_append, List.mem_append, not_or] at hn'
    obtain ⟨_, hnl, hnr, hd⟩ := hn'
    have hL := visit_out always _ l _ hnl h2
    have hR := visit_out always _ r _ hnr (h3.keep hL.2 fun x hx hy => hd x hy x hx rfl)
    simp only [visit, out]
    refine ⟨?_, (h4.trans (hL.2.mono ?_)).trans (hR.2.mono ?_)⟩
    · rw [hR.1, hL.1, h1]; simp
    · intro x hx; simp [ids, hx]
    · intro x hx; simp [ids, hx]
  | .assign i l r, s, hn, hf => by
    have hn' := hn
    simp only [ids, List.nodup_cons, List.nodup_append, List.mem_append, not_or] at hn'
    obtain ⟨⟨hil, hir⟩, hnl, hnr, hd⟩ := hn'
    have hc : checkConditional always false (.assign i l r) false s = s := by rw [checkConditional.eq_def]; simp
    have hfree := shallow_free hf (by intro x _; cases c <;> simp [Ctx.marks, marks])
    have hL := visit_out always .fresh l s hnl
      (fresh_fits fun x hx => hfree x (by simp [ids, hx]) (fun h => hil (by rw [h] at hx; exact hx)))
    have hR := visit_out always .fresh r _ hnr
      (fresh_fits fun x hx => by
        rw [hL.2 x fun hy => hd x hy x hx rfl]
        exact hfree x (by simp [ids, hx]) (fun h => hir (by rw [h] at hx; exact hx)))
    simp only [visit, out, hc]
    refine ⟨?_, (hL.2.mono ?_).trans (hR.2.mono ?_)⟩
    · rw [hR.1, hL.1]; simp
    · intro x hx; simp [ids, hx]
    · intro x hx; simp [ids, hx]
  | .paren i e, s, hn, hf => by
    simp only [ids, List.nodup_cons] at hn
    have h := visit_out always c.span e s hn.2 (by
      intro x hx
      have hxi : x ≠ i := fun h => hn.1 (h ▸ hx)
      rw [hf x (by simp [ids, hx])]
      cases c <;> simp [Ctx.marks, Ctx.span, marks, own, hxi])
    simp only [visit, out]
    exact ⟨h.1, h.2.mono fun x hx => by simp [ids, hx]⟩
  | .bang i e, s, hn, hf => by
    simp only [ids, List.nodup_cons] at hn
    have hfree := shallow_free hf (by intro x hx; cases c <;> simp [Ctx.marks, marks, own]; simpa [Node.id] using hx)
    have hfr : ∀ x ∈ ids e, x ∉ s.checked :=
      fun x hx => hfree x (by simp [ids, hx]) (fun h => hn.1 (by rw [h] at hx; exact hx))
    have hc := check_fresh always true false e s hn.2 hfr
    have h := visit_out always (.done true) e _ hn.2 (check_fits always true e s hn.2 hfr)
    simp only [visit, out]
    refine ⟨by rw [h.1, hc.1]; simp, ((check_only always true e s hn.2 hfr).trans h.2).mono fun x hx => by simp [ids, hx]⟩
  | .test i before cnd after, s, hn, hf => by
    simp only [ids, List.nodup_cons, List.nodup_append, List.mem_append, not_or] at hn
    obtain ⟨⟨hib, hic, hia⟩, hnb, ⟨hnc, hna, hdc⟩, hdb⟩ := hn
    have hfree := shallow_free hf (by intro x hx; cases c <;> simp [Ctx.marks, marks, own]; simpa [Node.id] using hx)
    have hfr : ∀ x ∈ ids cnd, x ∉ s.checked :=
      fun x hx => hfree x (by simp [ids, hx]) (fun h => hic (by rw [h] at hx; exact hx))
    have hc := check_fresh always true false cnd s hnc hfr
    have hco := check_only always true cnd s hnc hfr
    have hB := visits_outs always before _ hnb (fun x hx => by
      rw [hco x fun hy => hdb x hx x (.inl hy) rfl]
      exact hfree x (by simp [ids, hx]) (fun h => hib (by rw [h] at hx; exact hx)))
    have h := visit_out always (.done true) cnd _ hnc
      ((check_fits always true cnd s hnc hfr).keep hB.2 fun x hx hy => hdb x hy x (.inl hx) rfl)
    have hA := visits_outs always after _ hna (fun x hx => by
      rw [h.2 x fun hy => hdc x hy x hx rfl, hB.2 x fun hy => hdb x hy x (.inr hx) rfl, hco x fun hy => hdc x hy x hx rfl]
      exact hfree x (by simp [ids, hx]) (fun h => hia (by rw [h] at hx; exact hx)))
    simp only [visit, out]
    refine ⟨by rw [hA.1, h.1, hB.1, hc.1]; simp, ?_⟩
    refine (((hco.mono ?_).trans (hB.2.mono ?_)).trans (h.2.mono ?_)).trans (hA.2.mono ?_) <;>
      (intro x hx; simp [ids, hx])
  | .other i ks, s, hn, hf => by
    simp only [ids, List.nodup_cons] at hn
    have hfree := shallow_free hf (by intro x hx; cases c <;> simp [Ctx.marks, marks, own]; simpa [Node.id] using hx)
    have h := visits_outs always ks s hn.2 (fun x hx =>
      hfree x (by simp [ids, hx]) (fun h => hn.1 (by rw [h] at hx; exact hx)))
    simp only [visit, out]
    exact ⟨h.1, h.2.mono fun x hx => by simp [ids, hx]⟩
theorem visits_outs (always : Nat → Bool) : (ks : List Node) → (s : State) → (idsAll ks).Nodup →
    (∀ x ∈ idsAll ks, x ∉ s.checked) →
    (visits always ks s).reports = (outs always ks).reverse ++ s.reports ∧ Only (idsAll ks) s (visits always ks s)
  | [], s, _, _ => by simp [visits, outs]; exact fun _ _ => Iff.rfl
  | n :: rest, s, hn, hf => by
    simp only [idsAll, List.nodup_append] at hn
    obtain ⟨hnn, hnr, hd⟩ := hn
    have h := visit_out always .fresh n s hnn (fresh_fits fun x hx => hf x (by simp [idsAll, hx]))
    have hr := visits_outs always rest _ hnr (fun x hx => by
      rw [h.2 x fun hy => hd x hy x hx rfl]; exact hf x (by simp [idsAll, hx]))
    simp only [visits, outs]
    refine ⟨by rw [hr.1, h.1]; simp, (h.2.mono ?_).trans (hr.2.mono ?_)⟩ <;> (intro x hx; simp [idsAll, hx])
end

theorem conditionals_eq (always : Nat → Bool) (file : Node) (hn : (ids file).Nodup) :
    conditionals always file = out always .fresh file := by
  have := visit_out always .fresh file {} hn (fresh_fits (by simp))
  simp [conditionals, this.1]

end Tsgolint.MisusedPromises
