import Verif.Proof.OptionalCode

/-!
# C114: the optional chain that replaces an AND chain means what the AND chain meant
-/

namespace Tsgolint.OptionalChain

open Expr

variable {V : Type}

/-! ### Operands joined by `&&` -/

theorem conj_split (W : World V) (l : Expr) (r : V) : ∀ gs : List Expr, W.conjunction (gs ++ [l]) = some r →
    ((∀ g ∈ gs, ∃ v, W.value g = some v ∧ W.truthy v = true) ∧ W.value l = some r) ∨
    (∃ a f b, gs = a ++ f :: b ∧ (∀ g ∈ a, ∃ v, W.value g = some v ∧ W.truthy v = true) ∧ W.value f = some r ∧ W.truthy r = false)
  | [], h => .inl ⟨nofun, h⟩
  | g :: gs, h => by
    have hcons : W.conjunction (g :: gs ++ [l]) = match W.value g with
      | none => none
      | some v => if W.truthy v = true then W.conjunction (gs ++ [l]) else some v := by
      cases gs <;> rfl
    rw [hcons] at h
    cases hg : W.value g with
    | none => rw [hg] at h; cases h
    | some v =>
      rw [hg] at h
      simp only at h
      split at h
      · rename_i ht
        rcases conj_split W l r gs h with ⟨h1, h2⟩ | ⟨a, f, b, h1, h2, h3, h4⟩
        · refine .inl ⟨fun g' hg' => ?_, h2⟩
          rcases List.mem_cons.1 hg' with rfl | hg'
          · exact ⟨v, hg, ht⟩
          · exact h1 g' hg'
        · refine .inr ⟨g :: a, f, b, by rw [h1]; rfl, fun g' hg' => ?_, h3, h4⟩
          rcases List.mem_cons.1 hg' with rfl | hg'
          · exact ⟨v, hg, ht⟩
          · exact h2 g' hg'
      · rename_i ht
        cases h
        exact .inr ⟨[], g, gs, rfl, nofun, hg, by simpa using ht⟩

/-- the value of what a guard is about -/
theorem guard_target (W : World V) (hW : W.Lawful) (g : Expr) (hk : Guard (parse true g)) (r : V) (hr : W.value g = some r) :
    ∃ x, W.value (parse true g).target = some x ∧
      (W.truthy r = false → ((parse true g).kind = .plain → W.truthy r = true ∨ W.Nullish r) → W.Nullish x) := by
  unfold Guard at hk
  have hne : (parse true g).kind ≠ .comparison ∧ (parse true g).kind ≠ .invalid ∧ (parse true g).kind ≠ .typeof := by
    simp only [List.mem_cons, List.not_mem_nil, or_false] at hk
    rcases hk with h | h | h | h <;> rw [h] <;> exact ⟨nofun, nofun, nofun⟩
  rcases operand_tells W hW true g r hr hne.1 hne.2.1 with ⟨x, hx, hs⟩ | ⟨h, _⟩
  · by_cases hp : (parse true g).kind = .plain
    · refine ⟨r, ?_, fun hf h => ?_⟩
      · unfold Operand.target; rw [if_pos (by simpa using hp), parse_node]; exact hr
      · rcases h hp with h | h
        · rw [hf] at h; cases h
        · exact h
    · refine ⟨x, ?_, fun hf _ => ?_⟩
      · unfold Operand.target; rw [if_neg (by simpa using hp)]; exact hx
      · have hns : ¬ Says W true (parse true g).kind x := fun h => by rw [hs.2 h] at hf; cases hf
        simp only [List.mem_cons, List.not_mem_nil, or_false] at hk
        rcases hk with h | h | h | h
        · exact absurd h hp
        · rw [h] at hns; exact Classical.not_not.1 hns
        · rw [h] at hns; exact .inr (Classical.not_not.1 hns)
        · rw [h] at hns; exact .inl (Classical.not_not.1 hns)
  · exact absurd h hne.2.2

/-! ### Chains get longer -/

theorem linked_pairwise : ∀ c : List Operand, Linked c → c.Pairwise (fun p q => BeginsAs p.expr q.expr)
  | [], _ => List.Pairwise.nil
  | [p], _ => List.pairwise_singleton _ _
  | p :: q :: c, h => by
    have ht : Linked (q :: c) := fun a x y b hc => h (p :: a) x y b (by rw [hc]; rfl)
    have ih := linked_pairwise (q :: c) ht
    have hpq : BeginsAs p.expr q.expr := pre_of_follows (h [] p q c rfl)
    refine List.pairwise_cons.2 ⟨fun x hx => ?_, ih⟩
    rcases List.mem_cons.1 hx with rfl | hx
    · exact hpq
    · exact hpq.trans ((List.pairwise_cons.1 ih).1 x hx)

theorem target_pre {g e : Expr} (h : BeginsAs (parse true g).expr (parse true e).expr) : BeginsAs (parse true g).target (parse true e).target := by
  obtain ⟨h1, h2⟩ := target_spine g _ rfl
  obtain ⟨h3, h4⟩ := target_spine e _ rfl
  unfold BeginsAs
  rw [h1, h2, h3, h4]; exact h

theorem target_size (e : Expr) : (parse true e).target.size = (parse true e).expr.size := by
  rw [size_steps, size_steps, (target_spine e _ rfl).1]

/-! ### The lengths -/

theorem checked_mem (cs : List Operand) (x : Operand) (hx : x ∈ cs) (hk : x.kind ≠ .typeof) : x.expr.size ∈ checkedLengths cs := by
  unfold checkedLengths
  simp only [List.mem_eraseDups, List.mem_map, List.mem_filter]
  exact ⟨x, ⟨hx, by simp [hk]⟩, flat_length _ _⟩

theorem filled_mem (cs : List Operand) (last : Operand) (n : Nat) (h : n ∈ checkedLengths cs) : n ∈ filledLengths cs last := by
  unfold filledLengths
  split
  · rename_i he
    rw [beq_iff_eq] at he
    rw [he] at h
    exact List.mem_append.2 (.inl h)
  · exact h

/-! ### The first part -/

theorem withFirst_parts (g T : Expr) (hw : WrittenAlike (parse true g).target T) (hT : NoBang T) :
    ∃ r b, withFirst (parse true g) (flat false T) = rootLink r b :: (links false T).map Piece.link ∧ (rootLink r b).baseText = (rootOf false T).unbanged.text := by
  have hself : ∃ r b, flat false T = rootLink r b :: (links false T).map Piece.link ∧ (rootLink r b).baseText = (rootOf false T).unbanged.text :=
    ⟨_, _, flat_eq false T, root_base T hT⟩
  unfold withFirst
  cases hk : (parse true g).kind == .plain with
  | false => simpa using hself
  | true =>
    have ht : (parse true g).target = g := by unfold Operand.target; rw [if_pos hk, parse_node]
    rw [ht] at hw
    have hb := hw.2
    rw [parse_node, flat_eq false g]
    cases hl : links false g with
    | cons p ps => simpa using hself
    | nil =>
      rw [flat_eq false T]
      simp only [List.map_nil]
      split
      · refine ⟨_, _, rfl, ?_⟩
        rw [root_base g hw.1]
        simp only [Expr.words, List.cons_prefix_cons] at hb
        exact hb.1
      · exact ⟨_, _, rfl, root_base T hT⟩

/-! ### The code -/

/-- the operands of a chain -/
def parsed (gs : List Expr) (l : Expr) : List Operand := (gs ++ [l]).map (parse true)

theorem parsed_eq (gs : List Expr) (l : Expr) : parsed gs l = gs.map (parse true) ++ [parse true l] := by simp [parsed]

/-- what all endings have in common: the code made from the last operand -/
theorem andChain_code (W : World V) (C : List Operand) (gs : List Expr) (l g0 : Expr) (hg0 : gs.head? = some g0) (hlink : Linked (parsed gs l)) (hk : ∀ g ∈ gs, Guard (parse true g))
    (hl : ∃ xs, checks C = gs.map (parse true) ++ xs ∧ (xs = [] ∨ ∃ x ys, xs = x :: ys ∧ ∀ y ∈ ys, (parse true l).target.size ≤ y.target.size)) (hlen : links false (parse true l).target ≠ []) (hnb : NoBang (parse true l).target)
    (hw : ∀ g ∈ gs, WrittenAlike (parse true g).target (parse true l).target) (hcalm : Calm W (parse true l).target) (last : Operand) (code : Text)
    (hcode : andChain C (parse true g0) last (parse true l) gs.length = some code) :
    ∃ e', code = e'.text ∧ e'.bare = (parse true l).target.bare ∧
      (∀ x, (∀ g ∈ gs, W.value (parse true g).target ≠ none) → W.value (parse true l).target = some x → W.value e' = some x) ∧
      (∀ a f b x, gs = a ++ f :: b → (∀ g ∈ a, W.value (parse true g).target ≠ none) → W.value (parse true f).target = some x → W.Nullish x →
        ∃ y, W.Nullish y ∧ ((parse true f).target.size < (parse true l).target.size → y = W.undef) ∧ W.value e' = some y) := by
  obtain ⟨xs, hcs, hxs⟩ := hl
  have hne : gs.map (parse true) ++ xs ≠ [] := by cases gs <;> simp at hg0 ⊢
  have hpw := linked_pairwise _ hlink
  rw [parsed_eq, List.pairwise_append] at hpw
  have hpre : ∀ g ∈ gs, BeginsAs (parse true g).target (parse true l).target := fun g hg =>
    target_pre (hpw.2.2 _ (List.mem_map.2 ⟨g, hg, rfl⟩) _ (List.mem_singleton.2 rfl))
  have hg0m : g0 ∈ gs := List.mem_of_mem_head? (by rw [hg0]; rfl)
  obtain ⟨r, b, hparts, hbase⟩ := withFirst_parts g0 _ (hw g0 hg0m) hnb
  obtain ⟨c, b', ps', hadj, hc, hsteps, hflags⟩ := adjusted (gs.map (parse true)) xs (parse true l).target r b hxs hne hbase hnb hlen
    (by intro g hg; obtain ⟨g', hg', rfl⟩ := List.mem_map.1 hg; exact hw g' hg')
    (by intro g hg; obtain ⟨g', hg', rfl⟩ := List.mem_map.1 hg; exact (hpre g' hg').size)
    (by
      have := hpw.1
      rw [List.pairwise_map] at this ⊢
      exact this.imp fun h => (target_pre h).size)
  unfold andChain at hcode
  simp only at hcode
  rw [hcs, hparts, ← List.length_map (f := parse true) (as := gs), hadj, build_parts] at hcode
  split at hcode
  · cases hcode
  · rw [Option.some.injEq] at hcode
    generalize hL : filledLengths (gs.map (parse true) ++ xs) last = L at hcode
    generalize callOptional C (rootLink c b' :: ps'.map Piece.link) = co at hcode
    have hcv : W.eval c = W.eval (originOf (parse true l).target) := by
      rw [← rootOf_eval W false, ← unbanged_eval W (rootOf false _)]
      rcases hc with rfl | rfl
      · rfl
      · rw [World.eval]
    have hst : (withMarks L co 1 ps').map Piece.step = stepsOf (parse true l).target := by
      rw [withMarks_steps, hsteps, links_steps]
    have hm := chain_meaning W (gs.map fun g => (parse true g).target) (parse true l).target c (withMarks L co 1 ps') hcv hst ?_ ?_ ?_ hcalm
    · refine ⟨_, hcode.symm, ?_, ?_, ?_⟩
      · rw [bare_assemble _ (links false (parse true l).target) (by rw [hst, links_steps]) c (rootOf false (parse true l).target), bare_links]
        rcases hc with rfl | rfl
        · exact bare_unbanged _
        · rw [Expr.bare]; exact bare_unbanged _
      · intro x hg hx
        refine hm.1 x ?_ hx
        intro t ht
        obtain ⟨g, hgm, rfl⟩ := List.mem_map.1 ht
        exact hg g hgm
      · intro a f b x hG hg hx hn
        refine hm.2 (a.map fun g => (parse true g).target) _ (b.map fun g => (parse true g).target) x (by rw [hG]; simp) ?_ hx hn
        intro t ht
        obtain ⟨g, hgm, rfl⟩ := List.mem_map.1 ht
        exact hg g hgm
    · intro i e p n hfind hp hn ho
      obtain ⟨q, hq, h1, _⟩ := withMarks_get L co ps' 1 i n hn
      refine h1 ?_
      rw [List.map_map] at hfind
      rw [List.map_map] at hflags
      rw [hflags i e p q hfind hp hq]; exact ho
    · intro t ht n hn
      obtain ⟨g, hgm, rfl⟩ := List.mem_map.1 ht
      obtain ⟨q, hq, _, h2⟩ := withMarks_get L co ps' 1 _ n hn
      refine h2 ?_
      rw [List.contains_eq_mem, decide_eq_true_eq, ← hL]
      refine filled_mem _ _ _ ?_
      have := checked_mem (gs.map (parse true) ++ xs) (parse true g) (List.mem_append.2 (.inl (List.mem_map.2 ⟨g, hgm, rfl⟩))) (by
        have := hk g hgm
        unfold Guard at this
        intro h; rw [h] at this; simp at this)
      rw [← target_size, Expr.size, Nat.add_comm] at this
      exact this
    · intro t ht
      obtain ⟨g, hgm, rfl⟩ := List.mem_map.1 ht
      exact hpre g hgm

/-- **C114** An AND chain of guards (truth tests of values that are truthy, null or undefined, and comparisons with null or undefined) that ends in an access is replaced
by the same access with more question marks. It has the same value where the guards let through; where one stopped, both are falsy, and the new one is null or undefined -/
theorem and_meaning (W : World V) (hW : W.Lawful) (gs : List Expr) (l : Expr) (hne : gs ≠ []) (hlink : Linked (parsed gs l)) (hk : ∀ g ∈ gs, Guard (parse true g))
    (hl : (parse true l).kind = .plain) (hend : ending (parsed gs l).reverse = .plain) (hlen : links false l ≠ []) (hnb : NoBang l)
    (hw : ∀ g ∈ gs, WrittenAlike (parse true g).target l) (hcalm : Calm W l)
    (hplain : ∀ g ∈ gs, (parse true g).kind = .plain → ∀ v, W.value g = some v → W.truthy v = true ∨ W.Nullish v)
    (between code : Text) (hcode : andCode between (parsed gs l) = some code) :
    ∃ e', code = e'.text ∧ e'.bare = l.bare ∧ ∀ r, W.conjunction (gs ++ [l]) = some r → (W.value e' = some r ∨ (W.truthy r = false ∧ ∃ y, W.Nullish y ∧ W.value e' = some y)) := by
  have ht : (parse true l).target = l := by unfold Operand.target; rw [if_pos (by simpa using hl), parse_node]
  obtain ⟨g0, hg0⟩ : ∃ g0, gs.head? = some g0 := by cases gs with | nil => exact absurd rfl hne | cons g _ => exact ⟨g, rfl⟩
  have hchecks : checks (parsed gs l) = gs.map (parse true) ++ [] := by
    unfold checks
    rw [parsed_eq]
    simp [hl]
  have hac : andChain (parsed gs l) (parse true g0) (parse true l) (parse true l) gs.length = some code := by
    obtain ⟨init, s, rfl⟩ : ∃ init s, gs = init ++ [s] := by
      rcases List.eq_nil_or_concat gs with rfl | ⟨i, s, rfl⟩
      · exact absurd rfl hne
      · exact ⟨i, s, by simp⟩
    have hrev : (parsed (init ++ [s]) l).reverse = parse true l :: parse true s :: (init.map (parse true)).reverse := by simp [parsed]
    have hhead : ∃ rest, parsed (init ++ [s]) l = parse true g0 :: rest := by
      cases init with
      | nil => simp at hg0; subst hg0; exact ⟨_, rfl⟩
      | cons i init => simp at hg0; subst hg0; exact ⟨_, rfl⟩
    obtain ⟨rest, hrest⟩ := hhead
    unfold andCode at hcode
    rw [hrev] at hcode hend
    generalize hp : parsed (init ++ [s]) l = P at hcode hrest ⊢
    subst hrest
    simp only [hend, Ending.keepsLast, Bool.false_eq_true, if_false] at hcode
    have hlenP : (parse true g0 :: rest).length - 1 = (init ++ [s]).length := by rw [← hp]; simp [parsed]
    rw [hlenP] at hcode
    simpa using hcode
  obtain ⟨e', h1, h2, h3, h4⟩ := andChain_code W _ gs l g0 hg0 hlink hk ⟨[], hchecks, .inl rfl⟩ (by rw [ht]; exact hlen) (by rw [ht]; exact hnb) (by rw [ht]; exact hw)
    (by rw [ht]; exact hcalm) _ code hac
  rw [ht] at h2 h3 h4
  refine ⟨e', h1, h2, fun r hr => ?_⟩
  have hval : ∀ g ∈ gs, (∃ v, W.value g = some v ∧ W.truthy v = true) → W.value (parse true g).target ≠ none := by
    intro g hg ⟨v, hv, _⟩
    obtain ⟨x, hx, _⟩ := guard_target W hW g (hk g hg) v hv
    rw [hx]; nofun
  rcases conj_split W l r gs hr with ⟨hg, hlr⟩ | ⟨a, f, b, hG, hg, hf, hfalse⟩
  · exact .inl (h3 r (fun g hgm => hval g hgm (hg g hgm)) hlr)
  · have hfm : f ∈ gs := by rw [hG]; simp
    obtain ⟨x, hx, hnull⟩ := guard_target W hW f (hk f hfm) r hf
    obtain ⟨y, hy, _, hye⟩ := h4 a f b x hG (fun g hgm => hval g (by rw [hG]; simp [hgm]) (hg g hgm)) hx (hnull hfalse fun hp => hplain f hfm hp r hf)
    exact .inr ⟨hfalse, y, hy, hye⟩

/-! ### A comparison at the end -/

theorem expr_side (a : Bool) (lhs : Expr) (o : Op) (t : Text) (rhs : Expr) (hi : (parse a (.binary lhs o t rhs)).kind ≠ .invalid) (ht : (parse a (.binary lhs o t rhs)).kind ≠ .typeof) :
    (parse a (.binary lhs o t rhs)).expr = if onRight a lhs o rhs then rhs.skip else lhs.skip := by
  unfold parse at hi ht ⊢
  split at hi
  · exact absurd rfl hi
  rename_i h1
  rw [if_neg h1] at ht ⊢
  split at hi
  · exact absurd rfl hi
  rename_i h2
  rw [if_neg h2] at ht ⊢
  simp only [Expr.unwrap] at hi ht ⊢
  unfold parseBinary at hi ht ⊢
  unfold onRight
  cases hn : nullishOperand a lhs o rhs with
  | none =>
    rw [hn] at hi ht
    simp only at hi ht ⊢
    unfold otherComparison at hi ⊢
    cases hrel : relational o
    · cases hl : isAccess (skip lhs) <;> cases hr : isAccess (skip rhs) <;> simp_all
    · exact absurd (by simp [hrel]) hi
  | some kx =>
    obtain ⟨k, x⟩ := kx
    rw [hn] at hi ht
    simp only at hi ht ⊢
    unfold nullishOperand at hn
    unfold sides at hn
    cases h3 : isNullishLit rhs || isStringLit rhs with
    | true =>
      rw [h3] at hn
      simp only [if_true] at hn
      cases h4 : typeofCheck a o lhs.skip rhs with
      | some e => rw [h4] at hn; simp only [Option.some.injEq, Prod.mk.injEq] at hn; exact absurd hn.1.symm ht
      | none =>
        rw [h4] at hn
        cases h5 : (if a then andCheck o lhs.skip rhs else orCheck o lhs.skip rhs) with
        | none => simp [h5] at hn
        | some k' => simp [h5] at hn; simp [hn.2]
    | false =>
      rw [h3] at hn
      simp only [Bool.false_eq_true, if_false] at hn
      cases h6 : isNullishLit lhs || isStringLit lhs with
      | false => rw [h6] at hn; simp at hn
      | true =>
        rw [h6] at hn
        simp only [if_true] at hn
        cases h4 : typeofCheck a o rhs.skip lhs with
        | some e => rw [h4] at hn; simp only [Option.some.injEq, Prod.mk.injEq] at hn; exact absurd hn.1.symm ht
        | none =>
          rw [h4] at hn
          cases h5 : (if a then andCheck o rhs.skip lhs else orCheck o rhs.skip lhs) with
          | none => simp [h5] at hn
          | some k' => simp [h5] at hn; simp [hn.2]

theorem skip_bare : ∀ e : Expr, isParen e = false → e.skip = e
  | .paren _, h => by cases h
  | .ident _ _, _ | .keyword _ _, _ | .literal _ _ _, _ | .prop _ _ _, _ | .elem _ _ _, _ | .call _ _ _ _, _ | .nonNull _, _ | .asType _ _, _ | .assertion _ _, _
  | .binary _ _ _ _, _ | .unary _ _, _ | .typeof _, _ | .template _ _ _, _ | .await _, _ | .metaProp _ _ _, _ | .other _ _ _, _ => rfl

theorem opening_bare : ∀ e : Expr, isParen e = false → opening e = []
  | .paren _, h => by cases h
  | .ident _ _, _ | .keyword _ _, _ | .literal _ _ _, _ | .prop _ _ _, _ | .elem _ _ _, _ | .call _ _ _ _, _ | .nonNull _, _ | .asType _ _, _ | .assertion _ _, _
  | .binary _ _ _ _, _ | .unary _ _, _ | .typeof _, _ | .template _ _ _, _ | .await _, _ | .metaProp _ _ _, _ | .other _ _ _, _ => rfl

/-- **C114** A comparison at the end is kept: the new expression compares the optional chain in its place. It has the same value where the guards let through; where
one stopped, both are falsy, if undefined compared with the other side is -/
theorem comparison_meaning (W : World V) (hW : W.Lawful) (gs : List Expr) (lhs rhs : Expr) (o : Op) (t : Text) (ho : o.eager) (hne : gs ≠ [])
    (hlink : Linked (parsed gs (.binary lhs o t rhs))) (hk : ∀ g ∈ gs, Guard (parse true g))
    (hl : (parse true (.binary lhs o t rhs)).kind ∈ [.comparison, .notNull, .notUndef, .notBoth]) (hend : ending (parsed gs (.binary lhs o t rhs)).reverse = .comparison)
    (x y : Expr) (hxy : (x, y) = if onRight true lhs o rhs then (rhs, lhs) else (lhs, rhs)) (hx : isParen x = false)
    (hlen : links false x ≠ []) (hnb : NoBang x) (hw : ∀ g ∈ gs, WrittenAlike (parse true g).target x) (hlt : ∀ g ∈ gs, (parse true g).target.size < x.size)
    (hcalm : Calm W x) (hy : W.value y ≠ none)
    (hsafe : ∀ b, W.value y = some b → ∃ z, (if onRight true lhs o rhs then W.op o b W.undef else W.op o W.undef b) = some z ∧ W.truthy z = false)
    (hplain : ∀ g ∈ gs, (parse true g).kind = .plain → ∀ v, W.value g = some v → W.truthy v = true ∨ W.Nullish v)
    (between code : Text) (hcode : andCode between (parsed gs (.binary lhs o t rhs)) = some code) :
    ∃ e', code = e'.text ∧ e'.bare = (Expr.binary lhs o t rhs).bare ∧ ∀ r, W.conjunction (gs ++ [.binary lhs o t rhs]) = some r → (W.value e' = some r ∨ (W.truthy r = false ∧ ∃ z, W.truthy z = false ∧ W.value e' = some z)) := by
  generalize hlE : Expr.binary lhs o t rhs = l at *
  have hki : (parse true l).kind ≠ .invalid ∧ (parse true l).kind ≠ .typeof ∧ (parse true l).kind ≠ .plain ∧ (parse true l).kind ≠ .not := by
    simp only [List.mem_cons, List.not_mem_nil, or_false] at hl
    rcases hl with h | h | h | h <;> rw [h] <;> exact ⟨nofun, nofun, nofun, nofun⟩
  have ht : (parse true l).target = x := by
    unfold Operand.target; rw [if_neg (by simpa using hki.2.2.1)]
    subst hlE
    rw [expr_side true lhs o t rhs hki.1 hki.2.1]
    cases hR : onRight true lhs o rhs <;> rw [hR] at hxy <;> simp only [Bool.false_eq_true, if_true, if_false, Prod.mk.injEq] at hxy ⊢ <;> rw [← hxy.1] <;> exact skip_bare x hx
  obtain ⟨g0, hg0⟩ : ∃ g0, gs.head? = some g0 := by cases gs with | nil => exact absurd rfl hne | cons g _ => exact ⟨g, rfl⟩
  have hchecks : checks (parsed gs l) = gs.map (parse true) ++ [parse true l] := by
    unfold checks
    rw [parsed_eq]
    simp [hki.2.2.1, hki.2.2.2]
  have hac : ∃ inner, andChain (parsed gs l) (parse true g0) (parse true l) (parse true l) gs.length = some inner ∧ code = withComparison false l inner := by
    obtain ⟨init, s, rfl⟩ : ∃ init s, gs = init ++ [s] := by
      rcases List.eq_nil_or_concat gs with rfl | ⟨i, s, rfl⟩
      · exact absurd rfl hne
      · exact ⟨i, s, by simp⟩
    have hrev : (parsed (init ++ [s]) l).reverse = parse true l :: parse true s :: (init.map (parse true)).reverse := by simp [parsed]
    have hhead : ∃ rest, parsed (init ++ [s]) l = parse true g0 :: rest := by
      cases init with
      | nil => simp at hg0; subst hg0; exact ⟨_, rfl⟩
      | cons i init => simp at hg0; subst hg0; exact ⟨_, rfl⟩
    obtain ⟨rest, hrest⟩ := hhead
    unfold andCode at hcode
    rw [hrev] at hcode hend
    generalize hp : parsed (init ++ [s]) l = P at hcode hrest ⊢
    subst hrest
    simp only [hend, Ending.keepsLast, Bool.false_eq_true, if_false, parse_node] at hcode
    have hlenP : (parse true g0 :: rest).length - 1 = (init ++ [s]).length := by rw [← hp]; simp [parsed]
    rw [hlenP] at hcode
    obtain ⟨inner, h1, h2⟩ := Option.map_eq_some_iff.1 hcode
    exact ⟨inner, h1, h2.symm⟩
  obtain ⟨inner, hac, hcode2⟩ := hac
  obtain ⟨e', h1, h2, h3, h4⟩ := andChain_code W _ gs l g0 hg0 hlink hk ⟨[parse true l], hchecks, .inr ⟨_, [], rfl, nofun⟩⟩ (by rw [ht]; exact hlen) (by rw [ht]; exact hnb) (by rw [ht]; exact hw)
    (by rw [ht]; exact hcalm) _ inner hac
  rw [ht] at h2 h3 h4
  have hval : ∀ g ∈ gs, (∃ v, W.value g = some v ∧ W.truthy v = true) → W.value (parse true g).target ≠ none := by
    intro g hg ⟨v, hv, _⟩
    obtain ⟨x, hx, _⟩ := guard_target W hW g (hk g hg) v hv
    rw [hx]; nofun
  have hstop : ∀ r, ∀ a f b, gs = a ++ f :: b → (∀ g ∈ a, ∃ v, W.value g = some v ∧ W.truthy v = true) → W.value f = some r → W.truthy r = false → W.value e' = some W.undef := by
    intro r a f b hG hg hf hfalse
    have hfm : f ∈ gs := by rw [hG]; simp
    obtain ⟨x', hx', hnull⟩ := guard_target W hW f (hk f hfm) r hf
    obtain ⟨y', _, hu, hye⟩ := h4 a f b x' hG (fun g hgm => hval g (by rw [hG]; simp [hgm]) (hg g hgm)) hx' (hnull hfalse fun hp => hplain f hfm hp r hf)
    rw [hye, hu (hlt f hfm)]
  obtain ⟨b, hb⟩ := Option.ne_none_iff_exists'.1 hy
  obtain ⟨z, hz, hzf⟩ := hsafe b hb
  subst hlE
  cases hR : onRight true lhs o rhs with
  | false =>
    rw [hR] at hxy hz
    simp only [Bool.false_eq_true, if_false, Prod.mk.injEq] at hxy hz
    obtain ⟨rfl, rfl⟩ := hxy
    refine ⟨.binary e' o t y, ?_, ?_, fun r hr => ?_⟩
    · rw [hcode2, text_binary, h1]; simp only [withComparison, hR, hx, Bool.false_eq_true, if_false]
    · simp only [Expr.bare, h2]
    · rcases conj_split W _ r gs hr with ⟨hg, hlr⟩ | ⟨a, f, b', hG, hg, hf, hfalse⟩
      · left
        obtain ⟨va, vb, hva, hvb, hop⟩ := (value_binary W _ _ _ _ ho _).1 hlr
        exact (value_binary W _ _ _ _ ho _).2 ⟨va, vb, h3 va (fun g hgm => hval g hgm (hg g hgm)) hva, hvb, hop⟩
      · right
        exact ⟨hfalse, z, hzf, (value_binary W _ _ _ _ ho _).2 ⟨_, b, hstop r a f b' hG hg hf hfalse, hb, hz⟩⟩
  | true =>
    rw [hR] at hxy hz
    simp only [if_true, Prod.mk.injEq] at hxy hz
    obtain ⟨rfl, rfl⟩ := hxy
    refine ⟨.binary y o t e', ?_, ?_, fun r hr => ?_⟩
    · rw [hcode2, text_binary, h1]; simp only [withComparison, hR, opening_bare x hx, Bool.false_eq_true, if_true, if_false, List.append_nil]
    · simp only [Expr.bare, h2]
    · rcases conj_split W _ r gs hr with ⟨hg, hlr⟩ | ⟨a, f, b', hG, hg, hf, hfalse⟩
      · left
        obtain ⟨va, vb, hva, hvb, hop⟩ := (value_binary W _ _ _ _ ho _).1 hlr
        exact (value_binary W _ _ _ _ ho _).2 ⟨va, vb, hva, h3 vb (fun g hgm => hval g hgm (hg g hgm)) hvb, hop⟩
      · right
        exact ⟨hfalse, z, hzf, (value_binary W _ _ _ _ ho _).2 ⟨b, _, hb, hstop r a f b' hG hg hf hfalse, hz⟩⟩

/-! ### Where it does not mean the same -/

/-- `x.y` with the names given -/
def sampleAccess (a b : String) : Expr := sampleProp (sampleVar a) b

def sampleZero : Expr := .literal 0 .number ['0']

/-- `(x.y === 0)` -/
def sampleCompared : Expr := .paren (.binary (sampleAccess "x" "y") .seq " === ".toList sampleZero)

/-- **C114** A comparison in parentheses at the end is lost: `x && (x.y === 0)` becomes `x?.y`, which can be truthy where the comparison is false -/
theorem comparison_lost : andCode [] (parsed [sampleVar "x"] sampleCompared) = some (Expr.prop (sampleVar "x") true ['y']).text ∧
    lawfulWorld.conjunction [sampleVar "x", sampleCompared] = some .fls ∧ lawfulWorld.value (Expr.prop (sampleVar "x") true ['y']) = some (.num 2) := by
  refine ⟨by decide +kernel, ?_, ?_⟩
  · have h1 : lawfulWorld.value (sampleVar "x") = some (.num 3) := by rw [World.value, sampleVar, World.eval]; rfl
    have h2 : lawfulWorld.value sampleCompared = some .fls := by
      rw [sampleCompared, value_paren]
      refine (value_binary _ _ _ _ _ ⟨by decide, by decide, by decide⟩ _).2 ⟨.num 2, .num 1, ?_, ?_, rfl⟩
      · rw [World.value, sampleAccess, sampleProp, sampleVar, World.eval, World.eval]
        have : lawfulWorld.var "x".toList = some (.num 3) := rfl
        rw [this]; simp only [Res.after, Res.link]
        rw [if_neg (by simp)]; rfl
      · rw [World.value, sampleZero, World.eval]; rfl
    simp only [World.conjunction, h1, h2]; rfl
  · rw [World.value, sampleVar, World.eval, World.eval]
    simp only [Res.link]
    have : lawfulWorld.var "x".toList = some (.num 3) := rfl
    rw [this]; simp only [Res.after]
    rw [if_neg (by simp [nullish_bool, Val.nullish])]; rfl

/-- **C114** Parentheses around the compared access leave an opening one without its closing one, and on the left the comparison is lost as well -/
theorem parentheses_broken :
    andCode [] (parsed [sampleVar "x"] (.binary (.paren (sampleAccess "x" "y")) .seq " === ".toList sampleZero)) = some "(x?.y".toList ∧
    andCode [] (parsed [sampleVar "x"] (.binary sampleZero .seq " === ".toList (.paren (sampleAccess "x" "y")))) = some "0 === (x?.y".toList := by
  decide +kernel

/-- `typeof u !== 'undefined'` -/
def sampleTypeof : Expr := .binary (.typeof (sampleVar "u")) .sne " !== ".toList (.literal 0 .string "undefined".toList)

/-- **C114** A `typeof` check gives no question mark if there are other checks: `typeof u !== 'undefined' && u.a && u.a.b` becomes `u.a?.b`, which throws where `u` is
undefined -/
theorem typeof_guard_lost : andCode [] (parsed [sampleTypeof, sampleAccess "u" "a"] (sampleProp (sampleAccess "u" "a") "b")) =
      some (Expr.prop (sampleAccess "u" "a") true ['b']).text ∧
    lawfulWorld.conjunction [sampleTypeof, sampleAccess "u" "a", sampleProp (sampleAccess "u" "a") "b"] = some .fls ∧
    lawfulWorld.value (Expr.prop (sampleAccess "u" "a") true ['b']) = none := by
  have hu : lawfulWorld.eval (sampleVar "u") = .val .undef .undef := by rw [sampleVar, World.eval]; rfl
  refine ⟨by decide +kernel, ?_, ?_⟩
  · have h2 : lawfulWorld.value sampleTypeof = some .fls := by
      refine (value_binary _ _ _ _ _ ⟨by decide, by decide, by decide⟩ _).2 ⟨.str "undefined".toList, .str "undefined".toList, ?_, rfl, rfl⟩
      have hn : ¬ Expr.unresolvable lawfulWorld (sampleVar "u") := by
        rintro ⟨p, n, h, h'⟩
        simp only [sampleVar, Expr.unwrap, Expr.ident.injEq] at h
        rw [← h.2] at h'; exact absurd h' (by decide)
      rw [World.value, World.eval, if_neg hn, hu]; rfl
    simp only [World.conjunction, h2]; rfl
  · rw [World.value, World.eval, sampleAccess, sampleProp, World.eval, hu]
    simp only [Res.link]
    rw [if_neg (by simp)]; rfl

/-- **C114** If only the root is checked, question marks are put at all links up to the last access, not only after the root: `x && x.a.b.c` becomes `x?.a?.b?.c` -/
theorem gaps_filled : andCode [] (parsed [sampleVar "x"] (sampleProp (sampleProp (sampleAccess "x" "a") "b") "c")) = some "x?.a?.b?.c".toList ∧
    andCode [] (parsed [sampleVar "x"] (.call (sampleProp (sampleAccess "x" "a") "b") false [] [])) = some "x?.a?.b()".toList ∧
    andCode [] (parsed [sampleVar "x", sampleAccess "x" "a"] (sampleProp (sampleProp (sampleAccess "x" "a") "b") "c")) = some "x?.a?.b.c".toList := by
  decide +kernel

/-! ### Examples -/

def sampleLast : Expr := sampleProp (sampleAccess "x" "a") "b"
/-- `x != null && x.a && x.a.b` -/
def sampleGuards : List Expr := [.binary (sampleVar "x") .ne " != ".toList sampleNull, sampleAccess "x" "a"]

example : Linked (parsed sampleGuards sampleLast) := by
  intro a p q b h
  have hf : ∀ i j : Nat, i + 1 = j → j < 3 → ∀ p q, (parsed sampleGuards sampleLast)[i]? = some p → (parsed sampleGuards sampleLast)[j]? = some q → Follows p q := by
    intro i j hij hj p q hp hq
    match i, j, hij with
    | 0, 1, _ => cases hp; cases hq; exact .inr (by decide +kernel)
    | 1, 2, _ => cases hp; cases hq; exact .inr (by decide +kernel)
    | n + 2, _, rfl => omega
  have hlen := congrArg List.length h
  simp [parsed, sampleGuards] at hlen
  refine hf a.length (a.length + 1) rfl (by omega) p q ?_ ?_
  · rw [h]; simp
  · rw [h]; simp
example : ∀ g ∈ sampleGuards, Guard (parse true g) := by
  intro g hg
  simp only [sampleGuards, List.mem_cons, List.not_mem_nil, or_false] at hg
  rcases hg with rfl | rfl
  · exact List.mem_cons_of_mem _ List.mem_cons_self
  · exact List.mem_cons_self
example : (parse true sampleLast).kind = .plain ∧ ending (parsed sampleGuards sampleLast).reverse = .plain ∧ (links false sampleLast).length = 2 := by decide +kernel
example : NoBang sampleLast ∧ WrittenAlike (sampleVar "x") sampleLast ∧ WrittenAlike (sampleAccess "x" "a") sampleLast := by
  unfold WrittenAlike NoBang
  refine ⟨by decide +kernel, ⟨by decide +kernel, ?_⟩, by decide +kernel, ?_⟩
  · exact ⟨[['a'], ['b']], by decide +kernel⟩
  · exact ⟨[['b']], by decide +kernel⟩
example : Calm lawfulWorld sampleLast := by
  refine ⟨?_, ?_⟩
  · have : rootOf false sampleLast = sampleVar "x" := rfl
    rw [this, World.value, sampleVar, World.eval]; simp only [lawfulWorld, sampleVars]; decide
  · intro p hp
    have : links false sampleLast = [⟨.prop ['a'], false, false⟩, ⟨.prop ['b'], false, false⟩] := rfl
    rw [this] at hp
    simp only [List.mem_cons, List.not_mem_nil, or_false] at hp
    rcases hp with rfl | rfl <;> trivial
example : andCode " && ".toList (parsed sampleGuards sampleLast) = some "x?.a?.b".toList := by decide +kernel
/-- `x != null && x.a === 0`, and the other way round -/
example : andCode " && ".toList (parsed [.binary (sampleVar "x") .ne " != ".toList sampleNull] (.binary (sampleAccess "x" "a") .seq " === ".toList sampleZero)) =
      some "x?.a === 0".toList ∧
    andCode " && ".toList (parsed [.binary (sampleVar "x") .ne " != ".toList sampleNull] (.binary sampleZero .seq " === ".toList (sampleAccess "x" "a"))) =
      some "0 === x?.a".toList := by decide +kernel
example : (parse true (.binary (sampleAccess "x" "a") .seq " === ".toList sampleZero)).kind = .comparison ∧
    ending (parsed [sampleVar "x"] (.binary (sampleAccess "x" "a") .seq " === ".toList sampleZero)).reverse = .comparison ∧
    onRight true (sampleAccess "x" "a") .seq sampleZero = false ∧ isParen (sampleAccess "x" "a") = false := by decide +kernel
example : (parse true (sampleVar "x")).target.size < (sampleAccess "x" "a").size ∧ Op.eager .seq := ⟨by decide +kernel, by decide, by decide, by decide⟩
example : ∀ b, lawfulWorld.value sampleZero = some b → ∃ z, lawfulWorld.op .seq lawfulWorld.undef b = some z ∧ lawfulWorld.truthy z = false := by
  intro b hb
  have : lawfulWorld.value sampleZero = some (.num 1) := by rw [World.value, sampleZero, World.eval]; rfl
  rw [this] at hb; cases hb
  exact ⟨.fls, rfl, rfl⟩
/-- the other endings -/
example : andCode " && ".toList (parsed [sampleVar "x", .binary (sampleAccess "x" "a") .sne " !== ".toList sampleNull]
      (.binary (sampleAccess "x" "a") .sne " !== ".toList (sampleVar "undefined"))) = some "x?.a !== null && x.a !== undefined".toList ∧
    andCode " && ".toList (parsed [.binary (sampleVar "x") .ne " != ".toList sampleNull, .binary (sampleAccess "x" "a") .sne " !== ".toList (sampleVar "undefined")]
      (sampleProp (sampleAccess "x" "a") "b")) = some "x?.a !== undefined && x.a.b".toList := by decide +kernel

end Tsgolint.OptionalChain
