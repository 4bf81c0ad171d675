import Verif.Proof.OptionalRuns

/-!
# Which question marks the new code gets: the lemmas for C114
-/

namespace Tsgolint.OptionalChain

open Expr

variable {V : Type}

/-! ### The shortest check that reaches a part -/

theorem shortest_best (i : Nat) : ∀ (ops : List (List Link)) (b : List Link), (∀ op ∈ ops, b.length ≤ op.length) → shortest i ops (some b) = some b
  | [], b, _ => rfl
  | op :: ops, b, h => by
    have hb := h op List.mem_cons_self
    rw [shortest]
    have : (decide (i < op.length) && decide (op.length < b.length)) = false := by simp; omega
    simp only [this, Bool.false_eq_true, if_false]
    exact shortest_best i ops b (fun o ho => h o (List.mem_cons_of_mem _ ho))

/-- of checks that get longer, the shortest is the first -/
theorem shortest_sorted (i : Nat) : ∀ ops : List (List Link), ops.Pairwise (fun a b => a.length ≤ b.length) → shortest i ops none = ops.find? (fun op => decide (i < op.length))
  | [], _ => rfl
  | op :: ops, h => by
    rw [List.pairwise_cons] at h
    rw [shortest, List.find?_cons]
    cases hi : decide (i < op.length) with
    | true => simp only [Bool.and_true, if_true]; exact shortest_best i ops op h.1
    | false => simp only [Bool.false_and, Bool.false_eq_true, if_false]; exact shortest_sorted i ops h.2

/-! ### Taking over question marks -/

/-- parts that are a root and links -/
def Formed (op : List Link) : Prop := ∃ c b, ∃ ps : List Piece, op = rootLink c b :: ps.map Piece.link

theorem flat_formed (b : Bool) (e : Expr) : Formed (flat b e) := ⟨_, _, _, flat_eq b e⟩

theorem link_optional (p : Piece) : p.link.optional = p.opt := by obtain ⟨s, o, b⟩ := p; cases s <;> rfl
theorem link_bang (p : Piece) : p.link.bang = p.bang := by obtain ⟨s, o, b⟩ := p; cases s <;> rfl

theorem base_bang (p : Link) (t : Text) (hb : p.bang = true) (ht : p.text = t ++ "!".toList) : p.baseText = t := by
  unfold Link.baseText; rw [hb, ht]; simp

theorem link_unbang (p : Piece) : p.link.unbang = { p with bang := false }.link := by
  unfold Link.unbang
  rw [link_bang]
  cases hb : p.bang with
  | false => 
    have : { p with bang := false } = p := by rw [← hb]
    rw [this]; simp
  | true =>
    obtain ⟨s, o, b⟩ := p
    cases hb
    cases s <;> (simp only [Piece.link, if_true, Bool.false_eq_true, if_false, List.append_nil]; rw [base_bang _ _ rfl rfl])

theorem link_takeOver (p q : Piece) :
    (let r : Link := { p.link with optional := q.link.optional }
     if q.link.bang then { r with text := if r.bang then r.text else r.text ++ "!".toList, bang := true } else r) = { p with opt := q.opt, bang := p.bang || q.bang }.link := by
  obtain ⟨s, o, b⟩ := p
  obtain ⟨s', o', b'⟩ := q
  simp only [link_optional, link_bang]
  cases s <;> cases b <;> cases b' <;> simp [Piece.link]

theorem takeOver_links (ops : List (List Link)) (hf : ∀ op ∈ ops, Formed op) (i : Nat) (hi : i ≠ 0) (p : Piece) :
    ∃ n : Piece, takeOver ops i p.link = n.link ∧ n.step = p.step ∧ (shortest i ops none = none → n.opt = p.opt) ∧
      (∀ op q, shortest i ops none = some op → op[i]? = some q → op ∈ ops → n.opt = q.optional) := by
  unfold takeOver
  cases hs : shortest i ops none with
  | none => exact ⟨p, rfl, rfl, fun _ => rfl, nofun⟩
  | some op =>
    simp only
    cases ho : op[i]? with
    | none => exact ⟨p, rfl, rfl, nofun, fun op' q h h' _ => by cases h; rw [ho] at h'; cases h'⟩
    | some q =>
      by_cases hm : op ∈ ops
      · obtain ⟨c, b, ps, rfl⟩ := hf op hm
        cases i with
        | zero => exact absurd rfl hi
        | succ i =>
          simp only [List.getElem?_cons_succ, List.getElem?_map, Option.map_eq_some_iff] at ho
          obtain ⟨q', hq', rfl⟩ := ho
          refine ⟨{ p with opt := q'.opt, bang := p.bang || q'.bang }, ?_, rfl, nofun, ?_⟩
          · exact link_takeOver p q'
          · intro op' q h h' _
            cases h
            simp only [List.getElem?_cons_succ, List.getElem?_map, hq', Option.map_some, Option.some.injEq] at h'
            rw [← h', link_optional]
      · refine ⟨{ p with opt := q.optional, bang := p.bang || q.bang }, ?_, rfl, nofun, fun op' q' h h' hm' => by cases h; exact absurd hm' hm⟩
        obtain ⟨s, o, b⟩ := p
        obtain ⟨tx, op', d, pr, ic, b'⟩ := q
        cases s <;> cases b <;> cases b' <;> simp [Piece.link]

theorem shortest_mem (i : Nat) : ∀ (ops : List (List Link)) (b : Option (List Link)) (op : List Link), shortest i ops b = some op → op ∈ ops ∨ b = some op
  | [], _, _, h => .inr h
  | o :: ops, b, op, h => by
    unfold shortest at h
    rcases shortest_mem i ops _ op h with h1 | h1
    · exact .inl (List.mem_cons_of_mem _ h1)
    · have key : ∀ c : Bool, (if c = true then some o else b) = some op → o = op ∨ b = some op := by intro c hc; cases c <;> simp_all
      rcases key _ h1 with rfl | h2
      · exact .inl List.mem_cons_self
      · exact .inr h2

theorem takeOverAll_links (ops : List (List Link)) (hf : ∀ op ∈ ops, Formed op) : ∀ (ps : List Piece) (i : Nat), i ≠ 0 →
    ∃ ps' : List Piece, takeOverAll ops i (ps.map Piece.link) = ps'.map Piece.link ∧ ps'.map Piece.step = ps.map Piece.step ∧
      ∀ j n, ps'[j]? = some n → (∀ p, shortest (i + j) ops none = none → ps[j]? = some p → n.opt = p.opt) ∧
        (∀ op q, shortest (i + j) ops none = some op → op[i + j]? = some q → n.opt = q.optional)
  | [], _, _ => ⟨[], rfl, rfl, nofun⟩
  | p :: ps, i, hi => by
    obtain ⟨n, h1, h2, h3, h4⟩ := takeOver_links ops hf i hi p
    obtain ⟨ps', g1, g2, g3⟩ := takeOverAll_links ops hf ps (i + 1) (by omega)
    refine ⟨n :: ps', ?_, ?_, ?_⟩
    · rw [List.map_cons, takeOverAll, h1, g1, List.map_cons]
    · rw [List.map_cons, List.map_cons, h2, g2]
    · intro j n' hn'
      cases j with
      | zero =>
        simp only [List.getElem?_cons_zero, Option.some.injEq] at hn'
        subst hn'
        refine ⟨fun p' hs hp => ?_, fun op q hs hq => h4 op q hs hq ((shortest_mem _ _ _ _ hs).resolve_right nofun)⟩
        simp only [List.getElem?_cons_zero, Option.some.injEq] at hp
        rw [← hp]; exact h3 hs
      | succ j =>
        simp only [List.getElem?_cons_succ] at hn' ⊢
        have h := g3 j n' hn'
        rw [show i + 1 + j = i + (j + 1) from by omega] at h
        exact h

/-- the root: the text, with or without `!` -/
theorem takeOver_root (ops : List (List Link)) (hf : ∀ op ∈ ops, Formed op) (c : Expr) :
    ∃ c' b, takeOver ops 0 (rootLink c false) = rootLink c' b ∧ (c' = c ∨ c' = .nonNull c) := by
  unfold takeOver
  cases hs : shortest 0 ops none with
  | none => exact ⟨c, false, rfl, .inl rfl⟩
  | some op =>
    have hm := (shortest_mem _ _ _ _ hs).resolve_right nofun
    obtain ⟨d, b, ps, rfl⟩ := hf op hm
    cases b with
    | false => exact ⟨c, false, rfl, .inl rfl⟩
    | true => exact ⟨.nonNull c, true, by simp [rootLink, text_nonNull], .inr rfl⟩

/-! ### Without `!`s -/

theorem unbangFirst_links : ∀ (m : Nat) (ps : List Piece), ∃ ps' : List Piece, unbangFirst m (ps.map Piece.link) = ps'.map Piece.link ∧
    ps'.map Piece.step = ps.map Piece.step ∧ ps'.map Piece.opt = ps.map Piece.opt
  | 0, ps => ⟨ps, rfl, rfl, rfl⟩
  | m + 1, [] => ⟨[], rfl, rfl, rfl⟩
  | m + 1, p :: ps => by
    obtain ⟨ps', h1, h2, h3⟩ := unbangFirst_links m ps
    exact ⟨{ p with bang := false } :: ps', by rw [List.map_cons, unbangFirst, h1, link_unbang, List.map_cons], by simp [h2], by simp [h3]⟩

theorem rootOf_shape : ∀ (b : Bool) (e : Expr), (rootBang b e = false → (rootOf b e).unbanged = rootOf b e) ∧
    ((rootOf b e).unbanged ≠ rootOf b e → rootOf b e = .nonNull (rootOf b e).unbanged)
  | b, .paren e => by
    rw [rootOf, rootBang]
    split
    · exact ⟨fun _ => rfl, fun h => absurd rfl h⟩
    · exact rootOf_shape b e
  | b, .nonNull e => by rw [rootOf, rootBang]; exact rootOf_shape true e
  | b, .prop e o n => by rw [rootOf, rootBang]; exact rootOf_shape false e
  | b, .elem e o x => by rw [rootOf, rootBang]; exact rootOf_shape false e
  | b, .call e o ts xs => by rw [rootOf, rootBang]; exact rootOf_shape false e
  | b, .ident p n => by
    cases b
    · exact ⟨fun _ => rfl, fun h => absurd rfl h⟩
    · exact ⟨nofun, fun _ => rfl⟩
  | b, .asType e ty => ⟨fun _ => rfl, fun h => absurd rfl h⟩
  | b, .assertion ty e => ⟨fun _ => rfl, fun h => absurd rfl h⟩
  | b, .keyword _ _ | b, .literal _ _ _ | b, .binary _ _ _ _ | b, .unary _ _ | b, .typeof _ | b, .template _ _ _ | b, .await _ | b, .metaProp _ _ _
  | b, .other _ _ _ => ⟨fun _ => rfl, fun h => absurd rfl h⟩

theorem root_base (e : Expr) (h : NoBang e) : (rootLink (rootOf false e) (rootBang false e)).baseText = (rootOf false e).unbanged.text := by
  have hs := rootOf_shape false e
  unfold NoBang at h
  unfold Link.baseText rootLink
  by_cases hu : (rootOf false e).unbanged = rootOf false e
  · rw [hu] at h ⊢
    simp only
    rw [if_neg]
    simp [h]
  · cases hb : rootBang false e with
    | false => exact absurd (hs.1 hb) hu
    | true =>
      have hr := hs.2 hu
      generalize (rootOf false e).unbanged = c at hr
      rw [hr]
      simp only [text_nonNull, Bool.true_and]
      simp

theorem link_base (p : Piece) : p.link.baseText = p.step.text := by
  obtain ⟨s, o, b⟩ := p
  cases b with
  | true => cases s <;> exact base_bang _ _ rfl rfl
  | false => cases s <;> simp [Link.baseText, Piece.link, Step.text]

theorem textsBegin_links : ∀ ps qs : List Piece, textsBegin (ps.map Piece.link) (qs.map Piece.link) = true ↔
    ps.map (fun p => p.step.text) <+: qs.map (fun p => p.step.text)
  | [], qs => by simp [textsBegin]
  | p :: ps, [] => by simp [textsBegin]
  | p :: ps, q :: qs => by
    simp only [List.map_cons, textsBegin, link_base, Bool.and_eq_true, beq_iff_eq, textsBegin_links ps qs, List.cons_prefix_cons]

theorem alike_begins {g e : Expr} (h : WrittenAlike g e) (he : NoBang e) : textsBegin (flat false g) (flat false e) = true := by
  obtain ⟨hg, h⟩ := h
  rw [flat_eq, flat_eq, textsBegin, root_base g hg, root_base e he, Bool.and_eq_true, textsBegin_links]
  simpa [Expr.words] using h

theorem rootLink_unbang (c : Expr) (b : Bool) : (rootLink c b).unbang = { text := (rootLink c b).baseText } := by
  unfold Link.unbang Link.baseText rootLink
  cases b <;> simp

theorem unbang_base (p : Link) : p.unbang.baseText = p.baseText := by
  unfold Link.unbang
  split
  · rename_i h; simp [Link.baseText, h]
  · rfl

theorem textsBegin_unbang : ∀ (m : Nat) (op ps : List Link), textsBegin op (unbangFirst m ps) = textsBegin op ps
  | 0, _, _ => by rw [unbangFirst]
  | m + 1, op, [] => by rw [unbangFirst]; nofun
  | m + 1, [], p :: ps => rfl
  | m + 1, o :: op, p :: ps => by rw [unbangFirst, textsBegin, textsBegin, unbang_base, textsBegin_unbang m op ps]

theorem unbangFirst_length : ∀ (m : Nat) (ps : List Link), (unbangFirst m ps).length = ps.length
  | 0, _ => by rw [unbangFirst]
  | m + 1, [] => by rw [unbangFirst]; nofun
  | m + 1, p :: ps => by rw [unbangFirst, List.length_cons, unbangFirst_length m ps, List.length_cons]

theorem textsBegin_refl : ∀ ps : List Link, textsBegin ps ps = true
  | [] => rfl
  | p :: ps => by rw [textsBegin, textsBegin_refl ps]; simp

/-! ### All together -/

theorem longest_ge : ∀ (L : List Nat) (a : Nat), a ≤ L.foldl max a
  | [], a => by simp
  | b :: L, a => by
    have := longest_ge L (max a b)
    rw [List.foldl_cons]; omega

theorem longest_pos (L : List Nat) (h : L ≠ []) (h1 : ∀ n ∈ L, 1 ≤ n) : ∃ m, longest L = m + 1 := by
  cases L with
  | nil => exact absurd rfl h
  | cons n L =>
    have h2 := h1 n List.mem_cons_self
    have h3 := longest_ge L (max 0 n)
    refine ⟨longest (n :: L) - 1, ?_⟩
    rw [longest, List.foldl_cons]; omega

theorem checkParts_guards (k : Nat) (parts : List Link) : ∀ (gs : List Operand) (j : Nat), j + gs.length ≤ k →
    checkParts k parts j gs = gs.map (fun g => flat false g.target)
  | [], _, _ => rfl
  | g :: gs, j, h => by
    rw [List.length_cons] at h
    rw [checkParts, checkParts_guards k parts gs (j + 1) (by omega), List.map_cons]
    have : (j == k) = false := by simp; omega
    rw [this]; simp

theorem checkParts_after (k : Nat) (parts : List Link) : ∀ (gs : List Operand) (j : Nat), k < j →
    checkParts k parts j gs = gs.map (fun g => flat false g.target)
  | [], _, _ => rfl
  | g :: gs, j, h => by
    rw [checkParts, checkParts_after k parts gs (j + 1) (by omega), List.map_cons]
    have : (j == k) = false := by simp; omega
    rw [this]; simp

theorem checkParts_append (k : Nat) (parts : List Link) : ∀ (gs xs : List Operand) (j : Nat),
    checkParts k parts j (gs ++ xs) = checkParts k parts j gs ++ checkParts k parts (j + gs.length) xs
  | [], _, _ => by simp [checkParts]
  | g :: gs, xs, j => by
    rw [List.cons_append, checkParts, checkParts_append k parts gs xs (j + 1), checkParts, List.cons_append, List.length_cons]
    rw [show j + 1 + gs.length = j + (gs.length + 1) from by omega]

theorem find_prefix {α : Type} (p : α → Bool) (a b : List α) (x : α) (h : a.find? p = some x) : (a ++ b).find? p = some x := by
  rw [List.find?_append, h]; rfl

theorem find_flat (gs : List Operand) (i : Nat) :
    (gs.map (fun g => flat false g.target)).find? (fun op => decide (i + 1 < op.length)) = (gs.find? (fun g => decide (i < (links false g.target).length))).map (fun g => flat false g.target) := by
  rw [List.find?_map]
  congr 1
  congr 1
  funext g
  simp only [Function.comp]
  exact decide_eq_decide.2 (by rw [flat_length, Expr.size]; omega)

theorem flat_get (e : Expr) (i : Nat) : (flat false e)[i + 1]? = ((links false e)[i]?).map Piece.link := by
  rw [flat_eq]; simp

/-- the parts of the new code: the root with or without `!`, and the links with the question marks of the first check that has them, or their own -/
theorem adjusted (gs xs : List Operand) (T : Expr) (r : Expr) (b : Bool) (hx : xs = [] ∨ ∃ x ys, xs = x :: ys ∧ ∀ y ∈ ys, T.size ≤ y.target.size) (hne : gs ++ xs ≠ [])
    (hr : (rootLink r b).baseText = (rootOf false T).unbanged.text) (hT : NoBang T) (hl : links false T ≠ [])
    (hw : ∀ g ∈ gs, WrittenAlike g.target T) (hs : ∀ g ∈ gs, g.target.size ≤ T.size) (hp : gs.Pairwise (fun g h => g.target.size ≤ h.target.size)) :
    ∃ c b', ∃ ps' : List Piece, adjust (gs ++ xs) gs.length (rootLink r b :: (links false T).map Piece.link) = rootLink c b' :: ps'.map Piece.link ∧
      (c = (rootOf false T).unbanged ∨ c = .nonNull (rootOf false T).unbanged) ∧ ps'.map Piece.step = (links false T).map Piece.step ∧
      ∀ i e p n, (gs.map (fun g => links false g.target) ++ [links false T]).find? (fun e => decide (i < e.length)) = some e → e[i]? = some p → ps'[i]? = some n → n.opt = p.opt := by
  obtain ⟨m, hm⟩ := longest_pos ((gs ++ xs).map fun x => (flat false x.expr).length) (by simpa using hne)
    (by intro n hn; obtain ⟨x, _, rfl⟩ := List.mem_map.1 hn; rw [flat_length]; simp [Expr.size])
  obtain ⟨qs, hq1, hq2, hq3⟩ := unbangFirst_links m (links false T)
  have hlen : (rootLink r b :: (links false T).map Piece.link).length > 1 := by
    cases h : links false T with
    | nil => exact absurd h hl
    | cons => simp
  have hql : qs.length = (links false T).length := by simpa using congrArg List.length hq2
  have hcond : (!(gs ++ xs).isEmpty && decide ((rootLink r b :: (links false T).map Piece.link).length > 1)) = true := by
    rw [Bool.and_eq_true]
    refine ⟨?_, decide_eq_true hlen⟩
    cases h : gs ++ xs with
    | nil => exact absurd h hne
    | cons => rfl
  unfold adjust
  rw [if_pos hcond]
  simp only [hm]
  -- the parts without `!`
  have hparts : unbangFirst (m + 1) (rootLink r b :: (links false T).map Piece.link) = rootLink (rootOf false T).unbanged false :: qs.map Piece.link := by
    rw [unbangFirst, hq1, rootLink_unbang, hr]; rfl
  rw [hparts]
  -- which checks count
  have hpl : (rootLink (rootOf false T).unbanged false :: qs.map Piece.link).length = T.size := by simp [Expr.size, hql]
  have hbeg : ∀ op, textsBegin op (rootLink (rootOf false T).unbanged false :: qs.map Piece.link) = textsBegin op (flat false T) := by
    intro op
    rw [← hparts, textsBegin_unbang, flat_eq]
    cases op with
    | nil => rfl
    | cons o op => rw [textsBegin, textsBegin, hr, root_base T hT]
  have hfg : (gs.map (fun g => flat false g.target)).filter (fun op => decide (op.length ≤ (rootLink (rootOf false T).unbanged false :: qs.map Piece.link).length) &&
      textsBegin op (rootLink (rootOf false T).unbanged false :: qs.map Piece.link)) = gs.map (fun g => flat false g.target) := by
    rw [List.filter_eq_self]
    intro op hop
    obtain ⟨g, hg, rfl⟩ := List.mem_map.1 hop
    rw [hbeg, hpl, flat_length, alike_begins (hw g hg) hT]
    simpa using hs g hg
  have hops : ∃ ext, (ext = [] ∨ ∃ more, ext = (rootLink (rootOf false T).unbanged false :: qs.map Piece.link) :: more ∧ ∀ op ∈ more, Formed op ∧ op.length = T.size) ∧
      (checkParts gs.length (rootLink (rootOf false T).unbanged false :: qs.map Piece.link) 0 (gs ++ xs)).filter
        (fun op => decide (op.length ≤ (rootLink (rootOf false T).unbanged false :: qs.map Piece.link).length) &&
          textsBegin op (rootLink (rootOf false T).unbanged false :: qs.map Piece.link)) = gs.map (fun g => flat false g.target) ++ ext := by
    rw [checkParts_append, checkParts_guards _ _ gs 0 (by omega), List.filter_append, hfg]
    rcases hx with rfl | ⟨x, ys, rfl, hys⟩
    · exact ⟨[], .inl rfl, by simp [checkParts]⟩
    · refine ⟨_, .inr ⟨(ys.map (fun g => flat false g.target)).filter (fun op => decide (op.length ≤ (rootLink (rootOf false T).unbanged false :: qs.map Piece.link).length) &&
          textsBegin op (rootLink (rootOf false T).unbanged false :: qs.map Piece.link)), rfl, ?_⟩, ?_⟩
      · intro op hop
        obtain ⟨hop, hle⟩ := List.mem_filter.1 hop
        obtain ⟨y, hy, rfl⟩ := List.mem_map.1 hop
        rw [Bool.and_eq_true, decide_eq_true_eq, hpl, flat_length] at hle
        refine ⟨flat_formed _ _, ?_⟩
        rw [flat_length]
        have := hys y hy
        omega
      · congr 1
        rw [checkParts, checkParts_after _ _ ys _ (by omega)]
        simp only [Nat.zero_add, beq_self_eq_true, if_true]
        rw [List.filter_cons, textsBegin_refl]; simp
  obtain ⟨ext, hext, hops⟩ := hops
  rw [hops]
  have hform : ∀ op ∈ gs.map (fun g => flat false g.target) ++ ext, Formed op := by
    intro op hop
    rcases List.mem_append.1 hop with h | h
    · obtain ⟨g, _, rfl⟩ := List.mem_map.1 h; exact flat_formed _ _
    · rcases hext with rfl | ⟨more, rfl, hmore⟩
      · cases h
      · rcases List.mem_cons.1 h with rfl | h
        · exact ⟨_, _, _, rfl⟩
        · exact (hmore op h).1
  have hsorted : (gs.map (fun g => flat false g.target) ++ ext).Pairwise (fun a b => a.length ≤ b.length) := by
    rw [List.pairwise_append]
    refine ⟨?_, ?_, ?_⟩
    · rw [List.pairwise_map]
      exact hp.imp (fun h => by rw [flat_length, flat_length]; exact h)
    · rcases hext with rfl | ⟨more, rfl, hmore⟩
      · exact List.Pairwise.nil
      · rw [List.pairwise_cons]
        refine ⟨fun op hop => by rw [hpl, (hmore op hop).2]; omega, ?_⟩
        exact List.Pairwise.imp_of_mem (R := fun _ _ => True) (fun ha hb _ => by rw [(hmore _ ha).2, (hmore _ hb).2]; omega) (List.pairwise_of_forall fun _ _ => trivial)
    · intro a ha c hc
      obtain ⟨g, hg, rfl⟩ := List.mem_map.1 ha
      rcases hext with rfl | ⟨more, rfl, hmore⟩
      · cases hc
      · have : c.length = T.size := by
          rcases List.mem_cons.1 hc with rfl | hc
          · exact hpl
          · exact (hmore c hc).2
        rw [this, flat_length]; exact hs g hg
  obtain ⟨c, b', hc1, hc2⟩ := takeOver_root (gs.map (fun g => flat false g.target) ++ ext) hform (rootOf false T).unbanged
  obtain ⟨ps', hp1, hp2, hp3⟩ := takeOverAll_links (gs.map (fun g => flat false g.target) ++ ext) hform qs 1 (by omega)
  refine ⟨c, b', ps', by rw [takeOverAll, hc1, hp1], hc2, hp2.trans hq2, ?_⟩
  intro i e p n hfind hp hn
  have h3 := hp3 i n hn
  rw [show 1 + i = i + 1 from by omega, shortest_sorted _ _ hsorted, List.find?_append, find_flat] at h3
  rw [List.find?_append, List.find?_map] at hfind
  have hcomp : ((fun e : List Piece => decide (i < e.length)) ∘ fun g : Operand => links false g.target) = fun g => decide (i < (links false g.target).length) := rfl
  rw [hcomp] at hfind
  cases hg : gs.find? (fun g => decide (i < (links false g.target).length)) with
  | some g =>
    rw [hg] at h3 hfind
    simp only [Option.map_some, Option.some_or, Option.some.injEq] at h3 hfind
    subst hfind
    have := h3.2 _ p.link rfl (by rw [flat_get, hp]; rfl)
    rw [this, link_optional]
  | none =>
    rw [hg] at h3 hfind
    simp only [Option.map_none, Option.none_or] at h3 hfind
    have he : e = links false T := by
      rw [List.find?_singleton] at hfind
      split at hfind
      · exact (Option.some.inj hfind).symm
      · cases hfind
    subst he
    have hq : ∃ q, qs[i]? = some q ∧ q.opt = p.opt := by
      have h1 : (qs.map Piece.opt)[i]? = ((links false T).map Piece.opt)[i]? := by rw [hq3]
      rw [List.getElem?_map, List.getElem?_map, hp] at h1
      obtain ⟨q, hq, ho⟩ := Option.map_eq_some_iff.1 h1
      exact ⟨q, hq, ho⟩
    obtain ⟨q, hq, ho⟩ := hq
    rcases hext with rfl | ⟨more, rfl, _⟩
    · rw [h3.1 q rfl hq, ho]
    · have hi : i < qs.length := (List.getElem?_eq_some_iff.1 hq).1
      have := h3.2 (rootLink (rootOf false T).unbanged false :: qs.map Piece.link) q.link (by
        rw [List.find?_cons_of_pos]
        simp; omega) (by simp [hq])
      rw [this, link_optional, ho]

/-! ### What it means -/

theorem withMarks_steps (L : List Nat) (c : Bool) : ∀ (ps : List Piece) (i : Nat), (withMarks L c i ps).map Piece.step = ps.map Piece.step
  | [], _ => rfl
  | p :: ps, i => by rw [withMarks, List.map_cons, withMarks_steps L c ps, List.map_cons]

theorem withMarks_get (L : List Nat) (c : Bool) : ∀ (ps : List Piece) (i j : Nat) (n : Piece), (withMarks L c i ps)[j]? = some n →
    ∃ p, ps[j]? = some p ∧ (p.opt = true → n.opt = true) ∧ (L.contains (i + j) = true → n.opt = true)
  | [], _, _, _, h => by simp [withMarks] at h
  | p :: ps, i, 0, n, h => by
    rw [withMarks] at h
    simp only [List.getElem?_cons_zero, Option.some.injEq] at h
    subst h
    refine ⟨p, rfl, fun ho => ?_, fun ho => ?_⟩
    · simp [made, ho]
    · rw [Nat.add_zero] at ho; simp only [made, ho, Bool.true_or]
  | p :: ps, i, j + 1, n, h => by
    rw [withMarks] at h
    simp only [List.getElem?_cons_succ] at h ⊢
    obtain ⟨q, h1, h2, h3⟩ := withMarks_get L c ps (i + 1) j n h
    exact ⟨q, h1, h2, by rw [show i + (j + 1) = i + 1 + j from by omega]; exact h3⟩

/-- code made from `T` with the question marks of the guards `G`: it has the value of `T` where the guards let through, and is null or undefined where one was -/
theorem chain_meaning (W : World V) (G : List Expr) (T c : Expr) (new : List Piece) (hc : W.eval c = W.eval (originOf T)) (hs : new.map Piece.step = stepsOf T)
    (hflag : ∀ i e p n, (G.map (links false) ++ [links false T]).find? (fun e => decide (i < e.length)) = some e → e[i]? = some p → new[i]? = some n → p.opt = true → n.opt = true)
    (hmark : ∀ g ∈ G, ∀ n, new[(links false g).length]? = some n → n.opt = true)
    (hpre : ∀ g ∈ G, BeginsAs g T) (hcalm : Calm W T) :
    (∀ x, (∀ g ∈ G, W.value g ≠ none) → W.value T = some x → W.value (assemble c new) = some x) ∧
    (∀ a f b x, G = a ++ f :: b → (∀ g ∈ a, W.value g ≠ none) → W.value f = some x → W.Nullish x →
      ∃ y, W.Nullish y ∧ (f.size < T.size → y = W.undef) ∧ W.value (assemble c new) = some y) := by
  have hroot : ∃ t v, W.eval (originOf T) = .val t v := by
    have h := hcalm.1
    rw [World.value, rootOf_eval] at h
    cases hr : W.eval (originOf T) with
    | fail => rw [hr] at h; exact absurd rfl h
    | short => exact absurd hr (origin_ne_short W T)
    | val t v => exact ⟨t, v, rfl⟩
  obtain ⟨t, v, hroot⟩ := hroot
  have hnewcalm : ∀ q ∈ new, q.step.Calm W := by
    intro q hq
    have h1 : q.step ∈ (links false T).map Piece.step := by rw [links_steps, ← hs]; exact List.mem_map.2 ⟨q, hq, rfl⟩
    obtain ⟨p, hp, he⟩ := List.mem_map.1 h1
    rw [← he]; exact hcalm.2 p hp
  have halong : ∀ g, BeginsAs g T → Along W (links false g) new := by
    intro g ⟨_, u, w, h1, h2⟩
    exact along_of W _ _ u w (by rw [hs, h1]) (by rw [links_steps]; exact h2) hnewcalm
  have hself : Along W (links false T) new := by
    have key : ∀ (ps qs : List Piece), ps.map Piece.step = qs.map Piece.step → Along W ps qs := by
      intro ps
      induction ps with
      | nil => intro qs _; trivial
      | cons p ps ih =>
        intro qs h
        cases qs with
        | nil => cases h
        | cons q qs =>
          simp only [List.map_cons, List.cons.injEq] at h
          exact ⟨fun t v _ => by rw [h.1], ih qs h.2⟩
    exact key _ _ (by rw [hs, links_steps])
  have hval : ∀ r, W.value (assemble c new) = r ↔ (runs W (.val t v) new).value W = r := by
    intro r; rw [World.value, eval_assemble, hc, hroot]
  have hT : ∀ x, W.value T = some x → (runs W (.val t v) (links false T)).value W = some x := by
    intro x hx
    have h := taken_apart_value W T x hx
    rw [World.value, eval_assemble, rootOf_eval, hroot] at h
    exact h
  have hlen : new.length = (links false T).length := by
    have := congrArg List.length (hs.trans (links_steps false T).symm)
    simpa using this
  constructor
  · intro x hg hx
    rw [hval]
    refine (core W new t v (G.map (links false) ++ [links false T]) (links false T) x (by simp) ?_ ?_ (hT x hx) hflag ?_).1 hlen.symm
    · intro e he _
      rcases List.mem_append.1 he with h | h
      · obtain ⟨g, hgm, rfl⟩ := List.mem_map.1 h
        obtain ⟨z, hz⟩ := Option.ne_none_iff_exists'.1 (hg g hgm)
        rw [guard_runs W g T (hpre g hgm).1 t v z hroot hz]; nofun
      · rw [List.mem_singleton] at h; subst h; rw [hT x hx]; nofun
    · intro e he
      rcases List.mem_append.1 he with h | h
      · obtain ⟨g, hgm, rfl⟩ := List.mem_map.1 h; exact halong g (hpre g hgm)
      · rw [List.mem_singleton] at h; subst h; exact hself
    · intro n hn
      rw [← hlen] at hn
      simp at hn
  · intro a f b x hG hg hx hnull
    have hfm : f ∈ G := by rw [hG]; simp
    have hfx := guard_runs W f T (hpre f hfm).1 t v x hroot hx
    have hcore := core W new t v ((a ++ [f]).map (links false)) (links false f) x (by simp) ?_ ?_ hfx ?_ (hmark f hfm)
    · rcases Nat.lt_or_ge (links false f).length new.length with h | h
      · exact ⟨W.undef, .inl rfl, fun _ => rfl, (hval _).2 (hcore.2 h hnull)⟩
      · have : (links false f).length = new.length := by have := (halong f (hpre f hfm)).length; omega
        exact ⟨x, hnull, fun hlt => absurd hlt (by rw [Expr.size, Expr.size, ← hlen]; omega), (hval _).2 (hcore.1 this)⟩
    · intro e he _
      obtain ⟨g, hgm, rfl⟩ := List.mem_map.1 he
      rcases List.mem_append.1 hgm with h | h
      · obtain ⟨z, hz⟩ := Option.ne_none_iff_exists'.1 (hg g h)
        rw [guard_runs W g T (hpre g (by rw [hG]; simp [h])).1 t v z hroot hz]; nofun
      · rw [List.mem_singleton] at h; subst h; rw [hfx]; nofun
    · intro e he
      obtain ⟨g, hgm, rfl⟩ := List.mem_map.1 he
      refine halong g (hpre g ?_)
      rw [hG]
      rcases List.mem_append.1 hgm with h | h
      · simp [h]
      · rw [List.mem_singleton] at h; simp [h]
    · intro i e p n hfind
      refine hflag i e p n ?_
      have : G.map (links false) ++ [links false T] = (a ++ [f]).map (links false) ++ (b.map (links false) ++ [links false T]) := by rw [hG]; simp
      rw [this]
      exact find_prefix _ _ _ _ hfind

/-! ### The same expression -/

theorem bare_apply (s : Step) (o : Bool) {a b : Expr} (h : a.bare = b.bare) (o' : Bool) : (s.apply o a).bare = (s.apply o' b).bare := by
  cases s <;> simp only [Step.apply, Expr.bare, h]

theorem bare_piece {p q : Piece} (h : p.step = q.step) {a b : Expr} (hab : a.bare = b.bare) : (p.apply a).bare = (q.apply b).bare := by
  have key : ∀ (p : Piece) (e : Expr), (p.apply e).bare = (p.step.apply p.opt e).bare := by
    intro p e; unfold Piece.apply
    split
    · rw [Expr.bare]
    · rfl
  rw [key, key, h]; exact bare_apply _ _ hab _

theorem bare_assemble : ∀ (ps qs : List Piece), ps.map Piece.step = qs.map Piece.step → ∀ a b : Expr, a.bare = b.bare → (assemble a ps).bare = (assemble b qs).bare
  | [], [], _, _, _, h => h
  | [], _ :: _, h, _, _, _ => by cases h
  | _ :: _, [], h, _, _, _ => by cases h
  | p :: ps, q :: qs, h, a, b, hab => by
    simp only [List.map_cons, List.cons.injEq] at h
    exact bare_assemble ps qs h.2 (p.apply a) (q.apply b) (bare_piece h.1 hab)

theorem bare_links : ∀ (b : Bool) (e : Expr), (assemble (rootOf b e) (links b e)).bare = e.bare
  | b, .paren e => by
    rw [rootOf, links]
    split
    · rfl
    · rw [Expr.bare]; exact bare_links b e
  | b, .nonNull e => by rw [rootOf, links, Expr.bare]; exact bare_links true e
  | b, .prop e o n => by
    rw [rootOf, links, assemble_append]
    exact (bare_piece (p := ⟨.prop n, o, b⟩) (q := ⟨.prop n, o, false⟩) rfl (bare_links false e))
  | b, .elem e o x => by
    rw [rootOf, links, assemble_append]
    exact (bare_piece (p := ⟨.elem x, o, b⟩) (q := ⟨.elem x, o, false⟩) rfl (bare_links false e))
  | b, .call e o ts xs => by
    rw [rootOf, links, assemble_append]
    exact (bare_piece (q := ⟨.call ts xs, o, false⟩) rfl (bare_links false e))
  | b, .ident p n => by cases b <;> simp [rootOf, links, assemble, Expr.bare]
  | b, .asType e ty => by show (Expr.paren (.asType e ty)).bare = _; rw [Expr.bare]
  | b, .assertion ty e => by show (Expr.paren (.assertion ty e)).bare = _; rw [Expr.bare]
  | b, .keyword _ _ | b, .literal _ _ _ | b, .binary _ _ _ _ | b, .unary _ _ | b, .typeof _ | b, .template _ _ _ | b, .await _ | b, .metaProp _ _ _
  | b, .other _ _ _ => rfl

theorem bare_unbanged (e : Expr) : e.unbanged.bare = e.bare := by cases e <;> simp [Expr.unbanged, Expr.bare]

end Tsgolint.OptionalChain
