import Verif.Model.OptionalReport
import Verif.Props.OptionalCode

/-!
# C117: which AND chains prefer-optional-chain reports, and which it rewrites by itself
-/

namespace Tsgolint.OptionalChain

variable {V : Type}

open Expr

/-! ### What a reported chain is like -/

theorem reportsAnd_parts (O : Options) (T : Types) (first : Operand) (rest : List Operand) (h : reportsAnd O T (first :: rest) = true) :
    validChain O T true (first :: rest) = true ∧ firstOptional (first :: rest) first = false ∧ allSame (first :: rest) = false ∧ optimalStrict T (first :: rest) = false ∧
    alreadyOptional (first :: rest) = false ∧ badFirstTest O T first = false ∧
    (O.allowUnsafe = false → (first :: rest).any (fun x => isNonNull x.node) = false ∧ incompleteCheck T (first :: rest) = false) ∧
    typeofCall T (first :: rest) = false ∧ unsafeTrailing O T (first :: rest) = false := by
  unfold reportsAnd andReported at h
  simp only [Bool.and_eq_true, Bool.not_eq_true', Bool.and_eq_false_imp, Bool.or_eq_false_iff] at h
  obtain ⟨h1, ⟨⟨⟨⟨⟨⟨⟨h2, h3⟩, h4⟩, h5⟩, h6⟩, h7⟩, h8⟩, h9⟩⟩ := h
  exact ⟨h1, h2, h3, h4, h5, h6, fun ha => h7 ha, h8, h9⟩

/-- **C117** A reported AND chain has at least two operands, one of which is an access, and all begin alike; no operand is `x!` unless unsafe fixes are allowed; the first one, if it
is a truth test, has no `?.` and is not void; with `requireNullish`, some operand is a comparison, or one but the last can be null or undefined. -/
theorem and_reported (O : Options) (T : Types) (chain : List Operand) (h : reportsAnd O T chain = true) :
    ∃ first rest, chain = first :: rest ∧ rest ≠ [] ∧ (∀ x ∈ rest, (base x.expr).bare = (base first.expr).bare) ∧ (∃ x ∈ chain, isAccess x.expr.skip = true) ∧
      (first.kind = .plain → first.expr.hasOptional = false ∧ .void ∉ T first.expr) ∧
      (O.allowUnsafe = false → ∀ x ∈ chain, ∀ e, x.node ≠ .nonNull e) ∧
      (O.requireNullish = true → (∃ x ∈ chain, x.kind ≠ .plain) ∨ ∃ x ∈ chain.dropLast, .null ∈ T x.expr ∨ .undef ∈ T x.expr) := by
  cases chain with
  | nil => simp [reportsAnd, andReported] at h
  | cons first rest =>
    obtain ⟨h1, h2, h3, h4, h5, h6, h7, h8, h9⟩ := reportsAnd_parts O T first rest h
    unfold validChain at h1
    simp only [Bool.and_eq_true, decide_eq_true_eq, Bool.not_eq_true'] at h1
    obtain ⟨⟨⟨hlen, hbase⟩, hacc⟩, hreq⟩ := h1
    refine ⟨first, rest, rfl, by rintro rfl; simp at hlen, ?_, ?_, ?_, ?_, ?_⟩
    · intro x hx
      simp only [sameBase, List.all_eq_true] at hbase
      exact ((eq_iff _ _).1 (hbase x hx)).1.symm
    · simpa [anyAccess] using hacc
    · intro hk
      constructor
      · unfold firstOptional at h2; rw [hk] at h2; simpa using h2
      · unfold badFirstTest at h6; rw [hk] at h6
        simp only [beq_self_eq_true, Bool.true_and, Bool.or_eq_false_iff] at h6
        simpa [Info.hasVoid] using h6.1.1
    · intro ha x hx e he
      have := (h7 ha).1
      rw [List.any_eq_false] at this
      exact this x hx (by rw [he]; rfl)
    · intro hr
      unfold skipForRequire at hreq
      simp only [hr, Bool.not_true, Bool.false_eq_true, if_false, Bool.false_and, Bool.true_and, Bool.and_eq_false_iff, Bool.not_eq_false', List.any_eq_true] at hreq
      rcases hreq with hreq | ⟨x, hx, hn⟩
      · left
        rw [List.all_eq_false] at hreq
        obtain ⟨x, hx, hk⟩ := hreq
        exact ⟨x, hx, by simpa using hk⟩
      · right
        exact ⟨x, hx, by simpa [Info.explicitNullish, Info.hasNull, Info.hasUndef] using hn⟩

/-- **C117** The options for single types are about a truth test at the beginning: if there is one, and its root's type has such a part, the option is on (or null or undefined
is required and there). -/
theorem and_types (O : Options) (T : Types) (first : Operand) (rest : List Operand) (h : reportsAnd O T (first :: rest) = true) (hk : first.kind = .plain) :
    (O.requireNullish = true ∧ (.null ∈ T (base first.expr) ∨ .undef ∈ T (base first.expr))) ∨
    ((.any ∈ T (base first.expr) → O.checkAny = true) ∧ (.unknown ∈ T (base first.expr) → O.checkUnknown = true) ∧
     (.big ∈ T (base first.expr) ∨ .bigLit ∈ T (base first.expr) → O.checkBigInt = true) ∧ (.boolean ∈ T (base first.expr) ∨ .boolLit ∈ T (base first.expr) → O.checkBoolean = true) ∧
     (.num ∈ T (base first.expr) ∨ .numLit ∈ T (base first.expr) → O.checkNumber = true) ∧ (.str ∈ T (base first.expr) ∨ .strLit ∈ T (base first.expr) → O.checkString = true)) := by
  have h6 := (reportsAnd_parts O T first rest h).2.2.2.2.2.1
  unfold badFirstTest at h6; rw [hk] at h6
  simp only [beq_self_eq_true, Bool.true_and, Bool.or_eq_false_iff] at h6
  have h := h6.1.2
  unfold skipByType at h
  split at h
  · rename_i hr
    simp only [Bool.and_eq_true] at hr
    exact .inl ⟨hr.1, by simpa [Info.explicitNullish, Info.hasNull, Info.hasUndef] using hr.2⟩
  split at h
  · exact absurd h (by decide)
  split at h
  · exact absurd h (by decide)
  split at h
  · exact absurd h (by decide)
  split at h
  · exact absurd h (by decide)
  split at h
  · exact absurd h (by decide)
  rename_i h1 h2 h3 h4 h5
  simp only [Bool.and_eq_true, Bool.not_eq_true', not_and, Bool.not_eq_false, Info.hasAny, Info.bigLike, Info.boolLike, Info.numLike, Info.strLike, Bool.or_eq_true, List.contains_iff_mem] at h1 h2 h3 h4 h5
  simp only [Bool.and_eq_false_imp, Bool.not_eq_false', Info.hasUnknown, List.contains_iff_mem] at h
  exact .inr ⟨h1, h, h2, h3, h4, h5⟩

/-- **C117** (a limit) They are about nothing else: if the chain begins with a comparison, they do not matter. -/
theorem types_unused (O : Options) (T : Types) (first : Operand) (rest : List Operand) (hk : first.kind ≠ .plain) (a b c d e f : Bool) :
    reportsAnd O T (first :: rest) = reportsAnd { O with checkAny := a, checkBigInt := b, checkBoolean := c, checkNumber := d, checkString := e, checkUnknown := f } T (first :: rest) := by
  have hb : (first.kind == Kind.plain) = false := by simpa using hk
  have h1 : ∀ O, badFirstTest O T first = false := by intro O; unfold badFirstTest; rw [hb]; rfl
  unfold reportsAnd andReported
  simp only [h1]
  rfl

/-! ### Incomplete checks -/

/-- **C117** Without unsafe fixes, guards that are only strict comparisons make a report just if both null and undefined are compared with, unless the last operand has `?.` or is
itself a `!= null`, or the first operand cannot be null or undefined, or just in the way that is compared with. -/
theorem and_complete (O : Options) (T : Types) (hO : O.allowUnsafe = false) (g : Operand) (gs : List Operand) (last : Operand) (h : reportsAnd O T (g :: gs ++ [last]) = true)
    (hk : ∀ x ∈ g :: gs, x.kind = .notNull ∨ x.kind = .notUndef)
    (hl : last.kind.trailing = true ∨ (last.kind = .plain ∧ ∀ x ∈ g :: gs, x.expr.size < last.expr.size)) :
    ((∃ x ∈ g :: gs, x.kind = .notNull) ∧ ∃ x ∈ g :: gs, x.kind = .notUndef) ∨ last.expr.hasOptional = true ∨ last.kind = .notBoth ∨
    (∀ p ∈ T g.expr, p ∉ [Part.null, .undef, .any, .unknown]) ∨
    (Part.any ∉ T g.expr ∧ Part.unknown ∉ T g.expr ∧
      (((∀ x ∈ g :: gs, x.kind = .notNull) ∧ .null ∈ T g.expr ∧ Part.undef ∉ T g.expr) ∨ ((∀ x ∈ g :: gs, x.kind = .notUndef) ∧ .undef ∈ T g.expr ∧ Part.null ∉ T g.expr))) := by
  have h7 : incompleteCheck T (g :: gs ++ [last]) = false := ((reportsAnd_parts O T g (gs ++ [last]) h).2.2.2.2.2.2.1 hO).2
  have hguards : guardOperands (g :: gs ++ [last]) = g :: gs := by
    unfold guardOperands
    obtain ⟨prev, more, hrev⟩ : ∃ prev more, (g :: gs).reverse = prev :: more := by
      cases hr : (g :: gs).reverse with
      | nil => simp at hr
      | cons p m => exact ⟨p, m, rfl⟩
    have : (g :: gs ++ [last]).reverse = last :: prev :: more := by rw [List.reverse_append, hrev]; rfl
    rw [this]
    simp only
    have hdrop : (g :: gs ++ [last]).dropLast = g :: gs := List.dropLast_concat
    have hprev : prev ∈ g :: gs := by rw [← List.mem_reverse, hrev]; simp
    rcases hl with hl | ⟨hl, hsz⟩
    · rw [hl, if_pos rfl, hdrop]
    · have := hsz prev hprev
      simp only [flat_length, hl, this, decide_true, Bool.and_true, beq_self_eq_true, if_true, hdrop]
      split <;> rfl
  have hapart : apart (g :: gs ++ [last]) = some last := by
    unfold apart
    rw [hguards, List.getLast?_concat]; simp
  have hg : ∀ x ∈ g :: gs, analyzeOne false x = { null := x.kind == .notNull, undef := x.kind == .notUndef, both := false } := by
    intro x hx
    unfold analyzeOne
    rcases hk x hx with h | h <;> rw [h] <;> rfl
  have any_congr : ∀ f f' : Operand → Bool, (∀ x ∈ g :: gs, f x = f' x) → (g :: gs).any f = (g :: gs).any f' := by
    intro f f' h
    rw [Bool.eq_iff_iff, List.any_eq_true, List.any_eq_true]
    exact ⟨fun ⟨x, hx, h'⟩ => ⟨x, hx, by rw [← h x hx]; exact h'⟩, fun ⟨x, hx, h'⟩ => ⟨x, hx, by rw [h x hx]; exact h'⟩⟩
  have hnull : (analyze false (g :: gs)).null = (g :: gs).any fun x => x.kind == .notNull := by
    unfold analyze; simp only; exact any_congr _ _ fun x hx => by rw [hg x hx]
  have hundef : (analyze false (g :: gs)).undef = (g :: gs).any fun x => x.kind == .notUndef := by
    unfold analyze; simp only; exact any_congr _ _ fun x hx => by rw [hg x hx]
  have hboth : (analyze false (g :: gs)).both = false := by
    unfold analyze; simp only; rw [List.any_eq_false]; intro x hx; rw [hg x hx]; nofun
  have htypeof : (g :: gs).any (fun x => x.kind == .typeof) = false := by
    rw [List.any_eq_false]; intro x hx; rcases hk x hx with h | h <;> rw [h] <;> nofun
  unfold incompleteCheck at h7
  simp only [hguards, hapart, htypeof, hboth, Bool.not_false, Bool.true_and] at h7
  by_cases hopt : last.expr.hasOptional = true
  · exact .inr (.inl hopt)
  by_cases hlb : last.kind = .notBoth
  · exact .inr (.inr (.inl hlb))
  have hlb' : (last.kind == Kind.notBoth) = false := by simpa using hlb
  simp only [Bool.not_eq_true] at hopt
  simp only [hopt, hlb', Bool.not_false, Bool.true_and] at h7
  by_cases hN : ¬ Info.nullish (T g.expr) = true
  · refine .inr (.inr (.inr (.inl ?_)))
    intro p hp hm
    apply hN
    simp only [Info.nullish, Info.hasNull, Info.hasUndef, Info.hasAny, Info.hasUnknown, Bool.or_eq_true, List.contains_iff_mem]
    simp only [List.mem_cons, List.not_mem_nil, or_false] at hm
    rcases hm with rfl | rfl | rfl | rfl
    · exact .inl (.inl (.inl hp))
    · exact .inl (.inl (.inr hp))
    · exact .inl (.inr hp)
    · exact .inr hp
  simp only [Classical.not_not] at hN
  simp only [hN, Bool.not_true, Bool.not_false, Bool.true_and, Bool.and_eq_false_imp, Bool.not_eq_true'] at h7
  have only : ∀ k k' : Kind, k ≠ k' → (∀ x ∈ g :: gs, x.kind = k ∨ x.kind = k') → (g :: gs).any (fun x => x.kind == k') = false → ∀ x ∈ g :: gs, x.kind = k := by
    intro k k' _ h1 h2 x hx
    rw [List.any_eq_false] at h2
    rcases h1 x hx with h | h
    · exact h
    · exact absurd (by simp [h]) (h2 x hx)
  have inc : (analyze false (g :: gs)).null = true ∧ (analyze false (g :: gs)).undef = false ∨ (analyze false (g :: gs)).null = false ∧ (analyze false (g :: gs)).undef = true →
      strictComplete (analyze false (g :: gs)) (T g.expr) = true := by
    intro hc
    by_cases hs : strictComplete (analyze false (g :: gs)) (T g.expr) = true
    · exact hs
    · have := h7 (by simpa using hs)
      unfold Analysis.incomplete Analysis.onlyNull Analysis.onlyUndef at this
      rw [hboth] at this
      rcases hc with ⟨h1, h2⟩ | ⟨h1, h2⟩ <;> rw [h1, h2] at this <;> exact absurd this (by decide)
  cases hn : (g :: gs).any (fun x => x.kind == .notNull) <;> cases hu : (g :: gs).any (fun x => x.kind == .notUndef)
  · exfalso
    rw [List.any_eq_false] at hn hu
    rcases hk g (by simp) with h | h
    · exact hn g (by simp) (by simp [h])
    · exact hu g (by simp) (by simp [h])
  · have hs := inc (.inr ⟨by rw [hnull, hn], by rw [hundef, hu]⟩)
    unfold strictComplete at hs
    rw [hnull, hundef, hn, hu] at hs
    simp only [Bool.false_and, Bool.not_false, Bool.true_and, Bool.false_or, Bool.and_eq_true, Bool.not_eq_true', Info.anyOrUnknown, Bool.or_eq_false_iff, Info.hasAny, Info.hasUnknown,
      Info.hasNull, Info.hasUndef, List.contains_iff_mem] at hs
    refine .inr (.inr (.inr (.inr ⟨?_, ?_, .inr ⟨only _ _ (by decide) (fun x hx => (hk x hx).symm) hn, hs.2.1, ?_⟩⟩)))
    · simpa using hs.1.1
    · simpa using hs.1.2
    · simpa using hs.2.2
  · have hs := inc (.inl ⟨by rw [hnull, hn], by rw [hundef, hu]⟩)
    unfold strictComplete at hs
    rw [hnull, hundef, hn, hu] at hs
    simp only [Bool.not_true, Bool.false_and, Bool.and_false, Bool.not_false, Bool.true_and, Bool.or_false, Bool.and_eq_true, Bool.not_eq_true', Info.anyOrUnknown, Bool.or_eq_false_iff, Info.hasAny, Info.hasUnknown,
      Info.hasNull, Info.hasUndef, List.contains_iff_mem] at hs
    refine .inr (.inr (.inr (.inr ⟨?_, ?_, .inl ⟨only _ _ (by decide) hk hu, hs.2.1, ?_⟩⟩)))
    · simpa using hs.1.1
    · simpa using hs.1.2
    · simpa using hs.2.2
  · left
    simp only [List.any_eq_true, beq_iff_eq] at hn hu
    exact ⟨hn, hu⟩

/-! ### Comparisons at the end -/

theorem unwrap_skip : ∀ e : Expr, e.skip.unwrap = e.unwrap
  | .paren e => by rw [Expr.skip, unwrap_skip e]; rfl
  | .ident .. | .keyword .. | .literal .. | .prop .. | .elem .. | .call .. | .nonNull .. | .asType .. | .assertion .. | .binary .. | .unary .. | .typeof .. | .template .. | .await ..
  | .metaProp .. | .other .. => rfl

theorem eq_access (a b : Expr) (ha : isAccess a = true) (h : eq a b = true) : isAccess b.unwrap = true := by
  cases a with
  | prop e o n =>
    rw [Expr.eq] at h
    cases hb : b.unwrap <;> rw [hb] at h <;> first | rfl | exact (nomatch h)
  | elem e o n =>
    rw [Expr.eq] at h
    cases hb : b.unwrap <;> rw [hb] at h <;> first | rfl | exact (nomatch h)
  | call e o t n =>
    rw [Expr.eq] at h
    cases hb : b.unwrap <;> rw [hb] at h <;> first | rfl | exact (nomatch h)
  | _ => exact (nomatch ha)

theorem access_skip (x : Expr) (h : isAccess x = true) : x.skip = x ∧ x.unwrap = x := by
  cases x <;> first | exact ⟨rfl, rfl⟩ | exact (nomatch h)

theorem trailingValue_eq (x y : Expr) (hx : isAccess x = true) (hy : isAccess y.unwrap = false) :
    trailingValue x x.skip y.skip = some y.skip ∧ trailingValue x y.skip x.skip = some y.skip := by
  have h1 : eq x y.skip = false := by
    by_cases h : eq x y.skip = true
    · have := eq_access x _ hx h; rw [unwrap_skip, hy] at this; exact absurd this (by decide)
    · simpa using h
  have h2 : isAccess y.skip = false := by
    by_cases h : isAccess y.skip = true
    · have := (access_skip _ h).2; rw [unwrap_skip] at this; rw [this, h] at hy; exact absurd hy (by decide)
    · simpa using h
  rw [(access_skip x hx).1]
  unfold trailingValue
  simp only [h1, h2, hx, Bool.false_eq_true, if_false, if_true]
  constructor <;> split <;> rfl

theorem trailing_safe_swapped (W : World V) (hW : W.Lawful) (o : Op) (ho : Equality o) (t : List Part) (hp : Part.param ∉ t) (h : trailingSafe o t = true)
    (v : V) (hv : W.HasType t v) : ∃ x, W.op o v W.undef = some x ∧ W.truthy x = false := by
  have hu := nullish_undef W
  rcases ho with rfl | rfl | rfl | rfl
  · obtain ⟨x, h1, h2⟩ := hW.seq v W.undef (.inr (.inl hu))
    have := canBeUndef_has W hW (by simpa [trailingSafe] using h) hp hv
    exact ⟨x, h1, by rw [← Bool.not_eq_true, h2]; exact fun h => this h⟩
  · obtain ⟨x, h1, h2⟩ := hW.sne v W.undef (.inr (.inl hu))
    have := alwaysUndef_has W (by simpa [trailingSafe] using h) hv
    exact ⟨x, h1, by rw [← Bool.not_eq_true, h2]; exact fun h => h this⟩
  · obtain ⟨x, h1, h2⟩ := hW.eq v W.undef (.inr hu)
    have := canBeNullish_has W (by simpa [trailingSafe] using h) hp hv
    exact ⟨x, h1, by rw [← Bool.not_eq_true, h2]; exact fun h => this h.1⟩
  · obtain ⟨x, h1, h2⟩ := hW.ne v W.undef (.inr hu)
    have := alwaysNullish_has W (by simpa [trailingSafe] using h) hv
    exact ⟨x, h1, by rw [← Bool.not_eq_true, h2]; exact fun h => h ⟨this, hu⟩⟩

/-- **C117** Without unsafe fixes, a reported chain that ends in a comparison of a longer access compares it with a value whose type makes the comparison safe. -/
theorem and_trailing (O : Options) (T : Types) (hO : O.allowUnsafe = false) (gs : List Expr) (lhs rhs : Expr) (o : Op) (t : Text) (hne : gs ≠ [])
    (h : reportsAnd O T (parsed gs (.binary lhs o t rhs)) = true) (hl : (parse true (.binary lhs o t rhs)).kind ∈ [.comparison, .notNull, .notUndef, .notBoth])
    (x y : Expr) (hxy : (x, y) = if onRight true lhs o rhs then (rhs, lhs) else (lhs, rhs)) (hx : isAccess x = true) (hy : isAccess y.unwrap = false)
    (hlt : ∀ g ∈ gs, (parse true g).expr.size < x.size) : trailingSafe o (T y.skip) = true := by
  obtain ⟨first, rest, hp⟩ : ∃ first rest, parsed gs (.binary lhs o t rhs) = first :: rest := by
    cases gs with
    | nil => exact absurd rfl hne
    | cons g gs => exact ⟨_, _, rfl⟩
  have h9 : unsafeTrailing O T (parsed gs (.binary lhs o t rhs)) = false := by
    rw [hp] at h ⊢; exact (reportsAnd_parts O T first rest h).2.2.2.2.2.2.2.2
  have hki : (parse true (.binary lhs o t rhs)).kind ≠ .invalid ∧ (parse true (.binary lhs o t rhs)).kind ≠ .typeof := by
    simp only [List.mem_cons, List.not_mem_nil, or_false] at hl
    rcases hl with h | h | h | h <;> rw [h] <;> exact ⟨nofun, nofun⟩
  have hexpr := expr_side true lhs o t rhs hki.1 hki.2
  have hexpr' : (parse true (.binary lhs o t rhs)).expr = x := by
    rw [hexpr]
    split at hxy <;> (rename_i hr; cases hxy; simp only [hr, if_true, Bool.false_eq_true, if_false]; exact (access_skip _ hx).1)
  have hnode : (parse true (.binary lhs o t rhs)).node = .binary lhs o t rhs := parse_node true _
  have htrail : isTrailing (parsed gs (.binary lhs o t rhs)) = true := by
    obtain ⟨init, s, rfl⟩ : ∃ init s, gs = init ++ [s] := by
      rcases List.eq_nil_or_concat gs with rfl | ⟨i, s, rfl⟩
      · exact absurd rfl hne
      · exact ⟨i, s, by simp⟩
    have hrev : (parsed (init ++ [s]) (.binary lhs o t rhs)).reverse = parse true (.binary lhs o t rhs) :: parse true s :: (init.map (parse true)).reverse := by simp [parsed]
    unfold isTrailing
    rw [hrev]
    simp only [flat_length, hexpr']
    have hs := hlt s (by simp)
    simp only [List.mem_cons, List.not_mem_nil, or_false] at hl
    rcases hl with h | h | h | h <;> rw [h] <;> simp [hs]
  have hlast : (parsed gs (.binary lhs o t rhs)).getLast? = some (parse true (.binary lhs o t rhs)) := by rw [parsed_eq]; simp
  have hparts : binaryParts (.binary lhs o t rhs) = some (lhs.skip, o, rhs.skip) := rfl
  unfold unsafeTrailing at h9
  rw [hlast] at h9
  simp only [htrail, Bool.true_and, hnode, hparts, hexpr', hO, Bool.not_false, Bool.and_true] at h9
  obtain ⟨hv1, hv2⟩ := trailingValue_eq x y hx hy
  have hv : trailingValue x lhs.skip rhs.skip = some y.skip := by
    split at hxy <;> (cases hxy; first | exact hv2 | exact hv1)
  rw [hv] at h9
  simpa using h9

/-- **C117** So what the rule writes for such a chain is truthy just when the chain was, for all values of the types, and has the same value where the guards let through. -/
theorem reported_meaning (W : World V) (hW : W.Lawful) (O : Options) (T : Types) (hO : O.allowUnsafe = false) (gs : List Expr) (lhs rhs : Expr) (o : Op) (t : Text) (ho : Equality o) (hne : gs ≠ [])
    (h : reportsAnd O T (parsed gs (.binary lhs o t rhs)) = true)
    (hlink : Linked (parsed gs (.binary lhs o t rhs))) (hk : ∀ g ∈ gs, Guard (parse true g))
    (hl : (parse true (.binary lhs o t rhs)).kind ∈ [.comparison, .notNull, .notUndef, .notBoth]) (hend : ending (parsed gs (.binary lhs o t rhs)).reverse = .comparison)
    (x y : Expr) (hxy : (x, y) = if onRight true lhs o rhs then (rhs, lhs) else (lhs, rhs)) (hx : isAccess x = true) (hy : isAccess y.unwrap = false)
    (hnb : NoBang x) (hw : ∀ g ∈ gs, WrittenAlike (parse true g).target x) (hlt : ∀ g ∈ gs, (parse true g).target.size < x.size)
    (hcalm : Calm W x) (hyv : W.value y ≠ none) (hty : ∀ b, W.value y = some b → W.HasType (T y.skip) b) (hparam : Part.param ∉ T y.skip)
    (hplain : ∀ g ∈ gs, (parse true g).kind = .plain → ∀ v, W.value g = some v → W.truthy v = true ∨ W.Nullish v)
    (between code : Text) (hcode : andCode between (parsed gs (.binary lhs o t rhs)) = some code) :
    ∃ e', code = e'.text ∧ e'.bare = (Expr.binary lhs o t rhs).bare ∧ ∀ r, W.conjunction (gs ++ [.binary lhs o t rhs]) = some r → (W.value e' = some r ∨ (W.truthy r = false ∧ ∃ z, W.truthy z = false ∧ W.value e' = some z)) := by
  have hsafe := and_trailing O T hO gs lhs rhs o t hne h hl x y hxy hx hy (fun g hg => by rw [← target_size]; exact hlt g hg)
  have hx' : isParen x = false := by cases x <;> first | rfl | exact (nomatch hx)
  have hlen : links false x ≠ [] := by
    cases x <;> first | (rw [links]; simp; done) | exact (nomatch hx)
  refine comparison_meaning W hW gs lhs rhs o t (by rcases ho with rfl | rfl | rfl | rfl <;> simp [Op.eager]) hne hlink hk hl hend x y hxy hx' hlen hnb hw hlt hcalm hyv ?_ hplain between code hcode
  intro b hb
  split
  · exact trailing_safe_swapped W hW o ho _ hparam hsafe b (hty b hb)
  · exact trailing_safe W hW o ho _ hparam hsafe b (hty b hb)

/-! ### Fix or suggestion -/

/-- **C117** Without unsafe fixes, a chain that ends in an access is rewritten by itself only if some operand's type admits undefined (or is any or unknown), and only if it begins
with a truth test or `typeof`, or the first operand's type has any or unknown. -/
theorem automatic_access (O : Options) (T : Types) (hO : O.allowUnsafe = false) (first second last : Operand) (rest : List Operand)
    (hrev : (first :: rest).reverse = last :: second :: (first :: rest).reverse.drop 2) (hl : last.kind = .plain) (hend : ending (first :: rest).reverse = .plain)
    (h : andSuggests O T (first :: rest) = false) :
    (∃ x ∈ first :: rest, ∃ p ∈ T x.expr, p ∈ [Part.undef, .any, .unknown]) ∧
    (first.kind ∉ [.notBoth, .notNull, .notUndef] ∨ ∃ p ∈ T first.expr, p ∈ [Part.any, .unknown]) := by
  unfold andSuggests at h
  rw [hrev] at h hend
  simp only [hend, hO, Bool.false_eq_true, if_false, Bool.or_eq_false_iff, Bool.not_eq_false'] at h
  obtain ⟨⟨h1, h2⟩, _⟩ := h
  constructor
  · unfold fixAtFirst at h1
    simp only [hl, Ending.compares, Bool.false_or, List.any_eq_true] at h1
    obtain ⟨x, hx, hp⟩ := h1
    refine ⟨x, hx, ?_⟩
    simp only [Info.hasUndef, Info.anyOrUnknown, Info.hasAny, Info.hasUnknown, Bool.or_eq_true, List.contains_iff_mem] at hp
    rcases hp with hp | hp | hp
    · exact ⟨_, hp, by simp⟩
    · exact ⟨_, hp, by simp⟩
    · exact ⟨_, hp, by simp⟩
  · unfold explicitThenPlain at h2
    simp only [hl, beq_self_eq_true, Bool.and_true, Bool.and_eq_false_imp, Bool.not_eq_false', Info.anyOrUnknown, Info.hasAny, Info.hasUnknown, Bool.or_eq_true, List.contains_iff_mem, beq_iff_eq] at h2
    by_cases hk : first.kind ∈ [Kind.notBoth, .notNull, .notUndef]
    · right
      simp only [List.mem_cons, List.not_mem_nil, or_false] at hk
      rcases h2 (by rcases hk with h | h | h <;> simp [h]) with h | h
      · exact ⟨_, h, by simp⟩
      · exact ⟨_, h, by simp⟩
    · exact .inl hk

/-- **C117** A comparison at the end is rewritten by itself always, although the result may no longer be the guard's value. -/
theorem automatic_comparison (O : Options) (T : Types) (first second last : Operand) (rest : List Operand)
    (hrev : (first :: rest).reverse = last :: second :: (first :: rest).reverse.drop 2) (hend : ending (first :: rest).reverse = .comparison) (hl : last.kind ≠ .plain) :
    andSuggests O T (first :: rest) = false := by
  unfold andSuggests
  rw [hrev] at hend ⊢
  simp only [hend]
  split
  · rfl
  · have h1 : fixAtFirst T (first :: rest) last .comparison = true := by unfold fixAtFirst; simp [Ending.compares]
    have h2 : explicitThenPlain T first last = false := by unfold explicitThenPlain; simp [hl]
    rw [h1, h2]; rfl

/-- **C117** With the option for unsafe fixes every chain is rewritten by itself. -/
theorem unsafe_automatic (O : Options) (T : Types) (hO : O.allowUnsafe = true) (chain : List Operand) : andSuggests O T chain = false := by
  unfold andSuggests
  split <;> simp [hO]

/-! ### Cases -/

/-- an object or undefined -/
def sampleMaybe : Types := fun _ => [.undef, .object]

/-- **C117** (a finding) An assignment in parentheses counts as a comparison, and those in parentheses are dropped: `x && (x.y = five)` is rewritten to `x?.y` by itself. -/
theorem assignment_dropped : reportsAnd {} sampleMaybe (parsed [sampleVar "x"] (.paren (.binary (sampleAccess "x" "y") .assign " = ".toList (sampleVar "five")))) = true ∧
    andSuggests {} sampleMaybe (parsed [sampleVar "x"] (.paren (.binary (sampleAccess "x" "y") .assign " = ".toList (sampleVar "five")))) = false ∧
    andCode [] (parsed [sampleVar "x"] (.paren (.binary (sampleAccess "x" "y") .assign " = ".toList (sampleVar "five")))) = some "x?.y".toList := by decide +kernel

/-- **C117** (a finding) Any operator counts as a comparison: `x && x.y + "a"` is rewritten to `x?.y + "a"` by itself, which is `"undefineda"` where it was undefined. -/
theorem addition_kept : reportsAnd {} sampleMaybe (parsed [sampleVar "x"] (.binary (sampleAccess "x" "y") .plus " + ".toList (.literal 0 .string "a".toList))) = true ∧
    andSuggests {} sampleMaybe (parsed [sampleVar "x"] (.binary (sampleAccess "x" "y") .plus " + ".toList (.literal 0 .string "a".toList))) = false ∧
    trailingSafe .plus [.str] = true := by decide +kernel

/-- objects, but for the compared value and variables -/
def sampleTyped : Types
  | .literal _ _ _ => [.numLit]
  | .ident _ _ => [.undef, .object]
  | _ => [.object]

def sampleChain : List Expr := [.binary (sampleVar "x") .ne " != ".toList sampleNull]
def sampleEnd : Expr := .binary (sampleAccess "x" "a") .seq " === ".toList sampleZero

example : reportsAnd {} sampleTyped (parsed sampleChain sampleEnd) = true ∧ andSuggests {} sampleTyped (parsed sampleChain sampleEnd) = false := by decide +kernel
example : andCode " && ".toList (parsed sampleChain sampleEnd) = some "x?.a === 0".toList := by decide +kernel
example : ending (parsed sampleChain sampleEnd).reverse = .comparison ∧ (parse true sampleEnd).kind = .comparison ∧ isAccess (sampleAccess "x" "a") = true ∧ isAccess sampleZero.unwrap = false := by
  decide +kernel
example : ∀ b, lawfulWorld.value sampleZero = some b → lawfulWorld.HasType (sampleTyped sampleZero.skip) b := by
  intro b hb
  have : lawfulWorld.value sampleZero = some (.num 1) := by rw [World.value, sampleZero, World.eval]; rfl
  rw [this] at hb; cases hb
  exact ⟨.numLit, by decide +kernel, by show ¬ lawfulWorld.Nullish _; rw [nullish_bool]; decide⟩
example : Part.param ∉ sampleTyped sampleZero.skip := by decide +kernel
/-- only null is checked: `x` may be undefined, so that nothing is reported -/
example : reportsAnd {} (fun _ => [.null, .undef, .object]) (parsed [.binary (sampleVar "x") .sne " !== ".toList sampleNull] (sampleAccess "x" "a")) = false ∧
    reportsAnd {} (fun _ => [.null, .object]) (parsed [.binary (sampleVar "x") .sne " !== ".toList sampleNull] (sampleAccess "x" "a")) = true := by decide +kernel
/-- a suggestion and a fix -/
example : andSuggests {} (fun _ => [.null, .object]) (parsed [sampleVar "x"] (sampleAccess "x" "a")) = true ∧
    andSuggests {} (fun _ => [.undef, .object]) (parsed [sampleVar "x"] (sampleAccess "x" "a")) = false ∧
    reportsAnd {} (fun _ => [.undef, .object]) (parsed [sampleVar "x"] (sampleAccess "x" "a")) = true := by decide +kernel

example : Linked (parsed sampleChain sampleEnd) := by
  intro a p q b h
  have hlen := congrArg List.length h
  simp [parsed, sampleChain] at hlen
  obtain rfl : a = [] := List.length_eq_zero_iff.1 (by omega)
  obtain rfl : b = [] := List.length_eq_zero_iff.1 (by omega)
  cases h; exact .inr (by decide +kernel)

end Tsgolint.OptionalChain
