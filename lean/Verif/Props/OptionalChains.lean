import Verif.Spec.OptionalChains
import Verif.Props.OptionalOperand

/-!
# C112: the chains are parts of the operands that follow each other
-/

namespace Tsgolint.OptionalChain

open Expr

/-! ### Cutting -/

theorem Cut.append_right {α : Type} {cs : List (List α)} {xs : List α} (h : Cut cs xs) (ys : List α) : Cut cs (xs ++ ys) := by
  induction h with
  | done xs => exact .done _
  | skip x _ ih => exact .skip x ih
  | take c _ ih => rw [List.append_assoc]; exact .take c ih

theorem Cut.append {α : Type} {cs ds : List (List α)} {xs ys : List α} (h : Cut cs xs) (h' : Cut ds ys) : Cut (cs ++ ds) (xs ++ ys) := by
  induction h with
  | done xs =>
    induction xs with
    | nil => exact h'
    | cons x xs ih => exact .skip x ih
  | skip x _ ih => exact .skip x ih
  | take c _ ih => rw [List.append_assoc]; exact .take c ih

theorem Cut.single {α : Type} (c : List α) : Cut [c] c := by
  have := Cut.take c (Cut.done (α := α) [])
  rwa [List.append_nil] at this

theorem Cut.skips {α : Type} {cs : List (List α)} {xs : List α} (ys : List α) (h : Cut cs xs) : Cut cs (ys ++ xs) := by
  induction ys with
  | nil => exact h
  | cons y ys ih => exact .skip y ih

theorem Cut.map_prefix {α : Type} {cs : List (List α)} {xs : List α} (f : List α → List α) (hf : ∀ c, f c <+: c) (h : Cut cs xs) : Cut (cs.map f) xs := by
  induction h with
  | done xs => exact .done _
  | skip x _ ih => exact .skip x ih
  | take c _ ih =>
    obtain ⟨t, ht⟩ := hf c
    rw [List.map_cons, ← ht, List.append_assoc, ht]
    exact .take _ (ih.skips t)

/-! ### Links -/

theorem linked_append {c : List Operand} (h : Linked c) (x : Operand) (hx : ∀ p, c.getLast? = some p → Follows p x) : Linked (c ++ [x]) := by
  intro a p q b hc
  rcases List.eq_nil_or_concat b with rfl | ⟨b', y, rfl⟩
  · have : c ++ [x] = (a ++ [p]) ++ [q] := by simpa using hc
    obtain ⟨rfl, hq⟩ := List.append_inj' this rfl
    cases hq
    exact hx p (by simp)
  · have : c ++ [x] = (a ++ p :: q :: b') ++ [y] := by simpa using hc
    obtain ⟨rfl, -⟩ := List.append_inj' this rfl
    exact h a p q b' rfl

theorem linked_single (x : Operand) : Linked [x] := by
  intro a p q b h
  have := congrArg List.length h
  simp at this
  omega

theorem linked_nil : Linked [] := by
  intro a p q b h
  have := congrArg List.length h
  simp at this

theorem linked_prefix {c d : List Operand} (h : Linked c) (hd : d <+: c) : Linked d := by
  obtain ⟨t, rfl⟩ := hd
  intro a p q b hc
  exact h a p q (b ++ t) (by rw [hc]; simp)

theorem follows_of_relate {O : Options} {isAnd : Bool} {first : Option Expr} {p q : Operand} (h : relate O isAnd first p q = .subset ∨ relate O isAnd first p q = .equal) :
    Follows p q := by
  unfold relate at h
  have hc := compare_says p.expr q.expr
  cases hr : compare p.expr q.expr with
  | equal => exact .inl (hc.2.1 hr)
  | subset => exact .inr (hc.2.2.1 hr).1
  | superset => rw [hr] at h; simp at h
  | invalid =>
    rw [hr] at h
    simp only at h
    split at h
    · rename_i he
      rw [Bool.and_eq_true] at he
      have := he.2
      unfold OptionalChain.extend at this
      split at this
      · cases this
      · split at this
        · cases this
        · split at this
          · rename_i hp; exact .inr hp
          · cases this
    · simp at h

theorem follows_of_pair {x y : Operand} (h : isPair x y = true) : Follows x y := by
  unfold isPair at h
  rw [Bool.and_eq_true, beq_iff_eq] at h
  exact .inl ((compare_says _ _).2.1 h.1)

theorem pair_kinds {x y : Operand} (h : isPair x y = true) : endsChain y.kind = false ∧ otherTrailing x = false ∧ otherTrailing y = false := by
  unfold isPair at h
  simp only [Bool.and_eq_true, Bool.or_eq_true, beq_iff_eq] at h
  rcases h.2 with ⟨hx, hy | hy⟩ | ⟨hx | hx, hy⟩ <;> simp [hx, hy, endsChain, otherTrailing]

theorem endsChain_iff (k : Kind) : endsChain k = false ↔ k ∉ [.invalid, .negated, .isNull, .isUndef, .isBoth] := by cases k <;> simp [endsChain]

/-! ### AND chains -/

/-- what holds of the variables of the loop after the operands `done ++ s.current` -/
structure Inv (s : Build) (done : List Operand) : Prop where
  cut : Cut s.all done
  sound : ∀ c ∈ s.all, Sound c ∧ 2 ≤ c.length
  linked : Linked s.current
  kinds : ∀ x ∈ s.current, endsChain x.kind = false
  middle : ∀ x ∈ s.current.tail.dropLast, otherTrailing x = false
  tail : s.complete = false → ∀ x ∈ s.current.tail, otherTrailing x = false

theorem Inv.flush {s : Build} {done : List Operand} (h : Inv s done) : Cut s.flush (done ++ s.current) ∧ ∀ c ∈ s.flush, Sound c ∧ 2 ≤ c.length := by
  unfold Build.flush
  split
  · rename_i hl
    refine ⟨h.cut.append (.single _), ?_⟩
    intro c hc
    rw [List.mem_append, List.mem_singleton] at hc
    rcases hc with hc | rfl
    · exact h.sound c hc
    · exact ⟨⟨h.linked, fun x hx => (endsChain_iff _).1 (h.kinds x hx), h.middle⟩, hl⟩
  · exact ⟨h.cut.append_right _, h.sound⟩

theorem Inv.empty {s : Build} {done : List Operand} (h : Inv s done) (k : Kind) (b : Bool) : Inv ⟨s.flush, [], k, b⟩ (done ++ s.current) where
  cut := h.flush.1
  sound := h.flush.2
  linked := linked_nil
  kinds := nofun
  middle := nofun
  tail := nofun

theorem Inv.restart {s : Build} {done : List Operand} (h : Inv s done) (x : Operand) (hx : endsChain x.kind = false) : Inv (s.restart x) (done ++ s.current) where
  cut := h.flush.1
  sound := h.flush.2
  linked := linked_single x
  kinds := by intro y hy; rw [Build.restart, List.mem_singleton] at hy; rw [hy]; exact hx
  middle := nofun
  tail := nofun

theorem mem_tail_append {α : Type} {c : List α} {x y : α} (h : y ∈ (c ++ [x]).tail) : y ∈ c.tail ∨ y = x := by
  cases c with
  | nil => simp at h
  | cons a c => simpa using h

theorem mem_tail_dropLast_append {α : Type} {c : List α} {x y : α} (h : y ∈ (c ++ [x]).tail.dropLast) : y ∈ c.tail := by
  cases c with
  | nil => simp at h
  | cons a c => simpa using h

theorem Inv.extend {s : Build} {done : List Operand} (h : Inv s done) (x p : Operand) (hx : endsChain x.kind = false) (hc : s.complete = false)
    (hp : s.current.getLast? = some p) (hf : Follows p x) (k : Kind) : Inv ⟨s.all, s.current ++ [x], k, otherTrailing x⟩ done where
  cut := h.cut
  sound := h.sound
  linked := linked_append h.linked x fun p' hp' => by rw [hp] at hp'; cases hp'; exact hf
  kinds := by intro y hy; rw [List.mem_append, List.mem_singleton] at hy; rcases hy with hy | rfl; exact h.kinds y hy; exact hx
  middle := fun y hy => h.tail hc y (mem_tail_dropLast_append hy)
  tail := by
    intro ht y hy
    rcases mem_tail_append hy with hy | rfl
    · exact h.tail hc y hy
    · exact ht

theorem andLoop_inv (O : Options) (T : Types) (s : Build) (xs done : List Operand) (h : Inv s done) :
    Cut (andLoop O T s xs).flush (done ++ s.current ++ xs) ∧ ∀ c ∈ (andLoop O T s xs).flush, Sound c ∧ 2 ≤ c.length := by
  have stop : ∀ {s : Build} {done : List Operand} (_ : Inv s done) (k : Kind) (b : Bool) (ys : List Operand),
      Cut (Build.flush ⟨s.flush, [], k, b⟩) (done ++ s.current ++ ys) ∧ ∀ c ∈ Build.flush ⟨s.flush, [], k, b⟩, Sound c ∧ 2 ≤ c.length := by
    intro s done h k b ys
    have := (h.empty k b).flush
    rw [List.append_nil] at this
    exact ⟨this.1.append_right ys, this.2⟩
  fun_induction andLoop O T s xs generalizing done with
  | case1 s => rw [List.append_nil]; exact h.flush
  | case2 s x rest hx ih =>
    have := ih (done ++ s.current ++ [x]) ⟨(h.empty .invalid false).cut.append_right _, (h.empty .invalid false).sound, linked_nil, nofun, nofun, nofun⟩
    simpa using this
  | case3 s x rest hx hp ho ih =>
    have hnil : s.current = [] := List.getLast?_eq_none_iff.1 hp
    have := ih (done ++ [x]) ⟨h.cut.append_right _, h.sound, h.linked, h.kinds, h.middle, h.tail⟩
    simpa [hnil] using this
  | case4 s x rest hx hp ho ih =>
    have hnil : s.current = [] := List.getLast?_eq_none_iff.1 hp
    have := ih done ⟨h.cut, h.sound, linked_single x, by simpa using hx, nofun, nofun⟩
    simpa [hnil] using this
  | case5 s x rest hx p hp hc ih =>
    have := ih _ (h.restart x (by simpa using hx))
    simpa [Build.restart] using this
  | case6 s x rest hx p hp hc hs => exact stop h _ _ _
  | case7 s x hx p hp hc hs c y rest' hpair ih =>
    rw [Bool.and_eq_true, beq_iff_eq] at hpair
    have hxx : endsChain x.kind = false := by simpa using hx
    have hcc : s.complete = false := by simpa using hc
    obtain ⟨k1, k2, k3⟩ := pair_kinds hpair.2
    have h1 := h.extend x p hxx hcc hp (follows_of_relate (.inr hpair.1)) s.lastCheck
    have h2 := h1.extend y x k1 (by simpa using k2) (by simp) (follows_of_pair hpair.2) s.lastCheck
    have h3 : Inv ⟨s.all, s.current ++ [x, y], s.lastCheck, s.complete⟩ done := by
      have e : s.current ++ [x] ++ [y] = s.current ++ [x, y] := by simp
      have h2' : Inv ⟨s.all, s.current ++ [x] ++ [y], s.lastCheck, otherTrailing y⟩ done := h2
      rw [e, k3] at h2'
      rw [hcc]; exact h2'
    have := ih done h3
    simpa using this
  | case8 s x hx p hp hc hs c y rest' hpair hk => exact stop h _ _ _
  | case9 s x hx p hp hc hs c y rest' hpair hk hr ih =>
    simp only [Bool.or_eq_true, beq_iff_eq] at hr
    have := ih done (h.extend x p (by simpa using hx) (by simpa using hc) hp (follows_of_relate hr) _)
    simpa [Build.extend] using this
  | case10 s x hx p hp hc hs c y rest' hpair hk hr ih =>
    have := ih _ (h.restart x (by simpa using hx))
    simpa [Build.restart] using this
  | case11 s x hx p hp hc hs hk => exact stop h _ _ _
  | case12 s x hx p hp hc hs c hk hr =>
    simp only [Bool.or_eq_true, beq_iff_eq] at hr
    have := (h.extend x p (by simpa using hx) (by simpa using hc) hp (follows_of_relate hr) (if x.kind ≠ .plain && x.kind.nullishCheck then x.kind else s.lastCheck)).flush
    simpa [Build.extend] using this
  | case13 s x hx p hp hc hs c hk hr =>
    have := (h.restart x (by simpa using hx)).flush
    simpa [Build.restart] using this

theorem trimRev_suffix (c : List Operand) : trimRev c <:+ c := by
  fun_induction trimRev c with
  | case1 x y rest h ih => exact ih.trans (List.suffix_cons x _)
  | case2 => exact List.suffix_refl _
  | case3 => exact List.suffix_refl _

theorem trim_prefix (c : List Operand) : trim c <+: c := by
  have := List.reverse_prefix.2 (trimRev_suffix c.reverse)
  rwa [List.reverse_reverse] at this

theorem tail_dropLast_prefix {α : Type} {c d : List α} (h : d <+: c) {x : α} (hx : x ∈ d.tail.dropLast) : x ∈ c.tail.dropLast := by
  obtain ⟨t, rfl⟩ := h
  cases d with
  | nil => simp at hx
  | cons a d =>
    simp only [List.cons_append, List.tail_cons] at hx ⊢
    cases t with
    | nil => simpa using hx
    | cons b t => rw [List.dropLast_append_of_ne_nil (by simp)]; exact List.mem_append_left _ ((List.dropLast_prefix d).subset hx)

/-- **C112** The chains of an AND expression are parts of its operands, one after the other, with operands that follow each other -/
theorem and_chains (O : Options) (T : Types) (xs : List Operand) : Cut (buildAnd O T xs) xs ∧ ∀ c ∈ buildAnd O T xs, Sound c := by
  have h := andLoop_inv O T ⟨[], [], .invalid, false⟩ xs [] ⟨.done _, nofun, linked_nil, nofun, nofun, nofun⟩
  refine ⟨h.1.map_prefix trim trim_prefix, ?_⟩
  intro c hc
  simp only [buildAnd, List.mem_map] at hc
  obtain ⟨c', hc', rfl⟩ := hc
  have hs := (h.2 c' hc').1
  exact ⟨linked_prefix hs.linked (trim_prefix c'), fun x hx => hs.kinds x ((trim_prefix c').subset hx), fun x hx => hs.middle x (tail_dropLast_prefix (trim_prefix c') hx)⟩

theorem trimRev_spec (c : List Operand) : (∃ d, c = d ++ trimRev c ∧ ∀ y ∈ d, y.kind = .plain) ∧ (c ≠ [] → trimRev c ≠ []) ∧
    ¬ ∃ q p a, trimRev c = q :: p :: a ∧ q.kind = .plain ∧ p.kind = .plain ∧ compare p.expr q.expr = .equal := by
  fun_induction trimRev c with
  | case1 x y rest h ih =>
    simp only [Bool.and_eq_true, beq_iff_eq] at h
    obtain ⟨⟨d, hd, hk⟩, h2, h3⟩ := ih
    refine ⟨⟨x :: d, by rw [List.cons_append, ← hd], ?_⟩, fun _ => h2 (by simp), h3⟩
    intro z hz
    rcases List.mem_cons.1 hz with rfl | hz
    · exact h.1.1
    · exact hk z hz
  | case2 x y rest h =>
    refine ⟨⟨[], rfl, nofun⟩, fun h => h, ?_⟩
    rintro ⟨q, p, a, he, h1, h2, h3⟩
    cases he
    simp [h1, h2, h3] at h
  | case3 c h =>
    refine ⟨⟨[], rfl, nofun⟩, fun h => h, ?_⟩
    rintro ⟨q, p, a, rfl, _⟩
    exact h q p a rfl

/-- **C112** Only truth tests are dropped from the end of a chain, until the last two are not truth tests of the same expression -/
theorem trim_spec (c : List Operand) : (∃ d, c = trim c ++ d ∧ ∀ y ∈ d, y.kind = .plain) ∧ (c ≠ [] → trim c ≠ []) ∧
    ¬ ∃ a p q, trim c = a ++ [p, q] ∧ p.kind = .plain ∧ q.kind = .plain ∧ compare p.expr q.expr = .equal := by
  obtain ⟨⟨d, hd, hk⟩, h2, h3⟩ := trimRev_spec c.reverse
  refine ⟨⟨d.reverse, ?_, fun y hy => hk y (List.mem_reverse.1 hy)⟩, ?_, ?_⟩
  · have := congrArg List.reverse hd
    rwa [List.reverse_reverse, List.reverse_append] at this
  · intro h he
    unfold trim at he
    exact h2 (by simpa using h) (List.reverse_eq_nil_iff.1 he)
  · rintro ⟨a, p, q, he, h⟩
    refine h3 ⟨q, p, a.reverse, ?_, h.2.1, h.1, h.2.2⟩
    have := congrArg List.reverse he
    rw [trim, List.reverse_reverse] at this
    rw [this]; simp

theorem andLoop_whole (O : Options) (T : Types) : ∀ (xs : List Operand) (s : Build) (p : Operand), s.current.getLast? = some p → s.complete = false →
    (∀ x ∈ p :: xs, x.kind = .plain ∨ x.kind = .notBoth) → (∀ a p' q b, p :: xs = a ++ p' :: q :: b → compare p'.expr q.expr = .subset) →
    (andLoop O T s xs).all = s.all ∧ (andLoop O T s xs).current = s.current ++ xs
  | [], s, p, _, _, _, _ => by simp [andLoop]
  | x :: rest, s, p, hp, hc, hk, hl => by
    have hx : x.kind = .plain ∨ x.kind = .notBoth := hk x (by simp)
    have hpk : p.kind = .plain ∨ p.kind = .notBoth := hk p (by simp)
    have h1 : endsChain x.kind = false := by rcases hx with h | h <;> rw [h] <;> rfl
    have h2 : stopsAt O T p = false := by
      unfold stopsAt; rcases hpk with h | h <;> simp [h, Kind.strictCheck]
    have h3 : compare p.expr x.expr = .subset := hl [] p x rest rfl
    have h4 : relate O true (s.current.head?.map Operand.expr) p x = .subset := by unfold relate; rw [h3]
    have h5 : (x.kind.nullishCheck && s.lastCheck ≠ .invalid && !consistent s.lastCheck x.kind) = false := by
      rcases hx with h | h <;> simp [h, Kind.nullishCheck, consistent, Kind.looseCheck]
    have h6 : otherTrailing x = false := by
      rcases hx with h | h <;> simp [h, otherTrailing]
    have ih := andLoop_whole O T rest (s.extend x) x (by simp [Build.extend]) (by simp [Build.extend, h6])
      (fun y hy => hk y (List.mem_cons_of_mem _ hy)) (fun a p' q b he => hl (p :: a) p' q b (by rw [he]; rfl))
    have hstep : andLoop O T s (x :: rest) = andLoop O T (s.extend x) rest := by
      rw [andLoop, h1, hp]
      simp only [Bool.false_eq_true, if_false, hc, h2]
      cases rest with
      | nil =>
        simp only [h4, h5, Bool.false_eq_true, if_false, beq_self_eq_true, Bool.true_or, if_true, andLoop]
      | cons y rest' =>
        have h7 : (Rel.subset == Rel.equal) = false := rfl
        simp only [h4, h5, h7, Bool.false_and, Bool.false_eq_true, if_false, beq_self_eq_true, Bool.true_or, if_true]
    rw [hstep]
    refine ⟨ih.1, ?_⟩
    rw [ih.2]; simp [Build.extend]

/-- **C112** Truth tests and comparisons with `!= null`, each of an expression that properly begins the next one's, are one chain -/
theorem and_whole (O : Options) (T : Types) (xs : List Operand) (hlen : 2 ≤ xs.length) (hk : ∀ x ∈ xs, x.kind = .plain ∨ x.kind = .notBoth)
    (hl : ∀ a p q b, xs = a ++ p :: q :: b → compare p.expr q.expr = .subset) : buildAnd O T xs = [xs] := by
  cases xs with
  | nil => simp at hlen
  | cons x rest =>
    have hx : x.kind = .plain ∨ x.kind = .notBoth := hk x (by simp)
    have h1 : endsChain x.kind = false := by rcases hx with h | h <;> rw [h] <;> rfl
    have h6 : otherTrailing x = false := by
      rcases hx with h | h <;> simp [h, otherTrailing]
    let s : Build := ⟨[], [x], if x.kind ≠ .plain then x.kind else .invalid, false⟩
    have h := andLoop_whole O T rest s x rfl rfl hk hl
    have hstep : andLoop O T ⟨[], [], .invalid, false⟩ (x :: rest) = andLoop O T s rest := by
      rw [andLoop, h1, h6]; rfl
    have hflush : (andLoop O T s rest).flush = [x :: rest] := by
      unfold Build.flush
      rw [h.1, h.2]
      have : ([x] ++ rest).length ≥ 2 := by simpa using hlen
      rw [if_pos this]; rfl
    rw [buildAnd, hstep, hflush]
    have ht : trim (x :: rest) = x :: rest := by
      have hrev : trimRev (x :: rest).reverse = (x :: rest).reverse := by
        rcases List.eq_nil_or_concat rest with rfl | ⟨r, q, rfl⟩
        · simp at hlen
        · obtain ⟨a, p, hap⟩ : ∃ a p, x :: r = a ++ [p] := by
            rcases List.eq_nil_or_concat (x :: r) with h | ⟨a, p, h⟩
            · cases h
            · exact ⟨a, p, by simpa using h⟩
          have he : x :: (r ++ [q]) = a ++ p :: q :: [] := by
            rw [← List.cons_append, hap]; simp
          have hc := hl a p q [] (by simpa using he)
          have hr : (x :: (r ++ [q])).reverse = q :: p :: a.reverse := by rw [he]; simp
          have hr' : (x :: r.concat q).reverse = q :: p :: a.reverse := by simpa using hr
          rw [hr', trimRev]
          simp [hc]
      rw [trim, hrev, List.reverse_reverse]
    rw [List.map_singleton, ht]

/-- **C112** Apart from the first operand of an expression, a chain may begin with any comparison: `a && b.c === d && b.c.e` gives the chain
`b.c === d && b.c.e`, which is then replaced by `b.c?.e` -/
theorem comparison_first (O : Options) (T : Types) (hO : O.allowUnsafe = false) (a b c d e : Text) (hab : a ≠ b) :
    let bc : Expr := .prop (.ident 1 b) false c
    let x1 := parse true (.ident 0 a)
    let x2 := parse true (.binary bc .seq [] (.ident 2 d))
    let x3 := parse true (.prop bc false e)
    d ≠ "undefined".toList → buildAnd O T [x1, x2, x3] = [[x2, x3]] ∧ x2.kind = .comparison ∧ nullishComparison x2 = false := by
  intro bc x1 x2 x3 hd
  have hd' : (d == "undefined".toList) = false := by simpa using hd
  have e1 : x1 = ⟨.plain, .ident 0 a, .ident 0 a⟩ := rfl
  have hsides : sides bc (.ident 2 d) = none := by
    simp only [sides, isNullishLit, isNullLit, isUndefLit, isUndefName, hd', isStringLit, bc, Bool.or_false, Bool.false_eq_true, if_false]
  have e2 : x2 = ⟨.comparison, .binary bc .seq [] (.ident 2 d), bc⟩ := by
    have : x2 = parseBinary true (.binary bc .seq [] (.ident 2 d)) bc .seq (.ident 2 d) := rfl
    rw [this, parseBinary, nullishOperand, hsides]
    rfl
  have e3 : x3 = ⟨.plain, .prop bc false e, .prop bc false e⟩ := rfl
  have hn : nullishComparison x2 = false := by
    rw [e2]
    simp only [nullishComparison, binaryParts, skip, isNullishLit, isNullLit, isUndefLit, isUndefName, hd', bc, Bool.or_false, Bool.and_false]
  refine ⟨?_, by rw [e2], hn⟩
  have ho : otherTrailing x2 = true := by rw [otherTrailing, hn, e2]; rfl
  have hc1 : compare (.ident 0 a) bc = .invalid := by
    have : (a == b) = false := by simpa using hab
    simp [compare, bc, Expr.sideEffects, Expr.blocked, Expr.hasOptional, Expr.standalone, Expr.skip, Expr.isNew, Expr.root, Expr.isFresh, Expr.clash, Expr.signatures,
      Expr.eq, Expr.unwrap, Expr.isPrefix, hab]
  have hc2 : compare bc (.prop bc false e) = .subset := by
    simp [compare, bc, Expr.sideEffects, Expr.blocked, Expr.hasOptional, Expr.standalone, Expr.skip, Expr.isNew, Expr.root, Expr.isFresh, Expr.clash, Expr.signatures,
      Expr.eq, Expr.unwrap, Expr.isPrefix]
  have r1 : ∀ f, relate O true f x1 x2 = .invalid := by
    intro f
    simp [relate, e1, e2, hc1, allowExtension, hO]
  have r2 : ∀ f, relate O true f x2 x3 = .subset := by
    intro f
    simp [relate, e2, e3, hc2]
  have s1 : stopsAt O T x1 = false := by simp [stopsAt, e1, Kind.strictCheck]
  have s2 : stopsAt O T x2 = false := by simp [stopsAt, e2, Kind.strictCheck]
  have k1 : x1.kind = .plain := by rw [e1]
  have k2 : x2.kind = .comparison := by rw [e2]
  have k3 : x3.kind = .plain := by rw [e3]
  have l1 : andLoop O T ⟨[], [], .invalid, false⟩ [x1, x2, x3] = ⟨[], [x2, x3], .comparison, false⟩ := by
    rw [andLoop]
    simp only [k1, endsChain, otherTrailing, List.getLast?_nil, Bool.false_eq_true, if_false, ne_eq, not_true_eq_false]
    have : ((Kind.plain == Kind.comparison) && !nullishComparison x1) = false := rfl
    rw [this, if_neg (by simp), andLoop]
    simp only [k2, endsChain, List.getLast?_singleton, Bool.false_eq_true, if_false, s1, List.head?_cons, Option.map_some, r1]
    have h1 : (Rel.invalid == Rel.equal) = false := rfl
    have h2 : (Rel.invalid == Rel.subset) = false := rfl
    simp only [h1, h2, Kind.nullishCheck, Bool.false_and, Bool.or_false, Bool.false_eq_true, if_false]
    rw [Build.restart, andLoop]
    have h3 : (Rel.subset == Rel.equal) = false := rfl
    simp only [k2, k3, endsChain, List.getLast?_singleton, Bool.false_eq_true, if_false, s2, List.head?_cons, Option.map_some, r2, Kind.nullishCheck, Bool.false_and,
      beq_self_eq_true, Bool.true_or, if_true, Build.extend, Build.flush, otherTrailing]
    rfl
  rw [buildAnd, l1]
  simp only [Build.flush, List.length_cons, List.length_nil, List.nil_append, List.map_cons, List.map_nil]
  have : trim [x2, x3] = [x2, x3] := by
    simp [trim, trimRev, k2, k3]
  rw [if_pos (by omega), List.map_singleton, this]

/-- **C112** Two checks contradict each other only if the chain began with a comparison and the second one is strict -/
theorem inconsistent_iff (a b : Kind) (ha : endsChain a = false) (hp : a ≠ .plain) (hn : a ≠ .not) (hb : b.nullishCheck = true) :
    consistent a b = false ↔ a = .comparison ∧ b.looseCheck = false := by
  cases a <;> cases b <;> simp_all [consistent, Kind.looseCheck, Kind.aboutNull, Kind.aboutUndef, endsChain, Kind.nullishCheck]

/-! ### OR chains -/

theorem orLoop_inv (O : Options) (c xs done : List Operand) (hl : Linked c) (hk : ∀ x ∈ c, validInOr x.kind = true) :
    Cut [orLoop O c xs] (done ++ c ++ xs) ∧ Linked (orLoop O c xs) ∧ ∀ x ∈ orLoop O c xs, validInOr x.kind = true := by
  have stop : ∀ (done c ys : List Operand), Cut [c] (done ++ c ++ ys) := by
    intro done c ys
    rw [List.append_assoc]
    exact (((Cut.single c).append_right ys)).skips done
  have single : ∀ x : Operand, ¬ (!validInOr x.kind) = true → ∀ y ∈ [x], validInOr y.kind = true := by
    intro x hx y hy; rw [List.mem_singleton] at hy; rw [hy]; simpa using hx
  have app : ∀ (c : List Operand) (x : Operand), (∀ y ∈ c, validInOr y.kind = true) → ¬ (!validInOr x.kind) = true → ∀ y ∈ c ++ [x], validInOr y.kind = true := by
    intro c x hc hx y hy
    rcases List.mem_append.1 hy with hy | hy
    · exact hc y hy
    · exact single x hx y hy
  have link : ∀ (c : List Operand) (x p : Operand), Linked c → c.getLast? = some p → (relate O false none p x == .subset || relate O false none p x == .equal) = true → Linked (c ++ [x]) := by
    intro c x p hc hp hr
    simp only [Bool.or_eq_true, beq_iff_eq] at hr
    exact linked_append hc x fun p' hp' => by rw [hp] at hp'; cases hp'; exact follows_of_relate hr
  fun_induction orLoop O c xs generalizing done with
  | case1 c => rw [List.append_nil]; exact ⟨by simpa using stop done c [], hl, hk⟩
  | case2 c x rest hx h2 => exact ⟨stop _ _ _, hl, hk⟩
  | case3 c x rest hx h2 ih => simpa using ih (done ++ c ++ [x]) linked_nil nofun
  | case4 c x rest hx hp hb ih =>
    have hnil : c = [] := List.getLast?_eq_none_iff.1 hp
    simpa [hnil] using ih (done ++ [x]) linked_nil nofun
  | case5 c x rest hx hp hb ih =>
    have hnil : c = [] := List.getLast?_eq_none_iff.1 hp
    simpa [hnil] using ih done (linked_single x) (single x hx)
  | case6 c x rest hx p hp r hr he h2 => exact ⟨stop _ _ _, hl, hk⟩
  | case7 c x rest hx p hp r hr he h2 ho ih => simpa using ih (done ++ c ++ [x]) linked_nil nofun
  | case8 c x rest hx p hp r hr he h2 ho ih => simpa using ih done (link c x p hl hp hr) (app c x hk hx)
  | case9 c x rest hx p hp r hr he ih => simpa using ih done (link c x p hl hp hr) (app c x hk hx)
  | case10 c x rest hx p hp r hr h2 => exact ⟨stop _ _ _, hl, hk⟩
  | case11 c x rest hx p hp r hr h2 ih => simpa using ih (done ++ c) (linked_single x) (single x hx)

/-- **C112** The chain of an OR expression (there is at most one) is a part of its operands, of at least two that follow each other -/
theorem or_chains (O : Options) (xs : List Operand) : Cut (buildOr O xs) xs ∧ (buildOr O xs).length ≤ 1 ∧
    ∀ c ∈ buildOr O xs, 2 ≤ c.length ∧ Linked c ∧ ∀ x ∈ c, x.kind ∉ [.invalid, .negated] := by
  have h := orLoop_inv O [] xs [] linked_nil nofun
  simp only [buildOr]
  split
  · exact ⟨.done _, by simp, nofun⟩
  · rename_i hlen
    refine ⟨by simpa using h.1, by simp, ?_⟩
    intro c hc
    rw [List.mem_singleton] at hc
    subst hc
    refine ⟨by omega, h.2.1, ?_⟩
    intro x hx
    have := h.2.2 x hx
    cases hk : x.kind <;> rw [hk] at this <;> simp [validInOr] at this ⊢

theorem orLoop_whole (O : Options) : ∀ (xs c : List Operand) (p : Operand), c.getLast? = some p → (∀ x ∈ xs, x.kind = .not ∨ x.kind = .notBoth) →
    (∀ a p' q b, p :: xs = a ++ p' :: q :: b → compare p'.expr q.expr = .subset) → orLoop O c xs = c ++ xs
  | [], c, p, _, _, _ => by simp [orLoop]
  | x :: rest, c, p, hp, hk, hl => by
    have h1 : (!validInOr x.kind) = false := by rcases hk x (by simp) with h | h <;> rw [h] <;> rfl
    have h3 : compare p.expr x.expr = .subset := hl [] p x rest rfl
    have h4 : relate O false none p x = .subset := by unfold relate; rw [h3]
    have h5 : (Rel.subset == Rel.equal) = false := rfl
    rw [orLoop, h1, hp]
    simp only [Bool.false_eq_true, if_false, h4, h5, Bool.or_false, Bool.false_and, beq_self_eq_true, if_true]
    have ih := orLoop_whole O rest (c ++ [x]) x (by simp) (fun y hy => hk y (List.mem_cons_of_mem _ hy)) (fun a p' q b he => hl (p :: a) p' q b (by rw [he]; rfl))
    rw [ih]; simp

/-- **C112** Negations and comparisons with `== null`, each of an expression that properly begins the next one's, are one chain -/
theorem or_whole (O : Options) (xs : List Operand) (hlen : 2 ≤ xs.length) (hk : ∀ x ∈ xs, x.kind = .not ∨ x.kind = .notBoth)
    (hl : ∀ a p q b, xs = a ++ p :: q :: b → compare p.expr q.expr = .subset) : buildOr O xs = [xs] := by
  cases xs with
  | nil => simp at hlen
  | cons x rest =>
    have h1 : (!validInOr x.kind) = false := by rcases hk x (by simp) with h | h <;> rw [h] <;> rfl
    have h2 : badStart x = false := by rcases hk x (by simp) with h | h <;> simp [badStart, h]
    have h := orLoop_whole O rest [x] x rfl (fun y hy => hk y (List.mem_cons_of_mem _ hy)) hl
    have hstep : orLoop O [] (x :: rest) = x :: rest := by
      rw [orLoop, h1]
      simp only [Bool.false_eq_true, if_false, List.getLast?_nil, h2]
      exact h
    simp only [buildOr, hstep]
    rw [if_neg (by omega)]

/-- **C112** Which comparisons may not begin an OR chain: `a === v` where neither is null or undefined, and `x != null`, `x !== undefined` of a variable or `this` -/
theorem badStart_iff (x : Operand) (l r : Expr) (o : Op) (hb : binaryParts x.node = some (l, o, r)) :
    badStart x = true ↔ x.kind = .comparison ∧
      ((o = .seq ∧ l.isNullishLit = false ∧ r.isNullishLit = false) ∨
       ((o = .ne ∨ o = .sne) ∧ ((r.isNullishLit = true ∧ simple l = true) ∨ (r.isNullishLit = false ∧ l.isNullishLit = true ∧ simple r = true)))) := by
  unfold badStart
  rw [hb]
  by_cases hk : x.kind = .comparison
  · rw [if_neg (by simp [hk])]
    cases o <;> cases hl : l.isNullishLit <;> cases hr : r.isNullishLit <;> simp [hk, hl, hr]
  · rw [if_pos hk]; simp [hk]

/-- **C112** Such an operand at the beginning is passed over -/
theorem badStart_skipped (O : Options) (x : Operand) (rest : List Operand) (h : badStart x = true) : buildOr O (x :: rest) = buildOr O rest := by
  have hk : x.kind = .comparison := by
    unfold badStart at h
    by_cases hk : x.kind = .comparison
    · exact hk
    · rw [if_pos hk] at h; cases h
  have hv : validInOr x.kind = true := by rw [hk]; rfl
  unfold buildOr
  rw [orLoop, hv]
  simp only [Bool.not_true, Bool.false_eq_true, if_false, List.getLast?_nil, h, if_true]

/-- **C112** (finding) But not after another operand: there it begins a chain -/
theorem badStart_later (O : Options) (y x : Operand) (rest : List Operand) (hy : validInOr y.kind = true) (hby : badStart y = false) (hx : validInOr x.kind = true)
    (hr : relate O false none y x ≠ .subset) (hr' : relate O false none y x ≠ .equal) : orLoop O [] (y :: x :: rest) = orLoop O [x] rest := by
  rw [orLoop, hy]
  simp only [Bool.not_true, Bool.false_eq_true, if_false, List.getLast?_nil, hby]
  rw [orLoop, hx]
  simp only [Bool.not_true, Bool.false_eq_true, if_false, List.getLast?_singleton, List.length_singleton]
  rw [if_neg (by simp [hr, hr']), if_neg (by omega)]

/-! ### Examples -/

/-- `x`, `x.y`, `x.y.z` -/
def sampleX : List Operand := [sampleVar "x", sampleProp (sampleVar "x") "y", sampleProp (sampleProp (sampleVar "x") "y") "z"].map (parse true)
example : buildAnd {} (fun _ => []) sampleX = [sampleX] := by
  apply and_whole
  · decide
  · simp [sampleX]; decide
  · intro a p q b h
    rcases a with _ | ⟨a1, _ | ⟨a2, a⟩⟩
    · simp only [sampleX, List.map, List.nil_append, List.cons.injEq] at h
      obtain ⟨rfl, rfl, _⟩ := h; decide +kernel
    · simp only [sampleX, List.map, List.cons_append, List.nil_append, List.cons.injEq] at h
      obtain ⟨_, rfl, rfl, _⟩ := h; decide +kernel
    · have := congrArg List.length h; simp [sampleX] at this; omega
example : (buildAnd {} (fun _ => []) ([sampleVar "x", .unary .not (sampleVar "b"), sampleVar "y", sampleProp (sampleVar "y") "z", sampleVar "w"].map (parse true))).map
    (fun c => c.map fun x => x.expr.text) = [["y".toList, "y.z".toList]] := by decide +kernel
example : (buildOr {} ([sampleVar "w", .unary .not (sampleVar "x"), .unary .not (sampleProp (sampleVar "x") "y")].map (parse false))).map
    (fun c => c.map fun x => x.expr.text) = [["x".toList, "x.y".toList]] := by decide +kernel

/-- `a.c === b` -/
def sampleBad : Expr := .binary (sampleProp (sampleVar "a") "c") .seq " === ".toList (sampleVar "b")
example : badStart (parse false sampleBad) = true := by decide +kernel
example : (buildOr {} ([sampleBad, .unary .not (sampleVar "x"), .unary .not (sampleProp (sampleVar "x") "y")].map (parse false))).map
    (fun c => c.map fun x => x.expr.text) = [["x".toList, "x.y".toList]] := by decide +kernel

end Tsgolint.OptionalChain
