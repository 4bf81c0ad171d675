import Verif.Spec.UnnecessaryAssertion
/-!
# The parts of no-unnecessary-type-assertion against their specification
-/
namespace Tsgolint.UnnecessaryAssertion
variable {N T : Type}

theorem Kind.isParen_iff (k : Kind N) : k.isParen = true ↔ k = .paren := by cases k <;> simp [Kind.isParen]
theorem Kind.isAccess_iff (k : Kind N) : k.isAccess = true ↔ k = .propertyAccess ∨ ∃ e, k = .elementAccess e := by cases k <;> simp [Kind.isAccess]
theorem Kind.assertion?_iff (k : Kind N) (x : N) : k.assertion? = some x ↔ k = .asExpression x ∨ k = .angleBracket x := by cases k <;> simp [Kind.assertion?]
theorem Kind.assertion?_none (k : Kind N) : k.assertion? = none ↔ (∀ x, k ≠ .asExpression x) ∧ ∀ x, k ≠ .angleBracket x := by cases k <;> simp [Kind.assertion?]
theorem Kind.callOrNew?_iff (k : Kind N) (c : N) (a : List N) (t : Bool) : k.callOrNew? = some (c, a, t) ↔ k = .call c a t ∨ k = .construct c a t := by
  cases k <;> simp [Kind.callOrNew?]
theorem Kind.conceptuallyLiteral_iff (k : Kind N) : k.conceptuallyLiteral = true ↔
    (∃ n, k = .objectLiteral n) ∨ (∃ l, k = .arrayLiteral l) ∨ ((∃ b a, k = .functionExpression b a) ∨ ∃ body b a, k = .arrow body b a) ∨ k = .null ∨ k = .template ∨ k = .literal := by
  cases k <;> simp [Kind.conceptuallyLiteral]
theorem Kind.isFunction_iff (k : Kind N) : k.isFunction = true ↔ (∃ b a, k = .functionExpression b a) ∨ ∃ body b a, k = .arrow body b a := by
  cases k <;> simp [Kind.isFunction]

/-! ### Ancestors -/

theorem receiver_iff (W : World N T) : ∀ up, W.receiver up = true ↔
    ∃ between access above, up = between ++ access :: above ∧ (∀ x ∈ between, W.kind x = .paren ∨ W.kind x = .propertyAccess ∨ ∃ e, W.kind x = .elementAccess e) ∧
      (W.kind access = .propertyAccess ∨ ∃ e, W.kind access = .elementAccess e) ∧ W.writeAccess access = true
  | [] => by simp [World.receiver]
  | c :: up => by
    have ih := receiver_iff W up
    rw [World.receiver]
    have step : (W.kind c = .paren ∨ W.kind c = .propertyAccess ∨ ∃ e, W.kind c = .elementAccess e) → W.receiver up = true →
        ∃ between access above, c :: up = between ++ access :: above ∧ (∀ x ∈ between, W.kind x = .paren ∨ W.kind x = .propertyAccess ∨ ∃ e, W.kind x = .elementAccess e) ∧
        (W.kind access = .propertyAccess ∨ ∃ e, W.kind access = .elementAccess e) ∧ W.writeAccess access = true := by
      intro hc h
      obtain ⟨b, a, ab, rfl, h1, h2⟩ := ih.1 h
      exact ⟨c :: b, a, ab, rfl, List.forall_mem_cons.2 ⟨hc, h1⟩, h2⟩
    have back : ¬ ((W.kind c = .propertyAccess ∨ ∃ e, W.kind c = .elementAccess e) ∧ W.writeAccess c = true) →
        (∃ between access above, c :: up = between ++ access :: above ∧ (∀ x ∈ between, W.kind x = .paren ∨ W.kind x = .propertyAccess ∨ ∃ e, W.kind x = .elementAccess e) ∧
        (W.kind access = .propertyAccess ∨ ∃ e, W.kind access = .elementAccess e) ∧ W.writeAccess access = true) →
        (W.kind c = .paren ∨ W.kind c = .propertyAccess ∨ ∃ e, W.kind c = .elementAccess e) ∧ W.receiver up = true := by
      rintro hn ⟨b, a, ab, he, h1, h2⟩
      cases b with
      | nil => cases he; exact absurd h2 hn
      | cons x b =>
        cases he
        exact ⟨h1 _ (List.mem_cons_self ..), ih.2 ⟨b, a, ab, rfl, fun y hy => h1 y (List.mem_cons_of_mem _ hy), h2⟩⟩
    split
    · rename_i hp
      rw [Kind.isParen_iff] at hp
      exact ⟨step (.inl hp), fun h => (back (by rw [hp]; simp) h).2⟩
    · rename_i hp
      rw [Kind.isParen_iff] at hp
      split
      · rename_i ha
        have ha' := (Kind.isAccess_iff _).1 ha
        split
        · rename_i hw
          exact ⟨fun _ => ⟨[], c, up, rfl, by simp, ha', hw⟩, fun _ => rfl⟩
        · rename_i hw
          exact ⟨step (.inr ha'), fun h => (back (fun h => hw h.2) h).2⟩
      · rename_i ha
        rw [Kind.isAccess_iff] at ha
        refine ⟨nofun, fun h => ?_⟩
        rcases (back (fun h => ha h.1) h).1 with h | h
        · exact absurd h hp
        · exact absurd h ha

theorem outer_iff (W : World N T) (up : List N) (o : N) (above : List N) : W.outOfParens up = o :: above ↔ Outer W up o above := by
  induction up with
  | nil => simp [World.outOfParens, Outer]
  | cons x up ih =>
    rw [World.outOfParens, List.dropWhile_cons]
    split
    · rename_i hx
      rw [Kind.isParen_iff] at hx
      rw [show List.dropWhile (fun p => (W.kind p).isParen) up = W.outOfParens up from rfl, ih]
      constructor
      · rintro ⟨ps, rfl, h1, h2⟩
        exact ⟨x :: ps, rfl, List.forall_mem_cons.2 ⟨hx, h1⟩, h2⟩
      · rintro ⟨ps, he, h1, h2⟩
        cases ps with
        | nil => cases he; exact absurd hx h2
        | cons y ps => cases he; exact ⟨ps, rfl, fun z hz => h1 z (List.mem_cons_of_mem _ hz), h2⟩
    · rename_i hx
      rw [Kind.isParen_iff] at hx
      constructor
      · intro h; cases h; exact ⟨[], rfl, by simp, hx⟩
      · rintro ⟨ps, he, h1, h2⟩
        cases ps with
        | nil => cases he; rfl
        | cons y ps => cases he; exact absurd (h1 _ (List.mem_cons_self ..)) hx

theorem Outer.unique {W : World N T} {up : List N} {o o' : N} {a a' : List N} (h : Outer W up o a) (h' : Outer W up o' a') : o = o' ∧ a = a' := by
  have := (outer_iff W up o a).2 h
  rw [(outer_iff W up o' a').2 h'] at this
  cases this; exact ⟨rfl, rfl⟩

theorem outer_none (W : World N T) (up : List N) (h : W.outOfParens up = []) (o above) : ¬ Outer W up o above := by
  rw [← outer_iff, h]; simp

theorem outside_outer (W : World N T) (node o : N) (above : List N) : (∃ i, Outside W node i o above) ↔ Outer W (W.ancestors node) o above :=
  ⟨fun ⟨_, ps, h1, h2, h3, _⟩ => ⟨ps, h1, h2, h3⟩, fun ⟨ps, h1, h2, h3⟩ => ⟨_, ps, h1, h2, h3, rfl⟩⟩

/-- The parent outside parentheses. -/
theorem parentThroughParens_iff (W : World N T) (node p : N) : W.parentThroughParens node = some p ↔ ∃ above, Outer W (W.ancestors node) p above := by
  rw [World.parentThroughParens]
  cases h : W.outOfParens (W.ancestors node) with
  | nil => simp only [List.head?_nil, false_iff, reduceCtorEq]; rintro ⟨a, ha⟩; exact outer_none W _ h _ _ ha
  | cons x up =>
    have hx := (outer_iff W _ _ _).1 h
    simp only [List.head?_cons, Option.some.injEq]
    constructor
    · rintro rfl; exact ⟨up, hx⟩
    · rintro ⟨a, ha⟩; exact (hx.unique ha).1

theorem parentThroughParens_any (W : World N T) (node : N) (Q : N → Prop) : (∃ p, W.parentThroughParens node = some p ∧ Q p) ↔ ∃ o above, Outer W (W.ancestors node) o above ∧ Q o := by
  constructor
  · rintro ⟨p, hp, hq⟩
    obtain ⟨a, ha⟩ := (parentThroughParens_iff W node p).1 hp
    exact ⟨p, a, ha, hq⟩
  · rintro ⟨o, a, h, hq⟩
    exact ⟨o, (parentThroughParens_iff W node o).2 ⟨a, h⟩, hq⟩

section
variable [DecidableEq N]

theorem elementArgument_iff (W : World N T) : ∀ up current, W.elementArgument current up = true ↔
    ∃ parens outer above, up = parens ++ outer :: above ∧ (∀ x ∈ parens, W.kind x = .paren) ∧ W.kind outer = .elementAccess ((current :: parens).getLast (by simp))
  | [], current => by simp [World.elementArgument]
  | p :: up, current => by
    rw [World.elementArgument]
    split
    · rename_i hp
      rw [Kind.isParen_iff] at hp
      rw [elementArgument_iff W up p]
      constructor
      · rintro ⟨ps, o, a, rfl, h1, h2⟩
        exact ⟨p :: ps, o, a, rfl, List.forall_mem_cons.2 ⟨hp, h1⟩, by rw [List.getLast_cons (by simp)]; exact h2⟩
      · rintro ⟨ps, o, a, he, h1, h2⟩
        cases ps with
        | nil => cases he; rw [hp] at h2; cases h2
        | cons x ps =>
          cases he
          exact ⟨ps, o, a, rfl, fun z hz => h1 z (List.mem_cons_of_mem _ hz), by rw [List.getLast_cons (by simp)] at h2; exact h2⟩
    · rename_i hp
      rw [Kind.isParen_iff] at hp
      have key : (∃ parens outer above, p :: up = parens ++ outer :: above ∧ (∀ x ∈ parens, W.kind x = .paren) ∧ W.kind outer = .elementAccess ((current :: parens).getLast (by simp))) ↔
          W.kind p = .elementAccess current := by
        constructor
        · rintro ⟨ps, o, a, he, h1, h2⟩
          cases ps with
          | nil => cases he; exact h2
          | cons x ps => cases he; exact absurd (h1 _ (List.mem_cons_self ..)) hp
        · intro h; exact ⟨[], p, up, rfl, by simp, h⟩
      rw [key]
      cases hk : W.kind p <;> simp

theorem isIndex_iff (W : World N T) (node : N) : W.elementArgument node (W.ancestors node) = true ↔ IsIndex W node := by
  rw [elementArgument_iff]
  constructor
  · rintro ⟨ps, o, a, h1, h2, h3⟩
    exact ⟨_, o, a, ⟨ps, h1, h2, by rw [h3]; simp, rfl⟩, h3⟩
  · rintro ⟨i, o, a, ⟨ps, h1, h2, _, rfl⟩, h3⟩
    exact ⟨ps, o, a, h1, h2, h3⟩

omit [DecidableEq N] in
theorem isFunction_iff (W : World N T) (n : N) : (W.kind n).isFunction = true ↔ IsFunction W n := Kind.isFunction_iff _

theorem infers_iff (W : World N T) (node c : N) : W.infers node (W.kind c) = true ↔ Infers W node c := by
  have hg : ∀ callee, W.genericCallee (W.typeAt callee) = true ↔ ∃ s ∈ W.callSignatures (W.typeAt callee), s.generic = true := by
    intro callee; simp [World.genericCallee]
  rw [Infers]
  cases hk : W.kind c with
  | call callee args t =>
    simp only [World.infers, Kind.call.injEq, reduceCtorEq, or_false]
    cases t with
    | true => simp
    | false =>
      simp only [Bool.false_eq_true, if_false]
      split
      · rename_i h
        have h : (W.kind callee = .propertyAccess ∨ ∃ e, W.kind callee = .elementAccess e) ∧ node ∈ args := by
          simpa only [Bool.and_eq_true, List.contains_iff_mem, Kind.isAccess_iff] using h
        simp only [Bool.false_eq_true, false_iff]
        rintro ⟨c, a, ⟨⟨rfl, rfl, _⟩, hn⟩, _⟩
        exact absurd h hn
      · rename_i h
        have h : ¬ ((W.kind callee = .propertyAccess ∨ ∃ e, W.kind callee = .elementAccess e) ∧ node ∈ args) := by
          simpa only [Bool.and_eq_true, List.contains_iff_mem, Kind.isAccess_iff] using h
        rw [hg]
        constructor
        · intro hs; exact ⟨_, _, ⟨⟨rfl, rfl, trivial⟩, h⟩, hs⟩
        · rintro ⟨c, a, ⟨⟨rfl, rfl, _⟩, _⟩, hs⟩; exact hs
  | construct callee args t =>
    simp only [World.infers, Kind.construct.injEq, reduceCtorEq, false_and, false_or]
    cases t with
    | true => simp
    | false =>
      simp only [Bool.false_eq_true, if_false]
      rw [hg]
      constructor
      · intro hs; exact ⟨_, _, ⟨rfl, rfl, trivial⟩, hs⟩
      · rintro ⟨c, a, ⟨rfl, rfl, _⟩, hs⟩; exact hs
  | _ => simp [World.infers]

omit [DecidableEq N] in
theorem Infers.not_function {W : World N T} {node c : N} (h : Infers W node c) : ¬ IsFunction W c ∧ W.kind c ≠ .functionDeclaration := by
  obtain ⟨callee, args, h | h, _⟩ := h
  · rw [IsFunction, h.1]; simp
  · rw [IsFunction, h]; simp

theorem genericFrom_iff (W : World N T) (node : N) : ∀ up seen, W.genericFrom node seen up = true ↔
    ∃ between c above, up = between ++ c :: above ∧ Infers W node c ∧ (∀ x ∈ between, W.kind x ≠ .functionDeclaration ∧ ¬ HasBlock W x) ∧
      (seen = true → ∀ x ∈ between, ¬ IsFunction W x) ∧ ∀ l m r x y, between = l ++ x :: m ++ y :: r → ¬ (IsFunction W x ∧ IsFunction W y)
  | [], seen => by simp [World.genericFrom]
  | c :: up, seen => by
    rw [World.genericFrom.eq_def]
    -- what a function among the ancestors does
    have fn : IsFunction W c → ¬ HasBlock W c → W.kind c ≠ .functionDeclaration →
        ((if seen = true then false else W.genericFrom node true up) = true ↔
        ∃ between d above, c :: up = between ++ d :: above ∧ Infers W node d ∧ (∀ x ∈ between, W.kind x ≠ .functionDeclaration ∧ ¬ HasBlock W x) ∧
        (seen = true → ∀ x ∈ between, ¬ IsFunction W x) ∧ ∀ l m r x y, between = l ++ x :: m ++ y :: r → ¬ (IsFunction W x ∧ IsFunction W y)) := by
      intro hf hb hd
      constructor
      · intro h
        cases seen with
        | true => simp at h
        | false =>
          simp only [Bool.false_eq_true, if_false] at h
          obtain ⟨b, d, a, rfl, h1, h2, h3, h4⟩ := (genericFrom_iff W node up true).1 h
          refine ⟨c :: b, d, a, rfl, h1, List.forall_mem_cons.2 ⟨⟨hd, hb⟩, h2⟩, nofun, ?_⟩
          intro l m r x y he
          cases l with
          | nil =>
            simp only [List.nil_append, List.cons_append, List.cons.injEq] at he
            obtain ⟨rfl, rfl⟩ := he
            exact fun h => h3 rfl y (by simp) h.2
          | cons z l =>
            simp only [List.cons_append, List.cons.injEq] at he
            exact h4 l m r x y (by simpa using he.2)
      · rintro ⟨b, d, a, he, h1, h2, h3, h4⟩
        cases b with
        | nil => cases he; exact absurd hf h1.not_function.1
        | cons z b =>
          cases he
          cases seen with
          | true => exact absurd hf (h3 rfl _ (List.mem_cons_self ..))
          | false =>
            simp only [Bool.false_eq_true, if_false]
            refine (genericFrom_iff W node _ true).2 ⟨b, d, a, rfl, h1, fun x hx => h2 x (List.mem_cons_of_mem _ hx), fun _ x hx hxf => ?_, fun l m r x y he => ?_⟩
            · obtain ⟨m, r, rfl⟩ := List.append_of_mem hx
              exact h4 [] m r c x (by simp) ⟨hf, hxf⟩
            · exact h4 (c :: l) m r x y (by simp [he])
    -- what blocks do
    have stop : (HasBlock W c ∨ W.kind c = .functionDeclaration) → (¬ Infers W node c) →
        (False ↔ ∃ between d above, c :: up = between ++ d :: above ∧ Infers W node d ∧ (∀ x ∈ between, W.kind x ≠ .functionDeclaration ∧ ¬ HasBlock W x) ∧
        (seen = true → ∀ x ∈ between, ¬ IsFunction W x) ∧ ∀ l m r x y, between = l ++ x :: m ++ y :: r → ¬ (IsFunction W x ∧ IsFunction W y)) := by
      intro hs hn
      refine ⟨False.elim, ?_⟩
      rintro ⟨b, d, a, he, h1, h2, _⟩
      cases b with
      | nil => cases he; exact hn h1
      | cons z b =>
        cases he
        have := h2 c (List.mem_cons_self ..)
        exact hs.elim this.2 this.1
    -- and everything else
    have other : ¬ IsFunction W c → W.kind c ≠ .functionDeclaration →
        ((if W.infers node (W.kind c) = true then true else W.genericFrom node seen up) = true ↔
        ∃ between d above, c :: up = between ++ d :: above ∧ Infers W node d ∧ (∀ x ∈ between, W.kind x ≠ .functionDeclaration ∧ ¬ HasBlock W x) ∧
        (seen = true → ∀ x ∈ between, ¬ IsFunction W x) ∧ ∀ l m r x y, between = l ++ x :: m ++ y :: r → ¬ (IsFunction W x ∧ IsFunction W y)) := by
      intro hf hd
      by_cases hi : W.infers node (W.kind c) = true
      · rw [if_pos hi]
        exact ⟨fun _ => ⟨[], c, up, rfl, (infers_iff W node c).1 hi, by simp, by simp, by simp⟩, fun _ => rfl⟩
      · rw [if_neg hi, genericFrom_iff W node up seen]
        rw [infers_iff] at hi
        have hb : ¬ HasBlock W c := fun h => hf (h.elim (fun ⟨a, h⟩ => .inl ⟨_, a, h⟩) fun ⟨b, a, h⟩ => .inr ⟨b, _, a, h⟩)
        constructor
        · rintro ⟨b, d, a, rfl, h1, h2, h3, h4⟩
          refine ⟨c :: b, d, a, rfl, h1, List.forall_mem_cons.2 ⟨⟨hd, hb⟩, h2⟩, fun hs => List.forall_mem_cons.2 ⟨hf, h3 hs⟩, ?_⟩
          intro l m r x y he
          cases l with
          | nil =>
            simp only [List.nil_append, List.cons_append, List.cons.injEq] at he
            obtain ⟨rfl, _⟩ := he
            exact fun h => hf h.1
          | cons z l =>
            simp only [List.cons_append, List.cons.injEq] at he
            exact h4 l m r x y (by simpa using he.2)
        · rintro ⟨b, d, a, he, h1, h2, h3, h4⟩
          cases b with
          | nil => cases he; exact absurd h1 hi
          | cons z b =>
            cases he
            exact ⟨b, d, a, rfl, h1, fun x hx => h2 x (List.mem_cons_of_mem _ hx), fun hs x hx => h3 hs x (List.mem_cons_of_mem _ hx),
              fun l m r x y he => h4 (c :: l) m r x y (by simp [he])⟩
    have ninf : IsFunction W c ∨ W.kind c = .functionDeclaration → ¬ Infers W node c := fun h hi => h.elim hi.not_function.1 hi.not_function.2
    cases hk : W.kind c with
    | functionDeclaration =>
      simp only [hk, Bool.false_eq_true]
      exact stop (.inr hk) (ninf (.inr hk))
    | functionExpression block ann =>
      have hf : IsFunction W c := .inl ⟨_, _, hk⟩
      cases block with
      | true =>
        simp only [hk, if_true, Bool.false_eq_true]
        exact stop (.inl (.inl ⟨_, hk⟩)) (ninf (.inl hf))
      | false =>
        simp only [hk, Bool.false_eq_true, if_false]
        exact fn hf (by rw [HasBlock, hk]; simp) (by rw [hk]; simp)
    | arrow body block ann =>
      have hf : IsFunction W c := .inr ⟨_, _, _, hk⟩
      cases block with
      | true =>
        simp only [hk, if_true, Bool.false_eq_true]
        exact stop (.inl (.inr ⟨_, _, hk⟩)) (ninf (.inl hf))
      | false =>
        simp only [hk, Bool.false_eq_true, if_false]
        exact fn hf (by rw [HasBlock, hk]; simp) (by rw [hk]; simp)
    | _ =>
      have := other (by rw [IsFunction, hk]; simp) (by rw [hk]; simp)
      rw [hk] at this
      simp only [hk]
      exact this

theorem genericContext_iff (W : World N T) (node : N) : W.genericContext node = true ↔ GenericContext W node := by
  rw [World.genericContext, genericFrom_iff, GenericContext]
  constructor
  · rintro ⟨b, c, a, h1, h2, h3, _, h4⟩; exact ⟨b, c, a, h1, h2, h3, h4⟩
  · rintro ⟨b, c, a, h1, h2, h3, h4⟩; exact ⟨b, c, a, h1, h2, h3, nofun, h4⟩

end
end Tsgolint.UnnecessaryAssertion
