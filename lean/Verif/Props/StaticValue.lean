import Verif.Spec.StaticValue
/-!
# C126: static values of variables in prefer-string-starts-ends-with
-/
namespace Tsgolint.StaticValue

theorem isVar_iff (x : Nat) : ∀ e : Expr, IsVar e x ↔ e.skip = .var (some x)
  | .paren e => ⟨fun h => by cases h with | paren h => exact (isVar_iff x e).1 h, fun h => .paren ((isVar_iff x e).2 h)⟩
  | .var y => ⟨fun h => by cases h; rfl, fun h => by cases h; exact .var x⟩
  | .string _ | .null | .undefined | .regex _ | .newRegExp _ | .other _ => ⟨fun h => (nomatch h), fun h => (nomatch h)⟩

theorem isVar_unique {e : Expr} {x y : Nat} (hx : IsVar e x) (hy : IsVar e y) : x = y := by
  rw [isVar_iff] at hx hy
  rw [hx] at hy
  cases hy
  rfl

theorem next_some (E : Env) (e i : Expr) : E.next e = some i ↔ ∃ x, IsVar e x ∧ E.init x = some i := by
  unfold Env.next
  constructor
  · intro h
    split at h
    · rename_i x hx; exact ⟨x, (isVar_iff x e).2 hx, h⟩
    · cases h
  · rintro ⟨x, hx, hi⟩
    rw [(isVar_iff x e).1 hx]
    exact hi

theorem next_none (E : Env) (e : Expr) : E.next e = none ↔ Last E e := by
  rw [Option.eq_none_iff_forall_ne_some]
  constructor
  · intro h x hx
    cases hi : E.init x with
    | none => rfl
    | some i => exact absurd ((next_some E e i).2 ⟨x, hx, hi⟩) (h i)
  · intro h i hi
    obtain ⟨x, hx, hi⟩ := (next_some E e i).1 hi
    rw [h x hx] at hi
    cases hi

theorem follow_last {V : Type} {E : Env} {leaf : Expr → V} {e : Expr} (fuel : Nat) (h : E.next e = none) : E.follow leaf fuel e = some (leaf e.skip) := by
  cases fuel with
  | zero => rw [Env.follow, h]; rfl
  | succ n => rw [Env.follow, h]

theorem follow_next {V : Type} {E : Env} {leaf : Expr → V} {e i : Expr} (fuel : Nat) (h : E.next e = some i) :
    E.follow leaf (fuel + 1) e = E.follow leaf fuel i := by rw [Env.follow, h]

/-- **C126** The search ends with a value exactly if the way from the expression over initialisers has an end, and the value is that of the expression there -/
theorem follow_iff {V : Type} (E : Env) (leaf : Expr → V) (e : Expr) (v : V) :
    (∃ fuel, E.follow leaf fuel e = some v) ↔ ∃ e', Leads E e e' ∧ Last E e' ∧ v = leaf e'.skip := by
  constructor
  · rintro ⟨fuel, h⟩
    induction fuel generalizing e with
    | zero =>
      rw [Env.follow] at h
      cases hn : E.next e with
      | some i => rw [hn] at h; cases h
      | none => rw [hn] at h; cases h; exact ⟨e, .here e, (next_none E e).1 hn, rfl⟩
    | succ n ih =>
      cases hn : E.next e with
      | none => rw [follow_last _ hn] at h; cases h; exact ⟨e, .here e, (next_none E e).1 hn, rfl⟩
      | some i =>
        rw [follow_next _ hn] at h
        obtain ⟨e', h1, h2, h3⟩ := ih i h
        obtain ⟨x, hx, hi⟩ := (next_some E e i).1 hn
        exact ⟨e', .step hx hi h1, h2, h3⟩
  · rintro ⟨e', h1, h2, rfl⟩
    induction h1 with
    | here e => exact ⟨0, follow_last 0 ((next_none E e).2 h2)⟩
    | step hx hi _ ih =>
      obtain ⟨n, hn⟩ := ih h2
      exact ⟨n + 1, by rw [follow_next n ((next_some E _ _).2 ⟨_, hx, hi⟩)]; exact hn⟩

theorem leads_trans {E : Env} {a b c : Expr} (h1 : Leads E a b) (h2 : Leads E b c) : Leads E a c := by
  induction h1 with
  | here => exact h2
  | step hx hi _ ih => exact .step hx hi (ih h2)

/-- No circle: the search takes no more steps than there are variables -/
theorem ends {V : Type} (E : Env) (leaf : Expr → V) : ∀ (n : Nat) (l : List Nat) (e : Expr), l.length = n →
    (∀ e' x i, Leads E e e' → IsVar e' x → E.init x = some i → x ∈ l) → ¬ Circle E e → E.follow leaf n e ≠ none := by
  intro n
  induction n with
  | zero =>
    intro l e hl hmem _ h
    cases hn : E.next e with
    | none => rw [follow_last 0 hn] at h; cases h
    | some i =>
      obtain ⟨x, hx, hi⟩ := (next_some E e i).1 hn
      have := hmem e x i (.here e) hx hi
      rw [List.length_eq_zero_iff.1 hl] at this
      cases this
  | succ n ih =>
    intro l e hl hmem hc h
    cases hn : E.next e with
    | none => rw [follow_last _ hn] at h; cases h
    | some i =>
      obtain ⟨x, hx, hi⟩ := (next_some E e i).1 hn
      rw [follow_next _ hn] at h
      refine ih (l.erase x) i ?_ ?_ ?_ h
      · have := hmem e x i (.here e) hx hi
        rw [List.length_erase_of_mem this, hl]
        rfl
      · intro e' y j hle hy hj
        have hne : y ≠ x := by
          rintro rfl
          exact hc ⟨y, i, e, e', .here e, hx, hi, hle, hy⟩
        exact (List.mem_erase_of_ne hne).2 (hmem e' y j (.step hx hi hle) hy hj)
      · rintro ⟨y, j, e₁, e₂, h1, h2, h3, h4, h5⟩
        exact hc ⟨y, j, e₁, e₂, .step hx hi h1, h2, h3, h4, h5⟩

/-- The step from an expression is the only one -/
theorem leads_cases {E : Env} {e e' i : Expr} {x : Nat} (hx : IsVar e x) (hi : E.init x = some i) (h : Leads E e e') : e' = e ∨ Leads E i e' := by
  cases h with
  | here => exact .inl rfl
  | step hy hj h =>
    cases isVar_unique hx hy
    rw [hi] at hj
    cases hj
    exact .inr h

/-- A variable in a circle is reached again and again -/
theorem circle_forever {V : Type} (E : Env) (leaf : Expr → V) (fuel : Nat) : ∀ e : Expr,
    (∃ x i e₁ e₂, Leads E e e₁ ∧ IsVar e₁ x ∧ E.init x = some i ∧ Leads E i e₂ ∧ IsVar e₂ x) → E.follow leaf fuel e = none := by
  induction fuel with
  | zero =>
    rintro e ⟨x, i, e₁, e₂, h1, hx, hi, _, _⟩
    have : ∃ j, E.next e = some j := by
      cases h1 with
      | here => exact ⟨i, (next_some E e i).2 ⟨x, hx, hi⟩⟩
      | step hy hj _ => exact ⟨_, (next_some E e _).2 ⟨_, hy, hj⟩⟩
    obtain ⟨j, hj⟩ := this
    rw [Env.follow, hj]
    rfl
  | succ n ih =>
    rintro e ⟨x, i, e₁, e₂, h1, hx, hi, h2, hx'⟩
    cases h1 with
    | here =>
      rw [follow_next n ((next_some E e i).2 ⟨x, hx, hi⟩)]
      exact ih i ⟨x, i, e₂, e₂, h2, hx', hi, h2, hx'⟩
    | step hy hj h1 =>
      rw [follow_next n ((next_some E e _).2 ⟨_, hy, hj⟩)]
      exact ih _ ⟨x, i, e₁, e₂, h1, hx, hi, h2, hx'⟩

/-- **C126** The search never ends (the stack of the process overflows) exactly if the way leads into a circle of variables that are initialised with each other, such as `var x = x` -/
theorem endless_iff {V : Type} (E : Env) (hf : Finite E) (leaf : Expr → V) (e : Expr) : (∀ fuel, E.follow leaf fuel e = none) ↔ Circle E e := by
  constructor
  · intro h
    obtain ⟨l, hl⟩ := hf
    refine Classical.byContradiction fun hc => ?_
    exact ends E leaf l.length l e rfl (fun e' x i _ _ hi => hl x i hi) hc (h l.length)
  · intro h fuel
    exact circle_forever E leaf fuel e h

/-- **C126** Without such a circle it ends, after no more steps than there are variables -/
theorem ends_bound {V : Type} (E : Env) (leaf : Expr → V) (l : List Nat) (hl : ∀ x i, E.init x = some i → x ∈ l) (e : Expr) (hc : ¬ Circle E e) :
    ∃ v, E.follow leaf l.length e = some v :=
  Option.ne_none_iff_exists'.1 (ends E leaf l.length l e rfl (fun _ x i _ _ hi => hl x i hi) hc)

theorem eval_skip (store : Nat → Value) (other : Expr → Value) : ∀ e : Expr, eval store other e.skip = eval store other e
  | .paren e => by rw [Expr.skip, eval_skip store other e, eval]
  | .string _ | .null | .undefined | .regex _ | .newRegExp _ | .var _ | .other _ => rfl

/-- If the variables on the way have their initial values, all expressions on the way have one value -/
theorem leads_eval {E : Env} {store : Nat → Value} {other : Expr → Value} {e e' : Expr} (h : Leads E e e') (hk : KeepsInitial E store other e) :
    eval store other e = eval store other e' := by
  induction h with
  | here => rfl
  | step hx hi hl ih =>
    rename_i e e' i x
    rw [← ih fun e'' y j h hy hj => hk e'' y j (.step hx hi h) hy hj, ← hk e x i (.here e) hx hi, ← eval_skip store other e, (isVar_iff x e).1 hx]
    rfl

/-- **C126** The static string is the value of the expression wherever the variables on the way have their initial values -/
theorem staticString_sound (E : Env) (store : Nat → Value) (other : Expr → Value) (e : Expr) (fuel : Nat) (s : List Nat)
    (h : E.staticString fuel e = some (some s)) (hk : KeepsInitial E store other e) : eval store other e = .string s := by
  obtain ⟨e', h1, _, h3⟩ := (follow_iff E stringLeaf e (some s)).1 ⟨fuel, h⟩
  rw [leads_eval h1 hk, ← eval_skip]
  cases he : e'.skip <;> rw [he] at h3 <;> simp [stringLeaf] at h3
  rw [h3]
  rfl

/-- **C126** So is a nullish kind -/
theorem nullishKind_sound (E : Env) (store : Nat → Value) (other : Expr → Value) (e : Expr) (fuel : Nat) (k : NullishKind)
    (h : E.nullishKind fuel e = some k) (hk : KeepsInitial E store other e) :
    (k = .null → eval store other e = .null) ∧ (k = .undefined → eval store other e = .undefined) := by
  obtain ⟨e', h1, _, h3⟩ := (follow_iff E nullishLeaf e k).1 ⟨fuel, h⟩
  rw [leads_eval h1 hk, ← eval_skip]
  constructor
  · rintro rfl
    cases he : e'.skip <;> rw [he] at h3 <;> simp [nullishLeaf] at h3
    rfl
  · rintro rfl
    cases he : e'.skip <;> rw [he] at h3 <;> simp [nullishLeaf] at h3
    rfl

/-- **C126** A variable counts as a character exactly if the way from it ends at a string literal of one UTF-16 unit -/
theorem isCharacter_iff (E : Env) (e : Expr) : (∃ fuel, E.isCharacter fuel e = some true) ↔ ∃ e' u, Leads E e e' ∧ e'.skip = .string [u] := by
  unfold Env.isCharacter
  constructor
  · rintro ⟨fuel, h⟩
    obtain ⟨s, hs, h⟩ := Option.map_eq_some_iff.1 h
    obtain ⟨e', h1, _, h3⟩ := (follow_iff E stringLeaf e s).1 ⟨fuel, hs⟩
    subst h3
    cases he : e'.skip <;> rw [he] at h <;> simp [stringLeaf] at h
    rename_i us
    obtain ⟨u, rfl⟩ := List.length_eq_one_iff.1 h
    exact ⟨e', u, h1, he⟩
  · rintro ⟨e', u, h1, h2⟩
    have hl : Last E e' := by
      intro x hx
      rw [isVar_iff, h2] at hx
      cases hx
    obtain ⟨fuel, hf⟩ := (follow_iff E stringLeaf e (some [u])).2 ⟨e', h1, hl, by rw [h2]; rfl⟩
    exact ⟨fuel, by rw [show E.staticString fuel e = some (some [u]) from hf]; rfl⟩

/-- `let c = "a"` -/
def sampleLet : Env := ⟨fun x => if x = 0 then some (.string [97]) else none⟩

/-- **C126** A variable that was assigned to since is not noticed: with `let c = "a"`, `s[0] === c` is reported as `s.startsWith(c)`, but after `c = "bc"` they differ for `s = "bcd"` -/
theorem hazard_assigned : sampleLet.isCharacter 1 (.var (some 0)) = some true ∧
    firstIs [98, 99, 100] (eval (fun _ => .string [98, 99]) (fun _ => .undefined) (.var (some 0))) = false ∧
    startsWith [98, 99, 100] (eval (fun _ => .string [98, 99]) (fun _ => .undefined) (.var (some 0))) = true := by decide

/-! ### Examples -/

/-- `var x = x` -/
def sampleSelf : Env := ⟨fun x => if x = 0 then some (.var (some 0)) else none⟩
/-- `const y = (x), x = "a"` -/
def sampleTwo : Env := ⟨fun x => if x = 0 then some (.string [97]) else if x = 1 then some (.paren (.var (some 0))) else none⟩

/-- **C126** `var x = x; s[0] === x` never ends -/
theorem hazard_self (fuel : Nat) : sampleSelf.isCharacter fuel (.var (some 0)) = none := by
  unfold Env.isCharacter Env.staticString
  rw [circle_forever sampleSelf stringLeaf fuel _ ⟨0, .var (some 0), _, _, .here _, .var 0, rfl, .here _, .var 0⟩]
  rfl

example : Finite sampleTwo := ⟨[0, 1], fun x i h => by
  simp only [sampleTwo] at h
  by_cases h0 : x = 0
  · simp [h0]
  · by_cases h1 : x = 1
    · simp [h1]
    · simp [h0, h1] at h⟩
example : sampleTwo.staticString 2 (.var (some 1)) = some (some [97]) := by decide
example : KeepsInitial sampleTwo (fun _ => .string [97]) (fun _ => .null) (.var (some 1)) := by
  intro e' x i _ _ hi
  simp only [sampleTwo] at hi
  by_cases h0 : x = 0
  · rw [if_pos h0] at hi; cases hi; rfl
  · by_cases h1 : x = 1
    · rw [if_neg h0, if_pos h1] at hi; cases hi; rfl
    · simp [h0, h1] at hi
example : sampleTwo.nullishKind 5 (.paren .null) = some .null := by decide
example : sampleTwo.parseRegExp (P := Nat) some (fun _ => none) 5 (.regex 3) = some (some 3) := by decide
example : ¬ Circle sampleTwo (.var (some 1)) := by
  have h : sampleTwo.follow stringLeaf 2 (.var (some 1)) = some (some [97]) := by decide
  intro hc
  rw [circle_forever sampleTwo stringLeaf 2 _ hc] at h
  cases h

end Tsgolint.StaticValue
