import Verif.Spec.UnboundMethod
import Verif.Proof.TypeGraph
/-! # C77: unbound-method -/
namespace Tsgolint.UnboundMethod
open Tsgolint.TypeGraph
variable {T : Type} [DecidableEq T]

theorem step_cases (s : Bool) (f : Frame) :
    (step s f = none ∧ Passes f ∧ ¬ UsesUp f ∧ ∀ l, f ≠ .binary .assign l true) ∨ (step s f = some true ∧ ¬ Passes f ∧ (UsesUp f ∨ (s = true ∧ f = .binary .assign false true))) ∨
    (step s f = some false ∧ ¬ Passes f ∧ ¬ UsesUp f ∧ (s = true → f ≠ .binary .assign false true)) := by
  cases f with
  | binary op l t => cases op <;> cases l <;> cases t <;> cases s <;> simp [step, Passes, UsesUp]
  | postfix_ i => cases i <;> simp [step, Passes, UsesUp]
  | prefix_ i => cases i <;> simp [step, Passes, UsesUp]
  | call i => cases i <;> simp [step, Passes, UsesUp]
  | conditional i => cases i <;> simp [step, Passes, UsesUp]
  | tagged i => cases i <;> simp [step, Passes, UsesUp]
  | _ => simp [step, Passes, UsesUp]

/-- C77 (safe uses).  A use is safe exactly if the value is passed on (any number of times, through parentheses, assertions and logical operators) to something
that uses it up, or it is `this.x = super.x`. -/
theorem C77_safe (s : Bool) (frames : List Frame) : isSafeUse s frames = true ↔ SafeUse s frames := by
  induction frames generalizing s with
  | nil => simp [isSafeUse, SafeUse, KeepsSuper]
  | cons f fs ih =>
    rw [isSafeUse]
    rcases step_cases s f with ⟨h, hp, hu, ha⟩ | ⟨h, hp, hu⟩ | ⟨h, hp, hu, hs⟩
    · simp only [h, ih]
      constructor
      · rintro (⟨pre, g, rest, rfl, h1, h2⟩ | ⟨h, -⟩)
        · exact .inl ⟨f :: pre, g, rest, rfl, by simpa [hp] using h1, h2⟩
        · cases h
      · rintro (⟨pre, g, rest, h0, h1, h2⟩ | ⟨-, rest, h0⟩)
        · cases pre with
          | nil => cases h0; exact absurd h2 hu
          | cons p pre => cases h0; exact .inl ⟨pre, g, rest, rfl, fun g hg => h1 g (by simp [hg]), h2⟩
        · cases h0; exact absurd rfl (ha false)
    · simp only [h, true_iff]
      rcases hu with hu | ⟨h1, rfl⟩
      · exact .inl ⟨[], f, fs, rfl, by simp, hu⟩
      · exact .inr ⟨h1, fs, rfl⟩
    · simp only [h, Bool.false_eq_true, false_iff]
      rintro (⟨pre, g, rest, h0, h1, h2⟩ | ⟨h1, rest, h0⟩)
      · cases pre with
        | nil => cases h0; exact hu h2
        | cons p pre => cases h0; exact hp (h1 _ (by simp))
      · cases h0; exact hs h1 rfl

/-- C77 (calls).  A call that keeps the object is always safe. -/
theorem C77_call_safe (s : Bool) (frames : List Frame) (h : CallKeepsThis frames) : isSafeUse s frames = true := by
  obtain ⟨pre, f, rest, rfl, h1, h2⟩ := h
  refine (C77_safe _ _).2 (.inl ⟨pre, f, rest, rfl, fun g hg => ?_, ?_⟩)
  · rcases h1 g hg with rfl | rfl | rfl <;> trivial
  · rcases h2 with rfl | rfl <;> trivial

/-- C77 (finding).  `(a.m || b)()` and `(c && a.m)()` count as safe, but the object is lost; `a.m ?? b` is not passed on, so `(a.m ?? b) === c` is reported. -/
theorem C77_hazard_logical :
    isSafeUse false [.binary .or true false, .parens, .call true, .other] = true ∧ ¬ CallKeepsThis [.binary .or true false, .parens, .call true, .other] ∧
    isSafeUse false [.binary .other true false, .parens, .binary .equality true false] = false := by
  refine ⟨by decide, ?_, by decide⟩
  rintro ⟨pre, f, rest, h0, h1, h2⟩
  cases pre with
  | nil => cases h0; simp at h2
  | cons p pre =>
    have h3 : p = .binary .or true false := (List.cons.inj h0).1.symm
    have := h1 p (by simp); simp [h3] at this

/-- C77 (type declarations).  Patterns inside something that declares only types are left alone, at any depth. -/
theorem C77_type_declaration (as : List Ancestor) : insideTypeDeclaration as = true ↔ ∃ a ∈ as, TypeOnly a := by
  induction as with
  | nil => simp [insideTypeDeclaration]
  | cons a as ih =>
    cases a with
    | class_ b => cases b <;> simp [insideTypeDeclaration, TypeOnly, ih]
    | method b => cases b <;> simp [insideTypeDeclaration, TypeOnly, ih]
    | function b => cases b <;> simp [insideTypeDeclaration, TypeOnly, ih]
    | variableStatement b => cases b <;> simp [insideTypeDeclaration, TypeOnly, ih]
    | typeOnly => simp [insideTypeDeclaration, TypeOnly]
    | other => simp [insideTypeDeclaration, TypeOnly, ih]

theorem checkMethod_cases (i : Bool) (f : Function) :
    (checkMethod i f = .panics ∧ f.first = some (some "this", .missing)) ∨
    (f.first ≠ some (some "this", .missing) ∧ ∃ d t, checkMethod i f = .result d t ∧ (d = true ↔ NeedsThis i f) ∧ (t = true ↔ DeclaresThis f)) := by
  obtain ⟨first, st⟩ := f
  unfold checkMethod NeedsThis DeclaresThis
  split
  · next h => exact .inl ⟨rfl, h⟩
  · next a hm h =>
    simp only at h; subst h
    refine .inr ⟨by simpa using hm, _, _, rfl, ?_, by simp⟩
    cases a <;> cases i <;> cases st <;> simp
  · next h1 h2 =>
    simp only at h1 h2
    refine .inr ⟨by simpa using h1, _, _, rfl, ?_, ?_⟩
    · have : first ≠ some (some "this", .void) := h2 .void
      cases i <;> cases st <;> simp [this]
    · simp only [Bool.false_eq_true, false_iff, not_exists]; exact h2

theorem judge_cases (i : Bool) (s : Option (Option Decl)) :
    (judge i s = .panics ∧ ¬ Annotated s) ∨ (Annotated s ∧ ((judge i s = .nothing ∧ ¬ Dangerous i s) ∨ (judge i s = .unbound ∧ Dangerous i s ∧ ¬ LacksThis s) ∨
      (judge i s = .withoutThis ∧ Dangerous i s ∧ LacksThis s))) := by
  have method : ∀ f : Function, ∀ s', checkIfMethod i s' = checkMethod i f → (Annotated (some s') ↔ f.first ≠ some (some "this", .missing)) →
      (Dangerous i (some s') ↔ NeedsThis i f) → (LacksThis (some s') ↔ ¬ DeclaresThis f) →
      (judge i (some s') = .panics ∧ ¬ Annotated (some s')) ∨ (Annotated (some s') ∧ ((judge i (some s') = .nothing ∧ ¬ Dangerous i (some s')) ∨
      (judge i (some s') = .unbound ∧ Dangerous i (some s') ∧ ¬ LacksThis (some s')) ∨ (judge i (some s') = .withoutThis ∧ Dangerous i (some s') ∧ LacksThis (some s')))) := by
    intro f s' h1 h2 h3 h4
    rw [h2, h3, h4]
    unfold judge
    rcases checkMethod_cases i f with ⟨h, hm⟩ | ⟨hm, d, t, h, hd, ht⟩
    · simp [h1, h, hm]
    · rw [← hd, ← ht]; cases d <;> cases t <;> simp [h1, h, hm]
  match s with
  | none => simp [judge, Annotated, Dangerous]
  | some none => simp [judge, checkIfMethod, Annotated, Dangerous]
  | some (some (.property b)) => cases b <;> simp [judge, checkIfMethod, Annotated, Dangerous, LacksThis]
  | some (some (.assignment none)) => simp [judge, checkIfMethod, Annotated, Dangerous]
  | some (some (.assignment (some f))) => exact method f _ rfl Iff.rfl Iff.rfl Iff.rfl
  | some (some (.method f)) => exact method f _ rfl Iff.rfl Iff.rfl Iff.rfl
  | some (some .other) => simp [judge, checkIfMethod, Annotated, Dangerous]

/-- C77 (declarations).  If the `this` parameter of the method is annotated, a reference is reported exactly if the declaration is a method that needs its object:
the message asks for an annotation exactly if there is no parameter `this`. -/
theorem C77_judge (i : Bool) (s : Option (Option Decl)) (h : Annotated s) :
    (judge i s = .nothing ↔ ¬ Dangerous i s) ∧ (judge i s = .withoutThis ↔ Dangerous i s ∧ LacksThis s) ∧ judge i s ≠ .panics := by
  rcases judge_cases i s with ⟨-, h1⟩ | ⟨-, ⟨h1, h2⟩ | ⟨h1, h2, h3⟩ | ⟨h1, h2, h3⟩⟩
  · exact absurd h h1
  all_goals simp [h1, h2]
  all_goals exact h3

/-- C77 (finding).  A method with a parameter `this` without annotation makes the rule panic, and the whole process with it. -/
theorem C77_panics (i : Bool) (s : Option (Option Decl)) : judge i s = .panics ↔ ¬ Annotated s := by
  rcases judge_cases i s with ⟨h, h1⟩ | ⟨h, ⟨h1, -⟩ | ⟨h1, -⟩ | ⟨h1, -⟩⟩ <;> simp [h, h1]

theorem C77_native (table : List (String × List String)) (n : Native) : isNativelyBound table n = true ↔ NativelyBound table n := by
  unfold isNativelyBound NativelyBound
  simp only [Bool.or_eq_true, Bool.and_eq_true]
  refine or_congr ?_ Iff.rfl
  cases n.identifiers with
  | none => simp
  | some q =>
    obtain ⟨o, p⟩ := q
    simp only [Bool.and_eq_true]
    cases h : table.lookup o with
    | none =>
      simp only [Bool.false_eq_true, and_false, Option.some.injEq, Prod.mk.injEq, false_iff]
      rintro ⟨o', p', ms, ⟨rfl, rfl⟩, -, h2, -⟩
      rw [h] at h2; cases h2
    | some ms =>
      simp only [List.contains_iff_mem, Option.some.injEq, Prod.mk.injEq]
      constructor
      · rintro ⟨h1, h2⟩; exact ⟨o, p, ms, ⟨rfl, rfl⟩, h1, h, h2⟩
      · rintro ⟨o', p', ms', ⟨rfl, rfl⟩, h1, h2, h3⟩
        rw [h] at h2; cases h2; exact ⟨h1, h3⟩

/-- C77 (accesses).  An access is reported exactly if its use is not safe, it is not natively bound and it is dangerous. -/
theorem C77_access (table : List (String × List String)) (i s : Bool) (frames : List Frame) (n : Native) (symbol : Option (Option Decl)) (h : Annotated symbol) :
    access table i s frames n symbol ≠ .nothing ↔ ¬ SafeUse s frames ∧ ¬ NativelyBound table n ∧ Dangerous i symbol := by
  unfold access
  rw [← C77_safe, ← C77_native]
  have := (C77_judge i symbol h).1
  cases isSafeUse s frames <;> cases isNativelyBound table n <;> simp [this]

theorem pattern_spec (shape : T → Shape T) (i : Bool) (propertyOf : T → Option (Option Decl)) (fuel : Nat) (pattern : T) (o : Outcome)
    (h : fromPattern shape i propertyOf fuel pattern = some o) :
    (o = .nothing ∧ ∀ c, Constituent shape pattern c → judge i (propertyOf c) = .nothing) ∨
    (o ≠ .nothing ∧ ∃ c, Constituent shape pattern c ∧ judge i (propertyOf c) = o) := by
  simp only [fromPattern, Option.map_eq_some_iff] at h
  obtain ⟨⟨b, o'⟩, h, rfl⟩ := h
  have := typeRecurser_spec_state (I := fun s => s = .nothing) (Qt := fun c s => judge i (propertyOf c) = s ∧ s ≠ .nothing)
    (Qf := fun c => judge i (propertyOf c) = .nothing) fuel pattern .nothing b o' (by
      intro c s b s' _ _ hc
      simp only [visit, Option.some.injEq, Prod.mk.injEq] at hc
      obtain ⟨rfl, rfl⟩ := hc
      simp) rfl h
  cases b with
  | true => obtain ⟨c, hc, h1, h2⟩ := this.1 rfl; exact .inr ⟨h2, c, hc, h1⟩
  | false => obtain ⟨h1, h2⟩ := this.2 rfl; exact .inl ⟨h2, h1⟩

/-- C77 (patterns).  A property of a pattern is reported at most once, and exactly if its name is not computed, and it is dangerous in the type of the initialiser (and
not natively bound there) or in some constituent of the type of the pattern — the latter not where a natively bound initialiser is the only source of values. -/
theorem C77_binding (table : List (String × List String)) (shape : T → Shape T) (i : Bool) (propertyOf : T → Option (Option Decl)) (fuel : Nat) (pattern : T)
    (b : Binding) (assignmentLike : Bool) (o : Outcome) (h : binding table shape i propertyOf fuel pattern b assignmentLike = some o)
    (hi : ∀ n p, b.init = some (n, p) → Annotated p) (hp : ∀ c, Constituent shape pattern c → Annotated (propertyOf c)) :
    o ≠ .panics ∧ (o ≠ .nothing ↔ b.isComputed = false ∧
      ((∃ n p, b.init = some (n, p) ∧ ¬ NativelyBound table n ∧ Dangerous i p) ∨
       ((∀ n p, b.init = some (n, p) → NativelyBound table n → assignmentLike = true) ∧ ∃ c, Constituent shape pattern c ∧ Dangerous i (propertyOf c)))) := by
  have hpat : ∀ o, fromPattern shape i propertyOf fuel pattern = some o → o ≠ .panics ∧
      (o ≠ .nothing ↔ ∃ c, Constituent shape pattern c ∧ Dangerous i (propertyOf c)) := by
    intro o h
    rcases pattern_spec _ _ _ _ _ _ h with ⟨rfl, h1⟩ | ⟨h1, c, hc, h2⟩
    · refine ⟨by simp, by simp only [ne_eq, not_true_eq_false, false_iff, not_exists, not_and]; exact fun c hc => (C77_judge i _ (hp c hc)).1.1 (h1 c hc)⟩
    · have hj := C77_judge i _ (hp c hc)
      refine ⟨by rw [← h2]; exact hj.2.2, by
        simp only [h1, ne_eq, not_false_eq_true, true_iff]
        refine ⟨c, hc, Classical.byContradiction fun hd => h1 ?_⟩
        rw [← h2]; exact hj.1.2 hd⟩
  unfold binding at h
  cases hc : b.isComputed with
  | true => simp [hc] at h; subst h; simp
  | false =>
    simp only [hc, Bool.false_eq_true, if_false] at h
    cases hin : b.init with
    | none =>
      simp only [hin] at h
      have := hpat o h
      simpa using this
    | some q =>
      obtain ⟨n, p⟩ := q
      simp only [hin] at h
      simp only [Option.some.injEq, Prod.mk.injEq, true_and]
      have hj := C77_judge i p (hi n p hin)
      have e1 : (∃ n' p', (n = n' ∧ p = p') ∧ ¬ NativelyBound table n' ∧ Dangerous i p') ↔ ¬ NativelyBound table n ∧ Dangerous i p :=
        ⟨by rintro ⟨_, _, ⟨rfl, rfl⟩, h⟩; exact h, fun h => ⟨n, p, ⟨rfl, rfl⟩, h⟩⟩
      have e2 : (∀ n' p', (n = n' ∧ p = p') → NativelyBound table n' → assignmentLike = true) ↔ (NativelyBound table n → assignmentLike = true) :=
        ⟨fun h => h n p ⟨rfl, rfl⟩, by rintro h _ _ ⟨rfl, rfl⟩; exact h⟩
      rw [e1, e2, ← C77_native]
      cases hn : isNativelyBound table n with
      | false =>
        simp only [hn, Bool.not_false, if_true] at h
        by_cases hd : Dangerous i p
        · have hne : judge i p ≠ .nothing := fun h => hj.1.1 h hd
          have : o = judge i p := by
            split at h
            · next h' => exact absurd h' hne
            · exact (Option.some.inj h).symm
          subst this
          simp [hj.2.2, hne, hd]
        · simp only [hj.1.2 hd] at h
          have := hpat o h
          simpa [hd] using this
      | true =>
        simp only [hn, Bool.not_true, Bool.false_eq_true, if_false] at h
        cases assignmentLike with
        | false => simp at h; subst h; simp
        | true => have := hpat o (by simpa using h); simpa using this

/-! ## Cases -/

example : isSafeUse false [.parens, .binary .and false false, .conditional true] = true := by decide
example : isSafeUse true [.binary .assign false true] = true := by decide
example : isSafeUse true [.parens, .binary .assign false true] = false := by decide
example : isSafeUse false [.call false] = false := by decide
example : CallKeepsThis [.parens, .nonNull, .call true] := ⟨[.parens, .nonNull], .call true, [], rfl, by simp, .inl rfl⟩
example : insideTypeDeclaration [.other, .method false, .class_ true] = true := by decide
def plain : Function := ⟨none, false⟩
example : judge false (some (some (.method plain))) = .withoutThis := by decide
example : judge true (some (some (.method ⟨none, true⟩))) = .nothing := by decide
example : judge false (some (some (.method ⟨some (some "this", .void), false⟩))) = .nothing := by decide
example : judge false (some (some (.method ⟨some (some "this", .missing), false⟩))) = .panics := by decide
example : Annotated (some (some (.method plain))) := by simp [Annotated, plain]
def sample : Nat → Shape Nat := fun t => if t = 0 then .union [1, 2] else .other
def property : Nat → Option (Option Decl) := fun t => if t = 2 then some (some (.method plain)) else none
example : binding [] sample false property 2 0 ⟨false, none⟩ false = some .withoutThis := by decide
example : binding [("Math", ["sin"])] sample false property 2 0 ⟨false, some (⟨some ("Math", "sin"), true, false, false⟩, none)⟩ false = some .nothing := by decide
example : binding [("Math", ["sin"])] sample false property 2 0 ⟨false, some (⟨some ("Math", "sin"), true, false, false⟩, none)⟩ true = some .withoutThis := by decide

end Tsgolint.UnboundMethod
