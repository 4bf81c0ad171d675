import Verif.Spec.UnboundPatterns
import Verif.Props.UnboundMethod
/-!
# C77: the properties of patterns
-/
namespace Tsgolint.UnboundPatterns
open UnboundMethod (Ancestor TypeOnly insideTypeDeclaration)

theorem literalLoop_iff (right : I) (ms : List Member) (l : Look I) :
    l ∈ literalLoop right ms ↔ ∃ m ∈ ms, Takes m l.name ∧ l.init = some right ∧ l.assignmentLike = true := by
  induction ms with
  | nil => simp [literalLoop]
  | cons m ms ih =>
    have key : l ∈ literalLoop right (m :: ms) ↔ (Takes m l.name ∧ l.init = some right ∧ l.assignmentLike = true) ∨ l ∈ literalLoop right ms := by
      obtain ⟨name, init, al⟩ := l
      cases m with
      | assignment n =>
        simp only [literalLoop, List.mem_cons, Look.mk.injEq]
        refine or_congr ⟨?_, ?_⟩ Iff.rfl
        · rintro ⟨rfl, rfl, rfl⟩; exact ⟨.assignment, rfl, rfl⟩
        · rintro ⟨h, rfl, rfl⟩; cases h; exact ⟨rfl, rfl, rfl⟩
      | shorthand s =>
        simp only [literalLoop, List.mem_cons, Look.mk.injEq]
        refine or_congr ⟨?_, ?_⟩ Iff.rfl
        · rintro ⟨rfl, rfl, rfl⟩; exact ⟨.shorthand, rfl, rfl⟩
        · rintro ⟨h, rfl, rfl⟩; cases h; exact ⟨rfl, rfl, rfl⟩
      | spread => simp only [literalLoop]; exact ⟨.inr, fun h => h.elim (fun ⟨h, _⟩ => nomatch h) id⟩
      | other => simp only [literalLoop]; exact ⟨.inr, fun h => h.elim (fun ⟨h, _⟩ => nomatch h) id⟩
    rw [key, ih]; simp

/-- C77 (assignments).  In `({ … } = right)` every property taken, rest elements apart, is looked at in the type of `right`, however it
is named; patterns with another parent (inside other patterns, compound assignments) are not looked at. -/
theorem C77_literal_pattern (parent : Parent I) (ms : List Member) (l : Look I) :
    l ∈ literal parent ms ↔ ∃ right, parent = .assignment false right ∧ ∃ m ∈ ms, Takes m l.name ∧ l.init = some right ∧ l.assignmentLike = true := by
  unfold literal
  split
  · next right => rw [literalLoop_iff]; simp
  · next h => simp; intro right e; exact absurd e (h right)

theorem source_iff (parent : Parent I) (i : Option I) (b : Bool) : Source parent i b ↔ i = initOf parent ∧ b = assignmentLike parent := by
  constructor
  · intro h; cases h <;> exact ⟨rfl, rfl⟩
  · rintro ⟨rfl, rfl⟩; cases parent <;> constructor

theorem binds_iff (e : Element) (n : Name) : Binds e n ↔ e.dots = false ∧ e.name = some n := by
  obtain ⟨d, p, b⟩ := e
  constructor
  · intro h; cases h <;> exact ⟨rfl, rfl⟩
  · rintro ⟨h1, h2⟩
    simp only at h1; subst h1
    cases p with
    | some p => simp only [Element.name, Option.some.injEq] at h2; subst h2; exact .named
    | none =>
      cases b with
      | none => simp [Element.name] at h2
      | some s => simp [Element.name] at h2; subst h2; exact .short

theorem bindingLoop_iff (parent : Parent I) (es : List Element) (l : Look I) :
    l ∈ bindingLoop parent es ↔ ∃ e ∈ es, Binds e l.name ∧ (∃ s, l.name = .identifier s) ∧ Source parent l.init l.assignmentLike := by
  induction es with
  | nil => simp [bindingLoop]
  | cons e es ih =>
    have key : l ∈ bindingLoop parent (e :: es) ↔
        (Binds e l.name ∧ (∃ s, l.name = .identifier s) ∧ Source parent l.init l.assignmentLike) ∨ l ∈ bindingLoop parent es := by
      obtain ⟨name, init, al⟩ := l
      rw [binds_iff, source_iff]
      conv => lhs; unfold bindingLoop
      simp only
      split
      · next s hn =>
        rw [hn]
        cases hd : e.dots
        · simp only [Bool.false_eq_true, if_false, List.mem_cons, Look.mk.injEq, true_and, Option.some.injEq]
          refine or_congr ⟨?_, ?_⟩ Iff.rfl
          · rintro ⟨rfl, rfl, rfl⟩; exact ⟨rfl, ⟨s, rfl⟩, rfl, rfl⟩
          · rintro ⟨rfl, -, rfl, rfl⟩; exact ⟨rfl, rfl, rfl⟩
        · simp
      · next h =>
        refine ⟨.inr, fun hh => hh.elim (fun ⟨⟨_, h1⟩, ⟨s, h2⟩, _⟩ => absurd h1 ?_) id⟩
        rw [h2]; exact h s
    rw [key, ih]; simp

/-- C77 (declarations).  In a binding pattern that is not inside a type declaration every property taken under an identifier, rest
elements apart, is looked at in the initialiser (which for parameters and nested patterns is a default value) and in the pattern's type. -/
theorem C77_binding_pattern (ancestors : List Ancestor) (parent : Parent I) (es : List Element) (l : Look I) :
    l ∈ binding ancestors parent es ↔ (¬ ∃ a ∈ ancestors, TypeOnly a) ∧
      ∃ e ∈ es, Binds e l.name ∧ (∃ s, l.name = .identifier s) ∧ Source parent l.init l.assignmentLike := by
  unfold binding
  rw [← UnboundMethod.C77_type_declaration, ← bindingLoop_iff]
  cases insideTypeDeclaration ancestors <;> simp

/-- One question for each: the loops ask in order and do not repeat themselves. -/
theorem C77_once (ancestors : List Ancestor) (parent : Parent I) (es : List Element) (ms : List Member) :
    (binding ancestors parent es).length ≤ es.length ∧ (literal parent ms).length ≤ ms.length := by
  have h1 : ∀ es, (bindingLoop parent es).length ≤ es.length := by
    intro es
    induction es with
    | nil => simp [bindingLoop]
    | cons e es ih => unfold bindingLoop; split <;> (try split) <;> simp <;> omega
  have h2 : ∀ right : I, ∀ ms, (literalLoop right ms).length ≤ ms.length := by
    intro right ms
    induction ms with
    | nil => simp [literalLoop]
    | cons m ms ih => cases m <;> simp [literalLoop] <;> omega
  constructor
  · unfold binding; split
    · simp
    · exact h1 es
  · unfold literal; split
    · exact h2 _ ms
    · simp

/-- `const { 'm': f } = o` is not looked at, though `({ 'm': f } = o)` is; and the inner pattern of `({ a: { m } } = o)`, whose parent is
a property, is not looked at either. -/
theorem C77_hazard_names (o : I) (s : String) : binding [] (.variable (some o)) [⟨false, some (.literal s), some "f"⟩] = [] ∧
    literal (.assignment false o) [.assignment (.literal s)] = [⟨.literal s, some o, true⟩] ∧
    literal (I := I) .other [.shorthand s] = [] := ⟨rfl, rfl, rfl⟩

example : binding [.other] (.parameter (some 7)) [⟨false, none, some "a"⟩, ⟨false, some (.identifier "b"), none⟩, ⟨true, none, some "r"⟩]
    = [⟨.identifier "a", some 7, true⟩, ⟨.identifier "b", some 7, true⟩] := by decide
example : literal (.assignment false 7) [.shorthand "a", .spread, .assignment .computed] = [⟨.identifier "a", some 7, true⟩, ⟨.computed, some 7, true⟩] := by decide

end Tsgolint.UnboundPatterns
