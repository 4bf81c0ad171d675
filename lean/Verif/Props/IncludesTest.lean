import Verif.Spec.IncludesTest
import Verif.Props.Includes
/-!
# C56: the calls of `test` that prefer-includes rewrites
-/
namespace Tsgolint.IncludesTest
open Includes (Text escapeString extractRegexLiteralPattern extractRegExpConstructorPattern resolve isSimpleLiteralPattern)

theorem resolve_iff (compiles : Text → Bool) (o : Object) (p : Text) :
    resolve compiles o.node = some p ↔ (∃ t, Denotes o t ∧ extractRegexLiteralPattern compiles t = some p) ∨
      (Constructed o p ∧ compiles p = true ∧ isSimpleLiteralPattern p = true ∧ p ≠ []) := by
  have hc : ∀ q, extractRegExpConstructorPattern compiles q = some p ↔ q = p ∧ compiles p = true ∧ isSimpleLiteralPattern p = true ∧ p ≠ [] := by
    intro q
    unfold extractRegExpConstructorPattern
    constructor
    · intro h
      by_cases h1 : compiles q = true <;> by_cases h2 : isSimpleLiteralPattern q = true <;> by_cases h3 : q = [] <;> simp_all
      all_goals (subst h; exact ⟨h1, h2, h3⟩)
    · rintro ⟨rfl, h1, h2, h3⟩; simp [h1, h2, h3]
  constructor
  · intro h
    match o, h with
    | .literal t, h => exact .inl ⟨t, .literal, h⟩
    | .name none, h => simp [Object.node, resolve] at h
    | .name (some .other), h => simp [Object.node, resolve] at h
    | .name (some (.variable _ none)), h => simp [Object.node, resolve] at h
    | .name (some (.variable _ (some .other))), h => simp [Object.node, resolve] at h
    | .name (some (.variable _ (some (.literal t)))), h => exact .inl ⟨t, .variable, h⟩
    | .name (some (.variable _ (some (.constructor q f)))), h =>
      obtain ⟨e, h1, h2, h3⟩ := (hc q).1 h
      subst e; exact .inr ⟨.mk, h1, h2, h3⟩
    | .other, h => simp [Object.node, resolve] at h
  · rintro (⟨t, hd, h⟩ | ⟨hd, h⟩)
    · cases hd <;> exact h
    · cases hd; exact (hc p).2 ⟨rfl, h⟩

/-- C56 (calls).  Rewritten are exactly the calls of a method called `test` with one argument whose type has a declared property
`includes`, on a regular expression literal, or a variable initialised with one or with `new RegExp('…')`, whose pattern is accepted;
what is inserted is the pattern with its apostrophes escaped. -/
theorem C56_test_iff (compiles : Text → Bool) (c : Call) (q : Text) (parens : Bool) :
    test compiles c = some (q, parens) ↔
      c.property = some "test".toList ∧ ∃ a p, c.args = [a] ∧ a.includes = some true ∧ q = escapeString p ∧ parens = needsParens a.kind ∧
        ((∃ t, Denotes c.object t ∧ extractRegexLiteralPattern compiles t = some p) ∨
          (Constructed c.object p ∧ compiles p = true ∧ isSimpleLiteralPattern p = true ∧ p ≠ [])) := by
  have hn : "test".toList = ['t', 'e', 's', 't'] := by decide
  rw [hn]
  constructor
  · intro h
    unfold test at h
    match hp : c.property, h with
    | some name, h =>
      by_cases he : name ≠ ['t', 'e', 's', 't']
      · simp [he] at h
      · have he : name = ['t', 'e', 's', 't'] := Classical.not_not.1 he
        subst he
        refine ⟨rfl, ?_⟩
        match ha : c.args, h with
        | [a], h =>
          simp only [ha] at h
          match hr : resolve compiles c.object.node, h with
          | some p, h =>
            simp only [hr] at h
            match hi : a.includes, h with
            | some true, h =>
              simp only [hi] at h
              simp at h
              exact ⟨a, p, rfl, hi, h.1.symm, h.2.symm, (resolve_iff _ _ _).1 hr⟩
            | some false, h => simp [hi] at h
            | none, h => simp [hi] at h
          | none, h => simp [hr] at h
        | [], h => simp [ha] at h
        | _ :: _ :: _, h => simp [ha] at h
  · rintro ⟨hp, a, p, ha, hi, rfl, rfl, hr⟩
    have hr := (resolve_iff compiles c.object p).2 hr
    unfold test
    simp [hp, ha, hr, hi]

/-- C56 (syntax).  Unless the argument is a spread element or a number, what is put before `.includes` is an expression that can stand
before a dot; an argument that could not is always parenthesised, and the common ones are not. -/
theorem C56_test_valid (k : ArgKind) (hs : k ≠ .spread) (hn : k ≠ .number) :
    Valid k (needsParens k) ∧ (¬ BeforeDot k → needsParens k = true) ∧
    (k ∈ [.identifier, .string, .template, .property, .element, .call, .parenthesized] → needsParens k = false) := by
  cases k <;> simp [Valid, needsParens] at hs hn ⊢
  all_goals first | constructor | skip

/-- A spread argument whose elements are strings is rewritten too, to `(...xs).includes('…')`, which is no expression. -/
theorem C56_hazard_spread (compiles : Text → Bool) (hc : ∀ p, compiles p = true) :
    test compiles ⟨some "test".toList, .literal "/ab/".toList, [⟨.spread, some true⟩]⟩ = some ("ab".toList, true) ∧ ¬ Valid .spread true := by
  refine ⟨?_, by simp [Valid]⟩
  have : extractRegexLiteralPattern compiles "/ab/".toList = some "ab".toList := by
    rw [show "/ab/".toList = ['/', 'a', 'b', '/'] by decide, show "ab".toList = ['a', 'b'] by decide]
    simp [extractRegexLiteralPattern, Includes.lastSlash, hc]
    decide
  rw [C56_test_iff]
  exact ⟨rfl, ⟨.spread, some true⟩, "ab".toList, rfl, rfl, by decide, rfl, .inl ⟨_, .literal, this⟩⟩

/-- Variables are followed whether or not they are constant: a `let` may have been given another regular expression since. -/
theorem C56_hazard_let (compiles : Text → Bool) (property : Option Text) (i : Option Init) (args : List Arg) :
    test compiles ⟨property, .name (some (.variable false i)), args⟩ = test compiles ⟨property, .name (some (.variable true i)), args⟩ := by
  cases i with
  | none => rfl
  | some i => cases i <;> rfl

example : test (fun _ => true) ⟨some "test".toList, .name (some (.variable true (some (.constructor "it's".toList [])))), [⟨.other, some true⟩]⟩
    = some ("it\\'s".toList, true) := by decide
example : test (fun _ => true) ⟨some "test".toList, .name (some (.variable true (some (.constructor "a+".toList [])))), [⟨.identifier, some true⟩]⟩
    = none := by decide
example : Valid .identifier (needsParens .identifier) ∧ Valid .other (needsParens .other) :=
  ⟨(C56_test_valid _ (by decide) (by decide)).1, (C56_test_valid _ (by decide) (by decide)).1⟩

end Tsgolint.IncludesTest
