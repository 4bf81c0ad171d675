import Verif.Spec.Errors
/-! # C69: only-throw-error and prefer-promise-reject-errors -/
namespace Tsgolint.Errors
variable {T : Type}

theorem isRethrown_iff (e : Thrown) : isRethrown e = true ↔ ∃ d, e = .identifier d ∧ Caught d := by
  constructor
  · intro h
    cases e with
    | other => simp [isRethrown] at h
    | identifier d =>
      refine ⟨d, rfl, ?_⟩
      cases d with
      | missing => simp [isRethrown] at h
      | other => simp [isRethrown] at h
      | caught => exact .clause
      | param rest index arrow place =>
        cases rest <;> cases arrow <;> simp [isRethrown] at h
        obtain ⟨rfl, h⟩ := h
        cases place with
        | elsewhere => simp at h
        | argument callee i args =>
          cases callee with
          | none => simp at h
          | some c =>
            obtain ⟨m, t⟩ := c
            simp only [isRejectionHandler] at h
            by_cases h1 : m = "catch"
            · subst h1
              simp at h
              obtain ⟨⟨h1, rfl⟩, rfl⟩ := h
              refine .catchMethod args ?_
              rintro rfl; simp at h1
            · by_cases h2 : m = "then"
              · subst h2
                simp at h
                obtain ⟨⟨⟨h3, rfl⟩, h4⟩, rfl⟩ := h
                match args, h3, h4 with
                | .plain :: a :: l, _, _ => exact .thenMethod a l
                | .spread :: _ :: _, _, h4 => simp at h4
              · simp [h1, h2] at h
  · rintro ⟨d, rfl, h⟩
    cases h with
    | clause => rfl
    | catchMethod args hn =>
      have := List.length_pos_iff.2 hn
      simp [isRethrown, isRejectionHandler]; omega
    | thenMethod a args => simp [isRethrown, isRejectionHandler]

/-- C69 (throw).  `throw e` is reported exactly if the type is not listed and: it is undefined; or it is not an error, nor — where the options allow
them — `any`, `unknown` or a caught error thrown again. -/
theorem C69_throw (E : Env T) (o : ThrowOpts) (e : Thrown) (t : T) :
    (reportThrow E o e t = some .undef ↔ E.listed t = false ∧ E.isUndefined t = true) ∧
    (reportThrow E o e t = some .object ↔ E.listed t = false ∧ E.isUndefined t = false ∧ E.errorLike t = false ∧
      ¬ (o.allowThrowingAny = true ∧ E.isAny t = true) ∧ ¬ (o.allowThrowingUnknown = true ∧ E.isUnknown t = true) ∧
      ¬ (o.allowRethrowing = true ∧ ∃ d, e = .identifier d ∧ Caught d)) := by
  rw [← isRethrown_iff]
  unfold reportThrow
  cases E.listed t <;> cases E.isUndefined t <;> cases E.errorLike t <;> cases o.allowThrowingAny <;> cases E.isAny t <;>
    cases o.allowThrowingUnknown <;> cases E.isUnknown t <;> cases o.allowRethrowing <;> cases isRethrown e <;> simp

theorem new_iff (a : Above) : insideNewPromise a = true ↔ a.New := by
  induction a with
  | other => simp only [insideNewPromise, Bool.false_eq_true, false_iff]; intro h; cases h
  | new_ p =>
    cases p
    · simp only [insideNewPromise, Bool.false_eq_true, false_iff]; intro h; cases h
    · simp only [insideNewPromise, true_iff]; exact .here
  | paren up ih =>
    rw [insideNewPromise, ih]
    exact ⟨.paren, fun h => by cases h with | paren h => exact h⟩

theorem check_iff (E : Env T) (o : RejectOpts) (args : List T) : checkReject E o args = true ↔ ¬ GoodReason E o args := by
  unfold checkReject GoodReason
  cases args with
  | nil => cases h : o.allowEmptyReject <;> simp
  | cons t rest =>
    simp only [reduceCtorEq, false_and, false_or, List.cons.injEq]
    have : (∃ t' rest', (t = t' ∧ rest = rest') ∧ (E.listed t' = true ∨ (o.allowThrowingAny = true ∧ E.isAny t' = true) ∨
        (o.allowThrowingUnknown = true ∧ E.isUnknown t' = true) ∨ E.errorLike t' = true ∨ E.readonlyErrorLike t' = true)) ↔
        (E.listed t = true ∨ (o.allowThrowingAny = true ∧ E.isAny t = true) ∨
        (o.allowThrowingUnknown = true ∧ E.isUnknown t = true) ∨ E.errorLike t = true ∨ E.readonlyErrorLike t = true) :=
      ⟨fun ⟨_, _, ⟨h1, _⟩, h⟩ => h1 ▸ h, fun h => ⟨t, rest, ⟨rfl, rfl⟩, h⟩⟩
    rw [this]
    cases E.listed t <;> cases E.errorLike t <;> cases E.readonlyErrorLike t <;> cases o.allowThrowingAny <;> cases E.isAny t <;>
      cases o.allowThrowingUnknown <;> cases E.isUnknown t <;> simp

/-- C69 (reject).  A call is reported exactly if it rejects a promise without a good reason. -/
theorem C69_reject (E : Env T) (o : RejectOpts) (c : Callee) (args : List T) :
    reportReject E o c args = true ↔ Rejects c ∧ ¬ GoodReason E o args := by
  rw [← check_iff]
  unfold reportReject
  cases c with
  | identifier => simp only [Bool.false_eq_true, false_iff]; rintro ⟨h, -⟩; cases h
  | other => simp only [Bool.false_eq_true, false_iff]; rintro ⟨h, -⟩; cases h
  | access name onPromise =>
    by_cases h : name = some "reject" ∧ onPromise = true
    · obtain ⟨rfl, rfl⟩ := h
      simp [Rejects.method]
    · have hf : ¬ (decide (name.getD "" = "reject") && onPromise) = true := by
        intro h'
        simp only [Bool.and_eq_true, decide_eq_true_eq] at h'
        refine h ⟨?_, h'.2⟩
        cases name with
        | none => simp at h'
        | some n => simpa using h'.1
      simp only [if_neg hf]
      simp only [Bool.false_eq_true, false_iff]
      rintro ⟨h', -⟩
      cases h'
      exact h ⟨rfl, rfl⟩
  | param index params above =>
    by_cases h : 2 ≤ params ∧ index = 1
    · obtain ⟨h1, rfl⟩ := h
      simp only [show ¬ params < 2 by omega, decide_false, ne_eq, not_true_eq_false, Bool.or_self, Bool.false_eq_true, if_false]
      cases hn : insideNewPromise above with
      | false =>
        simp only [Bool.not_false, if_true, Bool.false_eq_true, false_iff]
        rintro ⟨h', -⟩
        cases h' with
        | param _ h => rw [← new_iff, hn] at h; cases h
      | true =>
        simp only [Bool.not_true, Bool.false_eq_true, if_false]
        exact ⟨fun h => ⟨.param h1 ((new_iff above).1 hn), h⟩, fun h => h.2⟩
    · have hf : (decide (params < 2) || decide (index ≠ 1)) = true := by
        simp only [Bool.or_eq_true, decide_eq_true_eq]; omega
      simp only [if_pos hf]
      simp only [Bool.false_eq_true, false_iff]
      rintro ⟨h', -⟩
      cases h' with
      | param h1 _ => exact h ⟨h1, rfl⟩

/-! ## Cases: 0 = Error, 1 = string, 2 = any, 3 = undefined -/

def sample : Env Nat where
  listed := fun t => t == 9
  isUndefined := fun t => t == 3
  isAny := fun t => t == 2
  isUnknown := fun t => t == 4
  errorLike := fun t => t == 0
  readonlyErrorLike := fun t => t == 5

def handler (m : String) (i : Nat) (args : List Arg) : Thrown := .identifier (.param false 0 true (.argument (some (m, true)) i args))

example : (List.range 4).map (reportThrow sample {} .other) = [none, some .object, none, some .undef] := by decide
example : reportThrow sample {} (handler "then" 1 [.plain, .plain]) 1 = none := by decide
example : reportThrow sample {} (handler "then" 1 [.spread, .plain]) 1 = some .object := by decide
example : reportThrow sample {} (handler "catch" 0 [.plain]) 1 = none := by decide
example : reportThrow sample { allowRethrowing := false } (handler "catch" 0 [.plain]) 1 = some .object := by decide
example : reportReject sample {} (.param 1 2 (.paren (.new_ true))) [] = true := by decide
example : reportReject sample {} (.access (some "reject") true) [1] = true := by decide
example : reportReject sample {} (.access (some "reject") true) [5] = false := by decide
example : Rejects (.param 1 3 (.paren (.new_ true))) := .param (by omega) (.paren .here)
example : ¬ GoodReason sample {} [1] := (check_iff ..).1 (by decide)

end Tsgolint.Errors
