import Verif.Spec.RuleTester
/-!
# C127: the rule tester
-/
namespace Tsgolint.RuleTester

variable {Code : Type}

theorem rounds_length (R : Rule Code) (n : Nat) (code : Code) : (rounds R n code).length ≤ n := by
  induction n generalizing code with
  | zero => simp [rounds]
  | succ n ih =>
    rw [rounds]
    cases h : (R.fix code (R.lint code)).2 with
    | false => simp
    | true => simpa using ih _

/-- The outputs of at most `n` rounds -/
theorem rounds_iff (R : Rule Code) (n : Nat) (code : Code) (l : List Code) : l = rounds R n code ↔
    (l.length < n ∧ FixedBy R code l) ∨ (l.length = n ∧ FixedSoFar R code l) := by
  induction n generalizing code l with
  | zero =>
    rw [rounds]
    constructor
    · rintro rfl; exact .inr ⟨rfl, .here code⟩
    · rintro (⟨h, _⟩ | ⟨h, _⟩)
      · cases h
      · exact List.length_eq_zero_iff.1 h
  | succ n ih =>
    rw [rounds]
    cases hf : R.fix code (R.lint code) with
    | mk code' b =>
      cases b with
      | false =>
        simp only [Bool.not_false, if_true]
        constructor
        · rintro rfl; exact .inl ⟨Nat.succ_pos n, .done (by rw [hf])⟩
        · rintro (⟨_, h⟩ | ⟨hl, h⟩)
          · cases h with
            | done => rfl
            | again h => rw [hf] at h; cases h
          · cases h with
            | here => rfl
            | again h => rw [hf] at h; cases h
      | true =>
        simp only [Bool.not_true, Bool.false_eq_true, if_false]
        cases l with
        | nil =>
          constructor
          · intro h; cases h
          · rintro (⟨_, h⟩ | ⟨h, _⟩)
            · cases h with
              | done h => rw [hf] at h; cases h
            · cases h
        | cons c rest =>
          rw [List.cons.injEq, ih code' rest]
          constructor
          · rintro ⟨rfl, h | h⟩
            · exact .inl ⟨Nat.succ_lt_succ h.1, .again hf h.2⟩
            · exact .inr ⟨congrArg (· + 1) h.1, .again hf h.2⟩
          · rintro (⟨hl, h⟩ | ⟨hl, h⟩)
            · cases h with
              | again h h' =>
                rw [hf] at h
                cases h
                exact ⟨rfl, .inl ⟨Nat.lt_of_succ_lt_succ hl, h'⟩⟩
            · cases h with
              | again h h' =>
                rw [hf] at h
                cases h
                exact ⟨rfl, .inr ⟨Nat.succ.inj hl, h'⟩⟩

theorem position_iff (e a : Nat) : position e a = true ↔ At e a := by
  unfold position At
  by_cases h0 : e = 0
  · simp [h0]
  · by_cases h1 : e = a + 1 <;> simp [h0, h1]

variable [DecidableEq Code]

theorem suggestionsMatch_iff (code : Code) : ∀ (es : List (ExpectedSuggestion Code)) (ss : List (Suggestion Code)),
    suggestionsMatch code es ss = true ↔ List.Forall₂ (fun e s => e.id = s.id ∧ e.output = s.apply code) es ss
  | [], [] => ⟨fun _ => .nil, fun _ => rfl⟩
  | [], _ :: _ => ⟨fun h => (nomatch h), fun h => (nomatch h)⟩
  | _ :: _, [] => ⟨fun h => (nomatch h), fun h => (nomatch h)⟩
  | e :: es, s :: ss => by
    rw [suggestionsMatch, Bool.and_eq_true, Bool.and_eq_true, suggestionsMatch_iff code es ss]
    simp only [beq_iff_eq, decide_eq_true_eq]
    constructor
    · rintro ⟨h, h'⟩; exact .cons h h'
    · intro h
      cases h with
      | cons h h' => exact ⟨h, h'⟩

theorem errorMatches_iff (code : Code) (e : ExpectedError Code) (d : Diagnostic Code) : errorMatches code e d = true ↔ AsExpected code e d := by
  unfold errorMatches
  simp only [Bool.and_eq_true, beq_iff_eq, position_iff, suggestionsMatch_iff]
  constructor
  · rintro ⟨⟨⟨⟨⟨h1, h2⟩, h3⟩, h4⟩, h5⟩, h6⟩; exact ⟨h1, h2, h3, h4, h5, h6⟩
  · rintro ⟨h1, h2, h3, h4, h5, h6⟩; exact ⟨⟨⟨⟨⟨h1, h2⟩, h3⟩, h4⟩, h5⟩, h6⟩

theorem errorsMatch_iff (code : Code) : ∀ (es : List (ExpectedError Code)) (ds : List (Diagnostic Code)),
    errorsMatch code es ds = true ↔ List.Forall₂ (AsExpected code) es ds
  | [], [] => ⟨fun _ => .nil, fun _ => rfl⟩
  | [], _ :: _ => ⟨fun h => (nomatch h), fun h => (nomatch h)⟩
  | _ :: _, [] => ⟨fun h => (nomatch h), fun h => (nomatch h)⟩
  | e :: es, d :: ds => by
    rw [errorsMatch, Bool.and_eq_true, errorMatches_iff, errorsMatch_iff code es ds]
    constructor
    · rintro ⟨h, h'⟩; exact .cons h h'
    · intro h
      cases h with
      | cons h h' => exact ⟨h, h'⟩

omit [DecidableEq Code] in
theorem onlyMode_iff (valid : List (ValidCase Code)) (invalid : List (InvalidCase Code)) : onlyMode valid invalid = true ↔ SomeOnly valid invalid := by
  simp [onlyMode, SomeOnly]

/-- Skipped: marked with `Skip`, or some case is marked with `Only` and this one is not -/
theorem isSkipped_iff (mode only skip : Bool) : isSkipped mode only skip = true ↔ skip = true ∨ (mode = true ∧ only = false) := by
  cases mode <;> cases only <;> cases skip <;> simp [isSkipped]

theorem verdict_ne (b : Bool) : verdict b ≠ .skipped := by cases b <;> simp [verdict]
theorem verdict_passed (b : Bool) : verdict b = .passed ↔ b = true := by cases b <;> simp [verdict]

omit [DecidableEq Code] in
/-- **C127** A valid case passes exactly if the rule reports nothing -/
theorem valid_iff (R : Rule Code) (valid : List (ValidCase Code)) (invalid : List (InvalidCase Code)) (c : ValidCase Code)
    (hs : c.skip = false) (ho : SomeOnly valid invalid → c.only = true) :
    runValid R (onlyMode valid invalid) c = .passed ↔ R.lint c.code = [] := by
  have hns : ¬ isSkipped (onlyMode valid invalid) c.only c.skip = true := by
    rw [isSkipped_iff, onlyMode_iff, hs]
    rintro (h | ⟨h1, h2⟩)
    · cases h
    · rw [ho h1] at h2; cases h2
  unfold runValid
  rw [if_neg hns, verdict_passed]
  simp

/-- **C127** An invalid case passes exactly if the diagnostics are as expected, one by one, the snapshot is the same, and the outputs are the codes that fixing again and again gives; with less than ten the last one has nothing more to fix -/
theorem invalid_iff (R : Rule Code) (valid : List (ValidCase Code)) (invalid : List (InvalidCase Code)) (c : InvalidCase Code)
    (hs : c.skip = false) (ho : SomeOnly valid invalid → c.only = true) :
    runInvalid R (onlyMode valid invalid) c = .passed ↔ Holds R c := by
  have hns : ¬ isSkipped (onlyMode valid invalid) c.only c.skip = true := by
    rw [isSkipped_iff, onlyMode_iff, hs]
    rintro (h | ⟨h1, h2⟩)
    · cases h
    · rw [ho h1] at h2; cases h2
  unfold runInvalid
  rw [if_neg hns]
  simp only [verdict_passed, Bool.and_eq_true, decide_eq_true_eq, errorsMatch_iff, rounds_iff]
  constructor
  · rintro ⟨⟨h1, h2⟩, h3⟩; exact ⟨h1, h3, h2⟩
  · rintro ⟨h1, h2, h3⟩; exact ⟨⟨h1, h3⟩, h2⟩

/-- **C127** Which cases are skipped: those marked with `Skip`, and all that are not marked with `Only` if one is, valid or not -/
theorem skipped_iff (R : Rule Code) (valid : List (ValidCase Code)) (invalid : List (InvalidCase Code)) :
    (∀ c : ValidCase Code, runValid R (onlyMode valid invalid) c = .skipped ↔ c.skip = true ∨ (SomeOnly valid invalid ∧ c.only = false)) ∧
    ∀ c : InvalidCase Code, runInvalid R (onlyMode valid invalid) c = .skipped ↔ c.skip = true ∨ (SomeOnly valid invalid ∧ c.only = false) := by
  constructor
  · intro c
    rw [← onlyMode_iff, ← isSkipped_iff]
    unfold runValid
    by_cases h : isSkipped (onlyMode valid invalid) c.only c.skip = true
    · rw [if_pos h]; simp [h]
    · rw [if_neg h]; exact ⟨fun h' => absurd h' (verdict_ne _), fun h' => absurd h' h⟩
  · intro c
    rw [← onlyMode_iff, ← isSkipped_iff]
    unfold runInvalid
    by_cases h : isSkipped (onlyMode valid invalid) c.only c.skip = true
    · rw [if_pos h]; simp [h]
    · rw [if_neg h]; exact ⟨fun h' => absurd h' (verdict_ne _), fun h' => absurd h' h⟩

omit [DecidableEq Code] in
theorem fixedBy_unique {R : Rule Code} {code : Code} {l l' : List Code} (h : FixedBy R code l) (h' : FixedBy R code l') : l = l' := by
  induction h generalizing l' with
  | done h =>
    cases h' with
    | done => rfl
    | again h' => rw [h'] at h; cases h
  | again h _ ih =>
    cases h' with
    | done h' => rw [h] at h'; cases h'
    | again h' h'' => rw [h] at h'; cases h'; rw [ih h'']

/-- **C127** A run in which no case fails: every case that is not skipped holds; with no `Only` and no `Skip` that is all of them -/
theorem run_passes (R : Rule Code) (valid : List (ValidCase Code)) (invalid : List (InvalidCase Code))
    (ho : ¬ SomeOnly valid invalid) (hv : ∀ c ∈ valid, c.skip = false) (hi : ∀ c ∈ invalid, c.skip = false) :
    (.failed ∉ (runTester R valid invalid).1 ∧ .failed ∉ (runTester R valid invalid).2) ↔
      (∀ c ∈ valid, R.lint c.code = []) ∧ ∀ c ∈ invalid, Holds R c := by
  have hex : ∀ r : Result, r ≠ .skipped → (r ≠ .failed ↔ r = .passed) := by intro r; cases r <;> simp
  have key1 : ∀ c ∈ valid, (runValid R (onlyMode valid invalid) c ≠ .failed ↔ R.lint c.code = []) := by
    intro c hc
    rw [hex _ fun h => ?_, valid_iff R valid invalid c (hv c hc) fun h => absurd h ho]
    rcases ((skipped_iff R valid invalid).1 c).1 h with h | h
    · rw [hv c hc] at h; cases h
    · exact ho h.1
  have key2 : ∀ c ∈ invalid, (runInvalid R (onlyMode valid invalid) c ≠ .failed ↔ Holds R c) := by
    intro c hc
    rw [hex _ fun h => ?_, invalid_iff R valid invalid c (hi c hc) fun h => absurd h ho]
    rcases ((skipped_iff R valid invalid).2 c).1 h with h | h
    · rw [hi c hc] at h; cases h
    · exact ho h.1
  unfold runTester
  simp only [List.mem_map, not_exists, not_and]
  constructor
  · rintro ⟨h1, h2⟩
    exact ⟨fun c hc => (key1 c hc).1 (h1 c hc), fun c hc => (key2 c hc).1 (h2 c hc)⟩
  · rintro ⟨h1, h2⟩
    exact ⟨fun c hc => (key1 c hc).2 (h1 c hc), fun c hc => (key2 c hc).2 (h2 c hc)⟩

/-! ### Examples -/

/-- a rule on numbers: reports numbers above 2 and takes 1 away -/
def sampleRule : Rule Nat where
  lint n := if n > 2 then [⟨"big", 0, n, 0, n + 1, some [⟨"less", (· - 1)⟩]⟩] else []
  fix n ds := if ds.isEmpty then (n, false) else (n - 1, true)
  snapshot _ _ := true

def sampleCase : InvalidCase Nat := ⟨4, false, false, [3, 2], [⟨"big", 1, 5, 0, 0, [⟨"less", 3⟩]⟩]⟩

example : runTester sampleRule [⟨2, false, false⟩, ⟨3, false, true⟩] [sampleCase] = ([.passed, .skipped], [.passed]) := by decide
example : runTester sampleRule [⟨3, false, false⟩] [{ sampleCase with output := [3] }, { sampleCase with errors := [] }] = ([.failed], [.failed, .failed]) := by decide
/-- with `Only` the failing case is not seen -/
example : runTester sampleRule [⟨3, false, false⟩] [{ sampleCase with only := true }] = ([.skipped], [.passed]) := by decide
/-- ten rounds at most: from 20 there is more to fix after them -/
example : rounds sampleRule 10 20 = [19, 18, 17, 16, 15, 14, 13, 12, 11, 10] := by decide
example : ¬ SomeOnly [⟨2, false, false⟩] [sampleCase] := by simp [SomeOnly, sampleCase]
example : Holds sampleRule sampleCase := (invalid_iff sampleRule [] [sampleCase] sampleCase rfl (by simp [SomeOnly, sampleCase])).1 (by decide)

end Tsgolint.RuleTester
