import Verif.Spec.ImpliedEval
/-! # C75: no-implied-eval -/
namespace Tsgolint.ImpliedEval

theorem calls_iff (c : Callee) (n : String) (hn : n ≠ "") : calleeName c = n ↔ Calls n c := by
  have e : globalCandidates = ["global", "globalThis", "window"] := rfl
  constructor
  · intro h
    unfold calleeName at h
    split at h
    · subst h; exact .direct
    · split at h
      · next ho =>
        rw [e, List.contains_iff_mem] at ho
        split at h
        · subst h; exact .property ho
        · subst h; exact .element ho
        · exact absurd h.symm hn
      · exact absurd h.symm hn
    · exact absurd h.symm hn
  · intro h
    cases h with
    | direct => rfl
    | property ho => simp only [calleeName, e, List.contains_iff_mem, ho, if_true]
    | element ho => simp only [calleeName, e, List.contains_iff_mem, ho, if_true]

theorem functionType_iff (t : TypeInfo) : isFunctionType t = true ↔ t.functionSymbol = true ∨ t.likeFunction = true ∨ t.callSignatures > 0 := by
  unfold isFunctionType
  cases t.functionSymbol <;> cases t.likeFunction <;> simp

theorem knownFunction_iff (h : Handler) : isFunction h = true ↔ KnownFunction h := by
  cases h with
  | functionLike => simp [isFunction, KnownFunction.written]
  | literal =>
    simp only [isFunction, Bool.false_eq_true, false_iff]
    intro h; cases h
  | call n t =>
    simp only [isFunction, Bool.or_eq_true, decide_eq_true_eq, functionType_iff]
    constructor
    · rintro (rfl | h)
      · exact .bound
      · exact .called h
    · intro h
      cases h with
      | bound => exact .inl rfl
      | called h => exact .inr h
  | other t =>
    simp only [isFunction, functionType_iff]
    exact ⟨.typed, fun h => by cases h; assumption⟩

theorem handler_iff (n : String) (c : Call) (r : Report) : r ∈ checkHandler n c ↔ r = .impliedEval ∧
    n ∈ ["execScript", "setImmediate", "setInterval", "setTimeout"] ∧ (∃ h, c.handler = some h ∧ ¬ KnownFunction h) ∧ ¬ DeclaredHere c := by
  have e : evalLikeFunctions = ["execScript", "setImmediate", "setInterval", "setTimeout"] := rfl
  unfold checkHandler DeclaredHere
  cases hh : c.handler with
  | none => simp
  | some h =>
    have hk := knownFunction_iff h
    have hc : evalLikeFunctions.contains n = true ↔ n ∈ ["execScript", "setImmediate", "setInterval", "setTimeout"] := by
      rw [e, List.contains_iff_mem]
    rw [← hc]
    simp only [Option.some.injEq, exists_eq_left', ← hk]
    cases evalLikeFunctions.contains n <;> cases isFunction h <;> cases hd : c.declarationsHere with
    | none => simp
    | some ds =>
      simp only [Bool.not_true, Bool.not_false, Bool.and_true, Bool.and_false, Bool.false_eq_true, if_false, if_true, List.not_mem_nil,
        not_true_eq_false, not_false_eq_true, and_false, false_and, true_and]
      try (by_cases h : true ∈ ds <;> simp [h])

/-- C75 (reports).  A call or `new` is reported as a use of the Function constructor exactly if the callee is the global `Function` and its type is that
constructor or has no symbol; the first argument is reported exactly if the callee is one of the timer functions or `execScript`, not declared in this file,
and the argument is not known to be a function. -/
theorem C75_reports (c : Call) :
    (Report.functionConstructor ∈ check c ↔ Calls "Function" c.callee ∧ c.constructorLike ≠ some false) ∧
    (Report.impliedEval ∈ check c ↔ (∃ n ∈ ["execScript", "setImmediate", "setInterval", "setTimeout"], Calls n c.callee) ∧
      (∃ h, c.handler = some h ∧ ¬ KnownFunction h) ∧ ¬ DeclaredHere c) ∧
    (check c).length ≤ 1 := by
  have h1 := calls_iff c.callee "Function" (by decide)
  have h2 : (∃ n ∈ ["execScript", "setImmediate", "setInterval", "setTimeout"], Calls n c.callee) ↔
      calleeName c.callee ∈ ["execScript", "setImmediate", "setInterval", "setTimeout"] := by
    constructor
    · rintro ⟨n, hn, hc⟩
      rw [(calls_iff c.callee n (by rintro rfl; simp at hn)).2 hc]; exact hn
    · intro h
      exact ⟨_, h, (calls_iff c.callee _ (by intro h0; rw [h0] at h; simp at h)).1 rfl⟩
  have hlen : ∀ n, (checkHandler n c).length ≤ 1 := by
    intro n
    unfold checkHandler
    repeat' split
    all_goals simp
  have hF : ∀ r, r ∉ checkHandler "Function" c := by
    intro r h; rw [handler_iff] at h; simp at h
  have hF' : checkHandler "Function" c = [] := List.eq_nil_iff_forall_not_mem.2 hF
  rw [← h1, h2]
  unfold check
  by_cases he : calleeName c.callee = ""
  · simp [he]
  · by_cases hf : calleeName c.callee = "Function"
    · simp only [hf]
      cases c.constructorLike with
      | none => simp [hF']
      | some b => cases b <;> simp [hF']
    · simp only [he, hf, if_false, handler_iff, hlen, and_true, false_and]
      simp

/-- C75 (findings).  Any call of something named `bind` passes for a function, whatever its type; and a global reached through another access is not seen. -/
theorem C75_hazard (t : TypeInfo) (c : Call) (h : c.handler = some (.call (some "bind") t)) (m : Member) (c' : Call) (h' : c'.callee = .access none m) :
    Report.impliedEval ∉ check c ∧ check c' = [] := by
  constructor
  · rw [(C75_reports c).2.1]
    rintro ⟨-, ⟨h1, h2, h3⟩, -⟩
    rw [h] at h2
    cases h2
    exact h3 .bound
  · simp [check, h', calleeName]

example : check ⟨.identifier "setTimeout", none, some .literal, some [false]⟩ = [.impliedEval] := by decide
example : check ⟨.access (some "window") (.element (some "setTimeout")), none, some (.other ⟨false, false, 0⟩), none⟩ = [.impliedEval] := by decide
example : check ⟨.access (some "foo") (.element (some "setTimeout")), none, some (.other ⟨false, false, 0⟩), none⟩ = [] := by decide
example : check ⟨.identifier "setTimeout", none, some .literal, some [false, true]⟩ = [] := by decide
example : check ⟨.identifier "Function", some true, some .literal, some [false]⟩ = [.functionConstructor] := by decide
example : check ⟨.identifier "Function", some false, some .literal, some [false]⟩ = [] := by decide
example : ¬ KnownFunction .literal := by rw [← knownFunction_iff]; decide

end Tsgolint.ImpliedEval
