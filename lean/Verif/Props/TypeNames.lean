import Verif.Spec.TypeNames
/-!
# C133: type names in diagnostics
-/
namespace Tsgolint.TypeNames

theorem dots : "...".toList = ['.', '.', '.'] := by decide

/-- C133.  What is shown for a name is determined by it: the name, or its first 117 characters and three dots. -/
theorem C133_truncate (name shown : Text) : truncate name = shown ↔ Shown name shown := by
  unfold truncate
  constructor
  · rintro rfl
    by_cases h : name.length > 120
    · rw [if_pos h, ← dots]
      exact .short h _ (name.drop 117) (List.take_append_drop _ _).symm (by simp; omega)
    · rw [if_neg h]; exact .whole (by omega)
  · intro h
    cases h with
    | whole h => rw [if_neg (by omega)]
    | short h first rest hn hf =>
      rw [if_pos h, ← dots, hn, List.take_append, hf, List.take_of_length_le (by omega)]; simp

/-- At most 120 characters are shown; and all of the name unless it is longer. -/
theorem C133_length (name : Text) : (truncate name).length ≤ 120 ∧ (truncate name = name ↔ name.length ≤ 120) := by
  unfold truncate
  by_cases h : name.length > 120
  · rw [if_pos h]
    refine ⟨by simp; omega, ?_⟩
    constructor
    · intro e; have := congrArg List.length e; simp at this; omega
    · intro h'; omega
  · rw [if_neg h]; exact ⟨by omega, by simp; omega⟩

theorem plain_iff (e : Expr) : isSelfExplanatory (some e) = true ↔ PlainLiteral e := by
  induction e with
  | parens e ih =>
    rw [show isSelfExplanatory (some (.parens e)) = isSelfExplanatory (some e) from rfl, ih]
    exact ⟨.parens, fun h => by cases h; assumption⟩
  | other => exact ⟨fun h => absurd h (by decide), fun h => nomatch h⟩
  | _ => exact ⟨fun _ => by constructor, fun _ => rfl⟩

theorem name_nil (name : Text) (hn : name ≠ []) (node : Option Expr) : nameForNode name node = [] ↔ ∃ e, node = some e ∧ PlainLiteral e := by
  unfold nameForNode
  cases node with
  | none =>
    simp [isSelfExplanatory]
    unfold truncate; split <;> simp [hn]
  | some e =>
    by_cases h : isSelfExplanatory (some e) = true
    · rw [if_pos h]; simpa using (plain_iff e).1 h
    · rw [if_neg h]
      constructor
      · intro h'; exfalso; unfold truncate at h'; split at h' <;> simp [hn] at h'
      · rintro ⟨e', he, hp⟩; cases he; exact absurd ((plain_iff _).2 hp) h

/-- C133 (labels).  The report about an expression carries the message and range given, and one label, `Type: …` with the name shown,
exactly if the expression is not a plain literal; likewise `Return type: …` for what a callback returns. -/
theorem C133_value (m : M) (primary typeRange : R) (name : Text) (hn : name ≠ []) (node : Option Expr) :
    (valueReport m primary typeRange name node).message = m ∧ (valueReport m primary typeRange name node).range = primary ∧
    (returnReport m primary typeRange name node).message = m ∧ (returnReport m primary typeRange name node).range = primary ∧
    ((∃ e, node = some e ∧ PlainLiteral e) → (valueReport m primary typeRange name node).labels = [] ∧ (returnReport m primary typeRange name node).labels = []) ∧
    ((¬ ∃ e, node = some e ∧ PlainLiteral e) → ∃ shown, Shown name shown ∧
      (valueReport m primary typeRange name node).labels = [("Type: ".toList ++ shown, typeRange)] ∧
      (returnReport m primary typeRange name node).labels = [("Return type: ".toList ++ shown, typeRange)]) := by
  refine ⟨rfl, rfl, rfl, rfl, ?_, ?_⟩
  · intro h
    have := (name_nil name hn node).2 h
    simp [valueReport, returnReport, typedValue, typedReturn, this]
  · intro h
    have hne : nameForNode name node ≠ [] := fun h' => h ((name_nil name hn node).1 h')
    have he : nameForNode name node = truncate name := by
      unfold nameForNode at hne ⊢
      split
      · next hs => simp [hs] at hne
      · rfl
    refine ⟨truncate name, (C133_truncate _ _).1 rfl, ?_, ?_⟩
    · unfold valueReport typedValue; rw [if_pos hne, he]
    · unfold returnReport typedReturn; rw [if_pos hne, he]

/-- C133 (comparisons).  Both operands are labelled with their types, each at its own range, literal or not. -/
theorem C133_comparison (m : M) (primary : R) (left : Text) (leftRange : R) (right : Text) (rightRange : R) :
    ∃ l r, Shown left l ∧ Shown right r ∧
      comparisonReport m primary left leftRange right rightRange =
        ⟨m, primary, [("Type: ".toList ++ l, leftRange), ("Type: ".toList ++ r, rightRange)]⟩ :=
  ⟨_, _, (C133_truncate _ _).1 rfl, (C133_truncate _ _).1 rfl, rfl⟩

/-- C133 (type guards).  One label names the type of the value and that of the predicate. -/
theorem C133_guard (m : M) (primary typeRange : R) (value predicate : Text) :
    ∃ v p, Shown value v ∧ Shown predicate p ∧ guardReport m primary typeRange value predicate =
      ⟨m, primary, [("Type ".toList ++ v ++ " already satisfies predicate type ".toList ++ p, typeRange)]⟩ :=
  ⟨_, _, (C133_truncate _ _).1 rfl, (C133_truncate _ _).1 rfl, rfl⟩

/-- Different types can be shown alike. -/
theorem C133_hazard_alike : ∃ a b : Text, a ≠ b ∧ truncate a = truncate b :=
  ⟨List.replicate 121 'x', List.replicate 122 'x', fun h => absurd (congrArg List.length h) (by simp), by
    unfold truncate; simp⟩

example : Shown (List.replicate 130 'x') (List.replicate 117 'x' ++ "...".toList) :=
  .short (by simp) _ (List.replicate 13 'x') (by simp) (by simp)
example : (valueReport 0 1 2 "string".toList (some (.parens .string))).labels = [] := by decide
example : (valueReport 0 1 2 "string".toList (some .other)).labels = [("Type: string".toList, 2)] := by decide

end Tsgolint.TypeNames
