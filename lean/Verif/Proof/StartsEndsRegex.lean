import Verif.Spec.StartsEnds
/-! # Simple patterns: what is parsed is what they match -/
namespace Tsgolint.StartsEnds

open Tsgolint.StringLiteral (utf16)

theorem literal_append (a b : Str) (r : Re) : literal (a ++ b) r = literal a (literal b r) := by
  induction a with
  | nil => rfl
  | cons u a ih => simp only [List.cons_append, literal, ih]

theorem literal_matches (s text : Str) (tail : Re) (i k : Nat) (hi : i ≤ s.length) :
    (literal text tail).Matches s i k ↔ text <+: s.drop i ∧ tail.Matches s (i + text.length) k := by
  induction text generalizing i with
  | nil => simp [literal]
  | cons c t ih =>
    simp only [literal, Re.Matches, List.length_cons]
    constructor
    · rintro ⟨j, ⟨hc, rfl⟩, hm⟩
      have hlt : i < s.length := by
        rcases Nat.lt_or_ge i s.length with h | h
        · exact h
        · rw [List.getElem?_eq_none h] at hc; cases hc
      obtain ⟨h1, h2⟩ := (ih (i + 1) (by omega)).1 hm
      refine ⟨?_, by rw [show i + (t.length + 1) = i + 1 + t.length by omega]; exact h2⟩
      rw [List.drop_eq_getElem_cons hlt]
      rw [List.getElem?_eq_getElem hlt] at hc
      cases hc
      exact List.cons_prefix_cons.2 ⟨rfl, h1⟩
    · rintro ⟨h1, h2⟩
      have hlt : i < s.length := by
        rcases Nat.lt_or_ge i s.length with h | h
        · exact h
        · rw [List.drop_eq_nil_of_le h] at h1; exact absurd h1 (by simp)
      rw [List.drop_eq_getElem_cons hlt] at h1
      obtain ⟨rfl, h3⟩ := List.cons_prefix_cons.1 h1
      refine ⟨i + 1, ⟨List.getElem?_eq_getElem hlt, rfl⟩, (ih (i + 1) (by omega)).2 ⟨h3, ?_⟩⟩
      rw [show i + 1 + t.length = i + (t.length + 1) by omega]; exact h2

theorem test_start (s text : Str) : (Re.seq .startOfInput (literal text .empty)).Test s ↔ text <+: s := by
  unfold Re.Test
  simp only [Re.Matches]
  constructor
  · rintro ⟨i, k, hi, j, ⟨rfl, rfl⟩, hm⟩
    simpa using ((literal_matches s text .empty 0 k hi).1 hm).1
  · intro h
    refine ⟨0, text.length, Nat.zero_le _, 0, ⟨rfl, rfl⟩, (literal_matches s text .empty 0 _ (Nat.zero_le _)).2 ⟨by simpa using h, ?_⟩⟩
    simp [Re.Matches]

theorem test_end (s text : Str) : (literal text (.seq .endOfInput .empty)).Test s ↔ text <:+ s := by
  unfold Re.Test
  constructor
  · rintro ⟨i, k, hi, hm⟩
    obtain ⟨⟨t, ht⟩, h2⟩ := (literal_matches s text _ i k hi).1 hm
    simp only [Re.Matches] at h2
    obtain ⟨j, ⟨h3, -⟩, -⟩ := h2
    have := congrArg List.length ht
    simp only [List.length_append, List.length_drop] at this
    have : t = [] := List.length_eq_zero_iff.1 (by omega)
    subst this
    rw [List.append_nil] at ht
    rw [ht]
    exact List.drop_suffix _ _
  · rintro ⟨t, rfl⟩
    refine ⟨t.length, (t ++ text).length, by simp, (literal_matches _ _ _ _ _ (by simp)).2 ⟨by simp, ?_⟩⟩
    exact ⟨_, ⟨by simp, rfl⟩, by simp [Re.Matches]⟩

theorem test_anywhere (s text : Str) : (literal text .empty).Test s ↔ text <:+: s := by
  unfold Re.Test
  constructor
  · rintro ⟨i, k, hi, hm⟩
    obtain ⟨⟨t, ht⟩, -⟩ := (literal_matches s text _ i k hi).1 hm
    refine ⟨s.take i, t, ?_⟩
    rw [List.append_assoc, ht, List.take_append_drop]
  · rintro ⟨a, b, rfl⟩
    refine ⟨a.length, a.length + text.length, by simp [Nat.add_assoc], (literal_matches _ _ _ _ _ (by simp [Nat.add_assoc])).2 ⟨by simp, ?_⟩⟩
    simp [Re.Matches]

theorem special_syntax {c : Char} (h : meta' c = false) (hb : c ≠ '\\') : syntaxCharacter c = false ∧ c ≠ '^' ∧ c ≠ '$' := by
  simp only [meta', List.contains_eq_mem, decide_eq_false_iff_not] at h
  have h' : c ∉ ['^', '$', '.', '*', '+', '?', '|', '[', ']', '(', ')', '{', '}'] := h
  simp only [List.mem_cons, not_or, List.not_mem_nil, not_false_eq_true, and_true] at h'
  refine ⟨?_, h'.1, h'.2.1⟩
  simp only [syntaxCharacter, List.contains_eq_mem, decide_eq_false_iff_not]
  show c ∉ ['^', '$', '\\', '.', '*', '+', '?', '(', ')', '[', ']', '{', '}', '|']
  simp only [List.mem_cons, not_or, List.not_mem_nil, not_false_eq_true, and_true]
  simp_all

/-- What a tail of a pattern reads as. -/
def TailReads (tail : Text) (r : Re) : Prop := (∀ n, tail.length < n → read n tail = some r) ∧ beginsWithOctal tail = false

theorem tail_nil : TailReads [] .empty := by
  refine ⟨fun n hn => ?_, rfl⟩
  cases n with
  | zero => simp at hn
  | succ n => rfl

theorem tail_end : TailReads ['$'] (.seq .endOfInput .empty) := by
  refine ⟨fun n hn => ?_, by decide⟩
  match n, hn with
  | n + 2, _ => rfl
  | 0, h => simp at h
  | 1, h => simp at h

theorem read_literal (isDigit : Char → Bool) (hd : ∀ c : Char, c.isDigit = true → isDigit c = true) (tail : Text) (r : Re)
    (ht : TailReads tail r) (m : Nat) : ∀ (content text : Text) (n : Nat), content.length ≤ m → (content ++ tail).length < n →
    legacyOctal content = false → parseLoop isDigit false content = some text → read n (content ++ tail) = some (literal (text.flatMap utf16) r) := by
  induction m with
  | zero =>
    intro content text n hm hn _ hp
    obtain rfl : content = [] := List.length_eq_zero_iff.1 (by omega)
    simp only [parseLoop, Bool.false_eq_true, if_false, Option.some.injEq] at hp
    subst hp
    exact ht.1 n hn
  | succ m ih =>
    intro content text n hm hn hl hp
    match content with
    | [] =>
      simp only [parseLoop, Bool.false_eq_true, if_false, Option.some.injEq] at hp
      subst hp
      exact ht.1 n hn
    | c :: rest =>
      simp only [List.length_cons] at hm
      simp only [List.cons_append, List.length_cons] at hn
      obtain ⟨n, rfl⟩ : ∃ k, n = k + 1 := ⟨n - 1, by omega⟩
      by_cases hc : c = '\\'
      · subst hc
        rw [parseLoop] at hp
        simp only [if_true] at hp
        match rest with
        | [] => simp [parseLoop] at hp
        | e :: rest' =>
          simp only [List.length_cons] at hm
          simp only [List.cons_append, List.length_cons] at hn
          simp only [legacyOctal, if_true, Bool.or_eq_false_iff, Bool.and_eq_false_iff] at hl
          have step : ∀ (ch : Char), (parseLoop isDigit false rest').map (ch :: ·) = some text →
              (read n (rest' ++ tail)).map (literal (utf16 ch)) = some (literal (text.flatMap utf16) r) := by
            intro ch h
            simp only [Option.map_eq_some_iff] at h
            obtain ⟨t', h1, rfl⟩ := h
            rw [ih rest' t' n (by omega) (by omega) hl.2 h1]
            simp only [Option.map_some, List.flatMap_cons, literal_append]
          rw [parseLoop] at hp
          rw [List.cons_append, List.cons_append, read.eq_def]
          simp only [show ¬('\\' = '^') by decide, show ¬('\\' = '$') by decide, if_false, if_true]
          by_cases h1 : e = 'n'
          · subst h1; exact step _ hp
          · by_cases h2 : e = 'r'
            · subst h2; exact step _ hp
            · by_cases h3 : e = 't'
              · subst h3; exact step _ hp
              · by_cases h4 : e = 'v'
                · subst h4; exact step _ hp
                · by_cases h5 : e = 'f'
                  · subst h5; exact step _ hp
                  · by_cases h6 : e = '0'
                    · subst h6
                      have hp' : (parseLoop isDigit false rest').map (Char.ofNat 0 :: ·) = some text := hp
                      have := step _ hp'
                      simp only [show ¬('0' = 't') by decide, show ¬('0' = 'n') by decide, show ¬('0' = 'v') by decide,
                        show ¬('0' = 'f') by decide, show ¬('0' = 'r') by decide, if_false, if_true]
                      have hno : beginsWithOctal (rest' ++ tail) = false := by
                        cases rest' with
                        | nil => exact ht.2
                        | cons a b =>
                          rcases hl.1 with h | h
                          · simp at h
                          · exact h
                      revert this hno
                      generalize rest' ++ tail = w
                      intro this hno
                      match w with
                      | [] => exact this
                      | d :: w' =>
                        simp only [beginsWithOctal, Option.isSome_eq_false_iff, Option.isNone_iff_eq_none] at hno
                        simp only [hno]
                        exact this
                    · simp only [h1, h2, h3, h4, h5, h6, if_false] at hp ⊢
                      cases hu : unsupported e with
                      | true => simp [hu] at hp
                      | false =>
                        cases hdg : isDigit e with
                        | true => simp [hu, hdg] at hp
                        | false =>
                          simp only [hu, hdg, Bool.false_eq_true, if_false] at hp
                          have h7 : e.isDigit = false := by
                            cases hx : e.isDigit with
                            | false => rfl
                            | true => rw [hd e hx] at hdg; cases hdg
                          unfold unsupported at hu
                          simp only [h7, hu, Bool.or_false, Bool.false_eq_true, if_false]
                          exact step _ hp
      · rw [parseLoop] at hp
        simp only [hc, if_false] at hp
        cases hm' : meta' c with
        | true => simp [hm'] at hp
        | false =>
          simp only [hm', Bool.false_eq_true, if_false, Option.map_eq_some_iff] at hp
          obtain ⟨t', h1, rfl⟩ := hp
          obtain ⟨h2, h3, h4⟩ := special_syntax hm' hc
          rw [legacyOctal.eq_def] at hl
          simp only [hc, if_false] at hl
          rw [List.cons_append, read.eq_def]
          simp only [h2, h3, h4, hc, if_false, Bool.false_eq_true]
          rw [ih rest t' n (by omega) (by omega) hl h1]
          simp only [Option.map_some, List.flatMap_cons, literal_append]

theorem legacy_end (m : Nat) : ∀ c : Text, c.length ≤ m → legacyOctal (c ++ ['$']) = false → legacyOctal c = false := by
  induction m with
  | zero => intro c h _; obtain rfl : c = [] := List.length_eq_zero_iff.1 (by omega); rfl
  | succ m ih =>
    intro c h hl
    match c with
    | [] => rfl
    | a :: rest =>
      simp only [List.length_cons] at h
      rw [List.cons_append, legacyOctal.eq_def] at hl
      rw [legacyOctal.eq_def]
      simp only at hl ⊢
      split
      · next ha =>
        simp only [ha, if_true] at hl
        match rest with
        | [] => rfl
        | d :: rest' =>
          simp only [List.length_cons] at h
          simp only [List.cons_append, Bool.or_eq_false_iff] at hl ⊢
          refine ⟨?_, ih rest' (by omega) hl.2⟩
          match rest' with
          | [] => simp [beginsWithOctal]
          | e :: r => exact hl.1
      · next ha =>
        simp only [ha, if_false] at hl
        exact ih rest (by omega) hl

theorem regex_sound (isDigit : Char → Bool) (hd : ∀ c : Char, c.isDigit = true → isDigit c = true) (pattern flags : Text)
    (p : Parsed) (hl : legacyOctal pattern = false) (hp : parseRegExp isDigit pattern flags = some p) :
    (∀ f ∈ ['i', 'm', 'g', 'y'], f ∉ flags) ∧ p.isStartsWith = !p.isEndsWith ∧
    ∃ r, reading pattern = some r ∧ ∀ s : Str, r.Test s ↔
      if p.isStartsWith then p.text.flatMap utf16 <+: s else p.text.flatMap utf16 <:+ s := by
  unfold parseRegExp at hp
  split at hp
  · cases hp
  · next hf =>
    refine ⟨?_, ?_⟩
    · intro f h1 h2
      apply hf
      rw [List.any_eq_true]
      exact ⟨f, h2, by simpa using h1⟩
    · simp only at hp
      split at hp
      · cases hp
      · next hne =>
        simp only [Option.map_eq_some_iff] at hp
        obtain ⟨text, ht, rfl⟩ := hp
        simp only
        refine ⟨?_, ?_⟩
        · revert hne
          cases (pattern.head? == some '^') <;> cases (pattern.getLast? == some '$') <;> simp
        · unfold parseRegExpText at ht
          simp only [hne, if_false, Bool.false_eq_true] at ht
          cases hs : (pattern.head? == some '^') with
          | true =>
            simp only [hs, if_true] at ht ⊢
            match pattern with
            | [] => simp at hs
            | a :: content =>
              simp only [List.head?_cons, beq_iff_eq, Option.some.injEq] at hs
              subst hs
              simp only [List.drop_succ_cons, List.drop_zero] at ht
              have hl' : legacyOctal content = false := by
                rw [legacyOctal.eq_def] at hl
                simpa using hl
              refine ⟨.seq .startOfInput (literal (text.flatMap utf16) .empty), ?_, fun s => test_start s _⟩
              unfold reading
              rw [read.eq_def]
              simp only [List.length_cons, if_true]
              have := read_literal isDigit hd [] .empty tail_nil content.length content text (content.length + 1) (Nat.le_refl _)
                (by simp) hl' ht
              rw [List.append_nil] at this
              rw [this]; rfl
          | false =>
            simp only [hs, Bool.false_eq_true, if_false] at ht ⊢
            have he : pattern.getLast? = some '$' := by
              cases h : (pattern.getLast? == some '$') with
              | true => exact beq_iff_eq.1 h
              | false => rw [hs, h] at hne; exact absurd rfl hne
            rw [List.getLast?_eq_some_iff] at he
            obtain ⟨content, rfl⟩ := he
            simp only [List.dropLast_concat] at ht
            refine ⟨literal (text.flatMap utf16) (.seq .endOfInput .empty), ?_, fun s => test_end s _⟩
            exact read_literal isDigit hd ['$'] _ tail_end content.length content text _ (Nat.le_refl _) (by simp)
              (legacy_end _ content (Nat.le_refl _) hl) ht

end Tsgolint.StartsEnds
