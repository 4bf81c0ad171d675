import Verif.Spec.Includes
import Verif.Proof.StartsEnds
import Verif.Proof.StartsEndsRegex
/-! # Patterns as regular expressions and as strings -/
namespace Tsgolint.Includes
open StartsEnds (Re read literal reading syntaxCharacter octal literal_append)
open Tsgolint.StringLiteral (utf16)
open Tsgolint.Template (Reads noHoles units chars Esc Begins)

theorem escape_cons (c : Char) (t : Text) : escapeString (c :: t) = (if c = '\'' then ['\\', '\''] else [c]) ++ escapeString t := rfl

theorem not_special {c : Char} (h : special c = false) (hb : c ≠ '\\') : syntaxCharacter c = false ∧ c ≠ '^' ∧ c ≠ '$' := by
  simp only [special, List.contains_eq_mem, decide_eq_false_iff_not, List.mem_cons, not_or, List.not_mem_nil, not_false_eq_true,
    and_true] at h
  refine ⟨?_, h.2.2.2.2.2.1, h.2.2.2.2.2.2.1⟩
  simp only [syntaxCharacter, List.contains_eq_mem, decide_eq_false_iff_not]
  show c ∉ ['^', '$', '\\', '.', '*', '+', '?', '(', ')', '[', ']', '{', '}', '|']
  simp only [List.mem_cons, not_or, List.not_mem_nil, not_false_eq_true, and_true]
  simp_all

theorem units_append (a b : List Nat) : units (a ++ b) = units a ++ units b := by simp [units]

theorem read_plain (n : Nat) (c : Char) (rest : Text) (h1 : c ≠ '^') (h2 : c ≠ '$') (h3 : c ≠ '\\') (h4 : syntaxCharacter c = false) :
    read (n + 1) (c :: rest) = (read n rest).map (literal (utf16 c)) := by
  rw [read.eq_def]; simp only [h1, h2, h3, h4, if_false, Bool.false_eq_true]

theorem isDigit_eq (c : Char) : Template.isDigit c = c.isDigit := by
  unfold Template.isDigit Char.isDigit
  have h1 : decide ('0' ≤ c) = decide (c.val ≥ '0'.val) := rfl
  have h2 : decide (c ≤ '9') = decide (c.val ≤ '9'.val) := rfl
  rw [h1, h2]

theorem octal_digit {c : Char} (h : Template.isDigit c = false) : octal c = none := by
  unfold octal
  rw [if_neg]
  rintro ⟨h1, h2⟩
  simp only [Template.isDigit, Bool.and_eq_false_iff, decide_eq_false_iff_not] at h
  rcases h with h | h
  · exact h h1
  · exact h (Char.le_trans h2 (by decide))

theorem escape_begins {p : Char → Prop} (hp : ¬ p '\\') {s : Text} (h : Begins p (chars (H := Empty) (escapeString s))) :
    beginsWith (fun c => true) s = true ∧ ∃ c t, s = c :: t ∧ p c := by
  obtain ⟨c, t, he, hc⟩ := h
  cases s with
  | nil => simp [escapeString, chars] at he
  | cons a s =>
    rw [escape_cons] at he
    by_cases ha : a = '\''
    · subst ha
      simp only [if_true, chars, List.cons_append, List.map_cons, List.cons.injEq] at he
      obtain ⟨h1, -⟩ := he
      cases h1
      exact absurd hc hp
    · simp only [ha, if_false, chars, List.cons_append, List.map_cons, List.nil_append, List.cons.injEq] at he
      obtain ⟨h1, -⟩ := he
      cases h1
      exact ⟨rfl, _, _, rfl, hc⟩

theorem pattern_core (m : Nat) : ∀ (p : Text) (prev : Char) (n : Nat), p.length ≤ m → p.length < n → simpleFrom prev p = true →
    harmless p = true → (prev = '\\' → beginsWith special p = false) →
    ∃ t, read n p = some (literal t .empty) ∧ Reads noHoles (.str '\'') (chars (escapeString p)) (units t) := by
  induction m with
  | zero =>
    intro p prev n hm hn _ _ _
    obtain rfl : p = [] := List.length_eq_zero_iff.1 (by omega)
    obtain ⟨n, rfl⟩ : ∃ k, n = k + 1 := ⟨n - 1, by simp at hn; omega⟩
    exact ⟨[], rfl, .nil⟩
  | succ m ih =>
    intro p prev n hm hn hs hh hp
    match p with
    | [] =>
      obtain ⟨n, rfl⟩ : ∃ k, n = k + 1 := ⟨n - 1, by simp at hn; omega⟩
      exact ⟨[], rfl, .nil⟩
    | c :: rest =>
      simp only [List.length_cons] at hm hn
      obtain ⟨n, rfl⟩ : ∃ k, n = k + 1 := ⟨n - 1, by omega⟩
      by_cases hc : c = '\\'
      · subst hc
        match rest with
        | [] => simp [harmless] at hh
        | e :: rest' =>
          simp only [List.length_cons] at hm hn
          rw [harmless.eq_def] at hh
          simp only [if_true, Bool.and_eq_true, bne_iff_ne, Bool.not_eq_true', ne_eq] at hh
          obtain ⟨⟨⟨⟨⟨h1, h2⟩, h3⟩, h4⟩, h5⟩, h6⟩ := hh
          have hs' : simpleFrom '\\' (e :: rest') = true := by
            rw [simpleFrom] at hs
            by_cases hpv : prev = '\\'
            · rw [if_neg (by simpa using hpv)] at hs; simp at hs; exact hs.2
            · rw [if_pos hpv] at hs; simp at hs; exact hs.2
          rw [simpleFrom, if_neg (by simp)] at hs'
          have hse : specialEscape e = false := by cases h : specialEscape e <;> simp_all
          simp only [hse, Bool.false_eq_true, if_false] at hs'
          obtain ⟨t, ht1, ht2⟩ := ih rest' e n (by omega) (by omega) hs' h6 (by
            rintro rfl
            simpa using h5)
          have hesc : escapeString ('\\' :: e :: rest') = '\\' :: e :: escapeString rest' := by
            rw [escape_cons, escape_cons, if_neg (by decide), if_neg h1]; rfl
          rw [hesc]
          simp only [specialEscape, List.contains_eq_mem, decide_eq_false_iff_not, List.mem_cons, List.not_mem_nil, or_false, not_or] at hse
          simp only [List.contains_eq_mem, decide_eq_false_iff_not, List.mem_cons, List.not_mem_nil, or_false, not_or] at h3
          simp only [lineEnd, Bool.or_eq_false_iff, decide_eq_false_iff_not] at h2
          have single : ∀ (k : Nat) (ch : Char), (e, k) ∈ [('b', 8), ('t', 9), ('n', 10), ('v', 11), ('f', 12), ('r', 13)] → utf16 ch = [k] →
              read (n + 1) ('\\' :: e :: rest') = (read n rest').map (literal (utf16 ch)) →
              ∃ t, read (n + 1) ('\\' :: e :: rest') = some (literal t .empty) ∧
                Reads noHoles (.str '\'') (chars ('\\' :: e :: escapeString rest')) (units t) := by
            intro k ch hk hu hr
            refine ⟨utf16 ch ++ t, ?_, ?_⟩
            · rw [hr, ht1]; simp only [Option.map_some, literal_append]
            · rw [units_append, hu]
              exact Reads.esc (e := [e]) (.single hk) ht2
          by_cases e1 : e = 't'
          · subst e1; exact single 9 (Char.ofNat 9) (by decide) (by decide) rfl
          by_cases e2 : e = 'n'
          · subst e2; exact single 10 (Char.ofNat 10) (by decide) (by decide) rfl
          by_cases e3 : e = 'v'
          · subst e3; exact single 11 (Char.ofNat 11) (by decide) (by decide) rfl
          by_cases e4 : e = 'f'
          · subst e4; exact single 12 (Char.ofNat 12) (by decide) (by decide) rfl
          by_cases e5 : e = 'r'
          · subst e5; exact single 13 (Char.ofNat 13) (by decide) (by decide) rfl
          by_cases e6 : e = '0'
          · subst e6
            have hnd : beginsWith Template.isDigit rest' = false := by
              simp only [Bool.or_eq_true, Bool.not_eq_true', Bool.and_eq_true] at h4
              rcases h4 with h | h
              · exact absurd h (by decide)
              · exact h.2
            refine ⟨0 :: t, ?_, ?_⟩
            · rw [read.eq_def]
              simp only [show ¬('\\' = '^') by decide, show ¬('\\' = '$') by decide, if_false, if_true,
                show ¬('0' = 't') by decide, show ¬('0' = 'n') by decide, show ¬('0' = 'v') by decide,
                show ¬('0' = 'f') by decide, show ¬('0' = 'r') by decide]
              have hz : (read n rest').map (literal (utf16 (Char.ofNat 0))) = some (literal (0 :: t) .empty) := by
                rw [ht1]; rfl
              revert hz hnd
              generalize rest' = w
              intro hnd hz
              match w with
              | [] => exact hz
              | d :: w' =>
                simp only [beginsWith] at hnd
                simp only [octal_digit hnd]
                exact hz
            · refine Reads.null ?_ ht2
              intro hb
              obtain ⟨-, x, y, rfl, hx⟩ := escape_begins (by decide) hb
              simp only [beginsWith] at hnd
              rw [hnd] at hx; cases hx
          · have hd : Template.isDigit e = false := by
              simp only [Bool.or_eq_true, Bool.not_eq_true', Bool.and_eq_true, beq_iff_eq] at h4
              rcases h4 with h | h
              · exact h
              · exact absurd h.1 e6
            refine ⟨utf16 e ++ t, ?_, ?_⟩
            · rw [read.eq_def]
              have hd' : e.isDigit = false := by rw [← isDigit_eq]; exact hd
              have hu : "dDwWsSbBcxukpP".toList.contains e = false := by
                simp only [List.contains_eq_mem, decide_eq_false_iff_not]
                show e ∉ ['d', 'D', 'w', 'W', 's', 'S', 'b', 'B', 'c', 'x', 'u', 'k', 'p', 'P']
                simp only [List.mem_cons, List.not_mem_nil, or_false, not_or]
                simp_all
              simp only [show ¬('\\' = '^') by decide, show ¬('\\' = '$') by decide, if_false, if_true, e1, e2, e3, e4, e5, e6, hd', hu,
                Bool.or_false, Bool.false_eq_true]
              rw [ht1]; simp only [Option.map_some, literal_append]
            · rw [units_append]
              refine Reads.esc (e := [e]) (.char ?_ hd) ht2
              simp only [List.mem_cons, List.not_mem_nil, or_false, not_or]
              simp_all
      · have hsp : special c = false ∧ simpleFrom c rest = true := by
          rw [simpleFrom] at hs
          by_cases hpv : prev = '\\'
          · have := hp hpv
            simp only [beginsWith] at this
            rw [if_neg (by simpa using hpv)] at hs
            refine ⟨this, ?_⟩
            cases hx : specialEscape c with
            | true => simp [hx] at hs
            | false => simpa [hx] using hs
          · rw [if_pos hpv] at hs
            cases hx : special c with
            | true => simp [hx] at hs
            | false => exact ⟨rfl, by simpa [hx] using hs⟩
        rw [harmless.eq_def] at hh
        simp only [hc, if_false, Bool.and_eq_true, Bool.not_eq_true'] at hh
        obtain ⟨t, ht1, ht2⟩ := ih rest c n (by omega) (by omega) hsp.2 hh.2 (fun h => absurd h hc)
        obtain ⟨s1, s2, s3⟩ := not_special hsp.1 hc
        refine ⟨utf16 c ++ t, ?_, ?_⟩
        · rw [read_plain n c rest s2 s3 hc s1, ht1]
          simp only [Option.map_some, literal_append]
        · rw [units_append, escape_cons]
          by_cases ha : c = '\''
          · subst ha
            simp only [if_true]
            exact Reads.esc (e := ['\'']) (.char (by decide) (by decide)) ht2
          · simp only [ha, if_false]
            refine Reads.plain (c := c) ⟨ha, ?_⟩ ht2
            simp only [lineEnd, Bool.or_eq_false_iff, decide_eq_false_iff_not] at hh
            simp only [List.mem_cons, List.not_mem_nil, or_false, not_or]
            exact ⟨hc, hh.1.1.1.1, hh.1.1.1.2⟩

theorem sameParameters_iff (a b : List Text) : hasSameParameters a b = true ↔ a = b := by
  induction a generalizing b with
  | nil => cases b <;> simp [hasSameParameters]
  | cons x a ih =>
    cases b with
    | nil => simp [hasSameParameters]
    | cons y b =>
      rw [hasSameParameters]
      by_cases h : x = y <;> simp [h, ih]

theorem compatible_iff (ds : List Declaration) : compatible ds = true ↔ ds ≠ [] ∧ ∀ d ∈ ds, ∃ is, d.includes = some is ∧ d.params ∈ is := by
  have loop : ∀ ds, compatible.loop ds = true ↔ ∀ d ∈ ds, ∃ is, d.includes = some is ∧ d.params ∈ is := by
    intro ds
    induction ds with
    | nil => simp [compatible.loop]
    | cons d ds ih =>
      rw [compatible.loop]
      cases h : d.includes with
      | none => simp [h]
      | some is =>
        have : is.any (hasSameParameters d.params) = true ↔ d.params ∈ is := by
          rw [List.any_eq_true]
          constructor
          · rintro ⟨x, hx, he⟩; rw [(sameParameters_iff _ _).1 he]; exact hx
          · intro hx; exact ⟨_, hx, (sameParameters_iff _ _).2 rfl⟩
        by_cases hx : d.params ∈ is
        · simp [h, this.2 hx, hx, ih]
        · have hf : is.any (hasSameParameters d.params) = false := by
            cases hh : is.any (hasSameParameters d.params) with
            | false => rfl
            | true => exact absurd (this.1 hh) hx
          simp [h, hf, hx]
  unfold compatible
  cases ds with
  | nil => simp
  | cons d ds => simp only [List.isEmpty_cons, Bool.false_eq_true, if_false, loop]; simp

end Tsgolint.Includes
