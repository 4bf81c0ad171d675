import Verif.Spec.StartsEndsFollow
import Verif.Props.StartsEnds
/-! # C131 -/
namespace Tsgolint.StartsEnds
open Tsgolint.StringLiteral (utf16)
variable {N : Type}

/-! ## The common scheme -/

/-- All three look-ups: at an expression that is no variable with an initialiser the answer is known, a variable is followed. -/
structure Looks (kind : N → Kind N) {α : Type} (look : Nat → N → Option α) (answer : Kind N → α) : Prop where
  zero : ∀ n, look 0 n = none
  final : ∀ fuel n, (∀ i, ¬Initial kind n i) → look (fuel + 1) n = some (answer (kind n))
  follow : ∀ fuel n i, Initial kind n i → look (fuel + 1) n = look fuel i

theorem initial_or (kind : N → Kind N) (n : N) : (∃ i, Initial kind n i) ∨ ∀ i, ¬Initial kind n i := by
  rcases Classical.em (∃ i, Initial kind n i) with h | h
  · exact .inl h
  · exact .inr fun i hi => h ⟨i, hi⟩

theorem initial_unique {kind : N → Kind N} {n i j : N} (hi : Initial kind n i) (hj : Initial kind n j) : i = j := by
  obtain ⟨c, hc⟩ := hi
  obtain ⟨d, hd⟩ := hj
  rw [hc] at hd
  cases hd; rfl

theorem Looks.iff {kind : N → Kind N} {α : Type} {look : Nat → N → Option α} {answer : Kind N → α} (L : Looks kind look answer) (n : N) (r : α) :
    (∃ fuel, look fuel n = some r) ↔ ∃ m, StandsFor kind n m ∧ r = answer (kind m) := by
  constructor
  · rintro ⟨fuel, h⟩
    induction fuel generalizing n with
    | zero => rw [L.zero] at h; cases h
    | succ fuel ih =>
      rcases initial_or kind n with ⟨i, hi⟩ | hn
      · rw [L.follow fuel n i hi] at h
        obtain ⟨m, hm, hr⟩ := ih i h
        exact ⟨m, ⟨.step n i m hi hm.1, hm.2⟩, hr⟩
      · rw [L.final fuel n hn] at h
        exact ⟨n, ⟨.here n, hn⟩, by cases h; rfl⟩
  · rintro ⟨m, ⟨hl, hm⟩, hr⟩
    induction hl with
    | here n => exact ⟨1, by rw [L.final 0 n hm, hr]⟩
    | step n i m hi _ ih =>
      obtain ⟨fuel, hf⟩ := ih hr hm
      exact ⟨fuel + 1, by rw [L.follow fuel n i hi, hf]⟩

theorem Looks.never {kind : N → Kind N} {α : Type} {look : Nat → N → Option α} {answer : Kind N → α} (L : Looks kind look answer) (n : N) :
    (∀ fuel, look fuel n = none) ↔ ¬∃ m, StandsFor kind n m := by
  constructor
  · rintro h ⟨m, hm⟩
    obtain ⟨fuel, hf⟩ := (L.iff n _).2 ⟨m, hm, rfl⟩
    rw [h fuel] at hf; cases hf
  · intro h fuel
    cases hf : look fuel n with
    | none => rfl
    | some r =>
      obtain ⟨m, hm, -⟩ := (L.iff n r).1 ⟨fuel, hf⟩
      exact absurd ⟨m, hm⟩ h

theorem leads_trans {kind : N → Kind N} {a b c : N} (h1 : Leads kind a b) (h2 : Leads kind b c) : Leads kind a c := by
  induction h1 with
  | here n => exact h2
  | step n i m hi _ ih => exact .step n i c hi (ih h2)

/-- What can be reached from the same expression lies on one path. -/
theorem leads_linear {kind : N → Kind N} {n a b : N} (ha : Leads kind n a) (hb : Leads kind n b) : Leads kind a b ∨ Leads kind b a := by
  induction ha with
  | here n => exact .inl hb
  | step n i m hi hl ih =>
    cases hb with
    | here => exact .inr (.step _ i m hi hl)
    | step _ j _ hj hb =>
      rw [initial_unique hj hi] at hb
      exact ih hb

theorem circular_never {kind : N → Kind N} {n : N} (h : Circular kind n) : ¬∃ m, StandsFor kind n m := by
  rintro ⟨e, he, hf⟩
  obtain ⟨m, i, h1, h2, h3⟩ := h
  have key : ∀ a b, Leads kind a b → (∃ k, Leads kind k a ∧ Initial kind a k) → ∃ k, Leads kind k b ∧ Initial kind b k := by
    intro a b hab
    induction hab with
    | here a => exact id
    | step a k b hk _ ih =>
      rintro ⟨k', hk', hi'⟩
      refine ih ?_
      have := initial_unique hk hi'
      subst this
      cases hk' with
      | here => exact ⟨_, .here _, hi'⟩
      | step _ j _ hj hl => exact ⟨j, leads_trans hl (.step a k k hk (.here k)), hj⟩
  rcases leads_linear h1 he with h | h
  · obtain ⟨k, -, hk⟩ := key m e h ⟨i, h3, h2⟩
    exact hf k hk
  · cases h with
    | here => exact hf i h2
    | step _ j _ hj _ => exact hf j hj

/-- Among finitely many expressions only a circle keeps a look-up going. -/
theorem never_circular {kind : N → Kind N} (all : List N) (hall : ∀ n i, Initial kind n i → n ∈ all) (n : N) (h : ¬∃ m, StandsFor kind n m) : Circular kind n := by
  classical
  have key : ∀ (rest : List N) (n : N), (∀ m, Leads kind n m → (∃ i, Initial kind m i) → m ∈ rest) → (¬∃ m, StandsFor kind n m) → Circular kind n := by
    intro rest
    induction hr : rest.length using Nat.strongRecOn generalizing rest with
    | ind len ih =>
      intro n hrest hn
      rcases initial_or kind n with ⟨i, hi⟩ | hno
      · by_cases hb : Leads kind i n
        · exact ⟨n, i, .here n, hi, hb⟩
        · have hmem : n ∈ rest := hrest n (.here n) ⟨i, hi⟩
          have hlt : (rest.filter (· ≠ n)).length < len := by
            rw [← hr]
            refine Nat.lt_of_le_of_ne (List.length_filter_le _ _) fun he => ?_
            have := (List.length_filter_eq_length_iff.1 he) n hmem
            simp at this
          obtain ⟨m, j, h1, h2, h3⟩ := ih _ hlt (rest.filter (· ≠ n)) rfl i (by
            intro m hm hmi
            refine List.mem_filter.2 ⟨hrest m (.step n i m hi hm) hmi, ?_⟩
            refine decide_eq_true fun he => ?_
            subst he
            exact hb hm) (fun ⟨m, hm⟩ => hn ⟨m, .step n i m hi hm.1, hm.2⟩)
          exact ⟨m, j, .step n i m hi h1, h2, h3⟩
      · exact absurd ⟨n, .here n, hno⟩ hn
  exact key all n (fun m _ ⟨i, hi⟩ => hall m i hi) h

/-! ## The three look-ups -/

theorem looks_text (kind : N → Kind N) : Looks kind (lookText kind) (fun | .text t => some t | _ => none) where
  zero _ := rfl
  final fuel n h := by
    rw [lookText]
    cases hk : kind n with
    | identifier c i => cases i with
      | none => rfl
      | some i => exact absurd ⟨c, hk⟩ (h i)
    | _ => rfl
  follow fuel n i h := by
    obtain ⟨c, hc⟩ := h
    rw [lookText]; simp only [hc]

theorem looks_nullish (kind : N → Kind N) : Looks kind (lookNullish kind) (fun | .null => .null | .undefined => .undefined | _ => .unknown) where
  zero _ := rfl
  final fuel n h := by
    rw [lookNullish]
    cases hk : kind n with
    | identifier c i => cases i with
      | none => rfl
      | some i => exact absurd ⟨c, hk⟩ (h i)
    | _ => rfl
  follow fuel n i h := by
    obtain ⟨c, hc⟩ := h
    rw [lookNullish]; simp only [hc]

/-- The answer for an expression that is no variable with an initialiser. -/
def regexAnswer (isDigit : Char → Bool) : Kind N → Option Parsed
  | .regex s => (splitRegexLiteral s).bind fun pf => parseRegExp isDigit pf.1 pf.2
  | .construct name args => (constructed name args).bind fun pf => parseRegExp isDigit pf.1 pf.2
  | _ => none

theorem looks_regex (isDigit : Char → Bool) (kind : N → Kind N) : Looks kind (lookRegex isDigit kind) (regexAnswer isDigit) where
  zero _ := rfl
  final fuel n h := by
    rw [lookRegex]
    cases hk : kind n with
    | identifier c i => cases i with
      | none => rfl
      | some i => exact absurd ⟨c, hk⟩ (h i)
    | _ => rfl
  follow fuel n i h := by
    obtain ⟨c, hc⟩ := h
    rw [lookRegex]; simp only [hc]

/-- C131 (texts).  The text of an operand is found exactly if it is a string, or a variable that stands for one through initialisers. -/
theorem C131_text (kind : N → Kind N) (n : N) (t : List Nat) :
    (∃ fuel, lookText kind fuel n = some (some t)) ↔ ∃ m, StandsFor kind n m ∧ IsText (kind m) t := by
  rw [(looks_text kind).iff]
  refine exists_congr fun m => and_congr_right fun _ => ?_
  unfold IsText
  cases kind m <;> simp [eq_comm]

/-- C131 (null).  The operand counts as null (as undefined) exactly if it is, or a variable that stands for it through initialisers. -/
theorem C131_nullish (kind : N → Kind N) (n : N) :
    ((∃ fuel, lookNullish kind fuel n = some .null) ↔ ∃ m, StandsFor kind n m ∧ kind m = .null) ∧
    ((∃ fuel, lookNullish kind fuel n = some .undefined) ↔ ∃ m, StandsFor kind n m ∧ kind m = .undefined) := by
  constructor <;>
  · rw [(looks_nullish kind).iff]
    refine exists_congr fun m => and_congr_right fun _ => ?_
    cases kind m <;> simp

theorem denotes_iff (isDigit : Char → Bool) (k : Kind N) (hw : ∀ s, k = .regex s → ∃ p f, s = '/' :: p ++ '/' :: f ∧ '/' ∉ f ∧ endingBackslashes p % 2 = 0)
    (q : Parsed) : some q = regexAnswer isDigit k ↔ ∃ p f, Denotes k p f ∧ parseRegExp isDigit p f = some q := by
  constructor
  · intro h
    cases k with
    | regex s =>
      obtain ⟨p, f, rfl, h1, h2⟩ := hw s rfl
      replace h : some q = (splitRegexLiteral ('/' :: p ++ '/' :: f)).bind fun pf => parseRegExp isDigit pf.1 pf.2 := h
      rw [C55_split p f h1 h2] at h
      exact ⟨p, f, .literal p f h1 h2, h.symm⟩
    | construct name args =>
      replace h : some q = (constructed name args).bind fun pf => parseRegExp isDigit pf.1 pf.2 := h
      unfold constructed at h
      by_cases hn : name = some "RegExp".toList
      · subst hn
        rw [if_neg (by simp)] at h
        match args, h with
        | [some p], h => exact ⟨p, [], .constructed p, h.symm⟩
        | some p :: some f :: rest, h => exact ⟨p, f, .flagged p f rest, h.symm⟩
        | [], h => cases h
        | none :: _, h => cases h
        | some _ :: none :: _, h => cases h
      · rw [if_pos hn] at h; cases h
    | text _ => cases h
    | null => cases h
    | undefined => cases h
    | identifier _ _ => cases h
    | other => cases h
  · rintro ⟨p, f, hd, hp⟩
    cases hd with
    | literal _ _ h1 h2 =>
      show some q = (splitRegexLiteral ('/' :: p ++ '/' :: f)).bind fun pf => parseRegExp isDigit pf.1 pf.2
      rw [C55_split p f h1 h2]
      exact hp.symm
    | constructed =>
      show some q = (constructed (some "RegExp".toList) [some p]).bind fun pf => parseRegExp isDigit pf.1 pf.2
      unfold constructed
      rw [if_neg (by simp)]
      exact hp.symm
    | flagged _ _ rest =>
      show some q = (constructed (some "RegExp".toList) (some p :: some f :: rest)).bind fun pf => parseRegExp isDigit pf.1 pf.2
      unfold constructed
      rw [if_neg (by simp)]
      exact hp.symm

/-- C131 (regular expressions).  A regular expression is recognised exactly if the operand is one — a literal, or `new RegExp` of string literals —
or a variable that stands for one through initialisers, and its pattern and flags are acceptable (see C55). -/
theorem C131_regex (isDigit : Char → Bool) (kind : N → Kind N) (hw : WellWritten kind) (n : N) (q : Parsed) :
    (∃ fuel, lookRegex isDigit kind fuel n = some (some q)) ↔ ∃ m p f, StandsFor kind n m ∧ Denotes (kind m) p f ∧ parseRegExp isDigit p f = some q := by
  rw [(looks_regex isDigit kind).iff]
  constructor
  · rintro ⟨m, hm, h⟩
    obtain ⟨p, f, h1, h2⟩ := (denotes_iff isDigit (kind m) (fun s hs => hw m s hs) q).1 h
    exact ⟨m, p, f, hm, h1, h2⟩
  · rintro ⟨m, p, f, hm, h1, h2⟩
    exact ⟨m, hm, (denotes_iff isDigit (kind m) (fun s hs => hw m s hs) q).2 ⟨p, f, h1, h2⟩⟩

/-- C131 (calls of `test`).  A call is reported exactly if it has one argument and calls the member `test` of an expression recognised as a regular
expression.  It is then, for every string, true exactly if the string starts (ends) with the text passed on — unless the pattern has a legacy octal escape. -/
theorem C131_test (isDigit : Char → Bool) (hd : ∀ c : Char, c.isDigit = true → isDigit c = true) (kind : N → Kind N) (hw : WellWritten kind)
    (arguments : Nat) (callee : Callee N) (q : Parsed) :
    ((∃ fuel, testCall isDigit kind fuel arguments callee = some (some q)) ↔
      arguments = 1 ∧ ∃ o m p f, TestOf o callee ∧ StandsFor kind o m ∧ Denotes (kind m) p f ∧ parseRegExp isDigit p f = some q) ∧
    (∀ p f, legacyOctal p = false → parseRegExp isDigit p f = some q → ∃ r, reading p = some r ∧ ∀ s : Str, r.Test s ↔
      if q.isStartsWith then q.text.flatMap utf16 <+: s else q.text.flatMap utf16 <:+ s) := by
  refine ⟨?_, fun p f hl hp => (C55_regex isDigit hd p f q hl hp).2.2⟩
  constructor
  · rintro ⟨fuel, h⟩
    unfold testCall at h
    by_cases ha : arguments = 1
    · rw [if_neg (by simp [ha])] at h
      by_cases hn : callee.name = some "test".toList
      · rw [if_neg (by simp [hn])] at h
        cases callee with
        | property o nm =>
          replace hn : some nm = some "test".toList := hn
          cases hn
          obtain ⟨m, p, f, h1, h2, h3⟩ := (C131_regex isDigit kind hw o q).1 ⟨fuel, h⟩
          exact ⟨ha, o, m, p, f, .property, h1, h2, h3⟩
        | element o t =>
          replace hn : t = some "test".toList := hn
          cases hn
          obtain ⟨m, p, f, h1, h2, h3⟩ := (C131_regex isDigit kind hw o q).1 ⟨fuel, h⟩
          exact ⟨ha, o, m, p, f, .element, h1, h2, h3⟩
        | other => cases hn
      · rw [if_pos hn] at h; cases h
    · rw [if_pos ha] at h; cases h
  · rintro ⟨ha, o, m, p, f, ht, h1, h2, h3⟩
    obtain ⟨fuel, hf⟩ := (C131_regex isDigit kind hw o q).2 ⟨m, p, f, h1, h2, h3⟩
    refine ⟨fuel, ?_⟩
    unfold testCall
    rw [if_neg (by simp [ha])]
    cases ht with
    | property => rw [if_neg (by simp [Callee.name])]; exact hf
    | element => rw [if_neg (by simp [Callee.name])]; exact hf

/-- C131 (hazard, termination).  Among finitely many expressions, a look-up never ends exactly if it comes to a variable whose initialiser leads back to
it, as in `var a = a` or `const a = b, b = a`: the recursion of the Go code has no other end than the overflow of the stack, which ends the whole run. -/
theorem C131_hazard_circular (isDigit : Char → Bool) (kind : N → Kind N) (all : List N) (hall : ∀ n i, Initial kind n i → n ∈ all) (n : N) :
    ((∀ fuel, lookText kind fuel n = none) ↔ Circular kind n) ∧ ((∀ fuel, lookNullish kind fuel n = none) ↔ Circular kind n) ∧
    ((∀ fuel, lookRegex isDigit kind fuel n = none) ↔ Circular kind n) := by
  have key : (¬∃ m, StandsFor kind n m) ↔ Circular kind n := ⟨never_circular all hall n, circular_never⟩
  exact ⟨((looks_text kind).never n).trans key, ((looks_nullish kind).never n).trans key, ((looks_regex isDigit kind).never n).trans key⟩

/-- `var a = a; … s[0] === a` -/
example : Circular (fun _ : Unit => Kind.identifier false (some ())) () := ⟨(), (), .here _, ⟨false, rfl⟩, .here _⟩
example : ∀ fuel, lookText (fun _ : Unit => Kind.identifier false (some ())) fuel () = none :=
  (C131_hazard_circular (fun _ => false) _ [()] (fun _ _ _ => by simp) ()).1.2 ⟨(), (), .here _, ⟨false, rfl⟩, .here _⟩

/-- C131 (hazard, `let`).  Variables are followed whether they are constant or not: after `let r = /^a/`, the call `r.test(s)` is replaced by
`s.startsWith("a")`, whatever was assigned to `r` since. -/
theorem C131_hazard_let : testCall Char.isDigit (fun n : Nat => if n = 0 then .identifier false (some 1) else .regex "/^a/".toList) 2 1 (.property 0 "test".toList) =
    some (some ⟨false, true, ['a']⟩) := by decide

/-- C131 (parentheses).  The argument becomes the object of the call; it is put in parentheses unless it may stand before a dot as it is. -/
theorem C131_parentheses (a : Argument) : needsParen a = false ↔ a = .literal ∨ a = .template ∨ a = .identifier ∨ a = .member ∨ a = .call := by
  cases a <;> simp [needsParen]

/-- `const p = "^a", q = p`, and `const r = new RegExp("a$", "u")` -/
def followed : Nat → Kind Nat
  | 0 => .text [94, 97]
  | 1 => .identifier true (some 0)
  | 2 => .identifier true (some 1)
  | 3 => .construct (some "RegExp".toList) [some "a$".toList, some "u".toList]
  | 4 => .identifier true (some 3)
  | 5 => .regex "/^a/i".toList
  | _ => .other

example : lookText followed 3 2 = some (some [94, 97]) ∧ lookNullish followed 3 2 = some .unknown ∧ lookText followed 2 2 = none := by decide
example : testCall Char.isDigit followed 2 1 (.element 4 (some "test".toList)) = some (some ⟨true, false, ['a']⟩) := by decide
example : testCall Char.isDigit followed 2 1 (.property 5 "test".toList) = some none := by decide
example : WellWritten followed := by
  intro n s h
  unfold followed at h
  split at h
  all_goals first | cases h | skip
  exact ⟨"^a".toList, "i".toList, rfl, by decide, by decide⟩

end Tsgolint.StartsEnds
