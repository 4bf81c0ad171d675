import Verif.Proof.Includes
import Verif.Proof.StableFix
/-! # C56: includes instead of indexOf comparisons and regular expression tests -/
namespace Tsgolint.Includes
open Fixer (Fix Bytes ascii AppliesTo Seg Shuffle)
open StartsEnds (Str Re reading indexOf)
open Tsgolint.StringLiteral (utf16)
open Tsgolint.Template (Reads noHoles units chars)

/-- C56 (which comparisons).  A comparison with an integer literal counts as a positive check exactly if, whatever index (−1 or a
position) is compared, it holds exactly for positions; as a negative one exactly if it holds exactly for −1. -/
theorem C56_table (op : Op) (n : Int) :
    (isPositiveCheck op (some n) = true ↔ op ≠ .other ∧ ∀ i : Int, -1 ≤ i → (op.holds i n ↔ 0 ≤ i)) ∧
    (isNegativeCheck op (some n) = true ↔ op ≠ .other ∧ ∀ i : Int, -1 ≤ i → (op.holds i n ↔ i = -1)) := by
  constructor
  · constructor
    · intro h
      cases op <;> simp [isPositiveCheck] at h <;> subst h <;>
        exact ⟨by simp, fun i hi => by simp only [Op.holds] <;> omega⟩
    · rintro ⟨ho, h⟩
      have h1 := h (-1) (by omega)
      have h2 := h 0 (by omega)
      have h3 := h 1 (by omega)
      have h4 := h n
      have h5 := h (n + 1)
      cases op <;> simp [Op.holds] at h1 h2 h3 h4 h5 ho <;> simp [isPositiveCheck] <;> omega
  · constructor
    · intro h
      cases op <;> simp [isNegativeCheck] at h <;> subst h <;>
        exact ⟨by simp, fun i hi => by simp only [Op.holds] <;> omega⟩
    · rintro ⟨ho, h⟩
      have h1 := h (-1) (by omega)
      have h2 := h 0 (by omega)
      have h3 := h 1 (by omega)
      have h4 := h n
      have h5 := h (n + 1)
      cases op <;> simp [Op.holds] at h1 h2 h3 h4 h5 ho <;> simp [isNegativeCheck] <;> omega

example : isPositiveCheck .gt (some (-1)) = true ∧ isNegativeCheck .lt (some 0) = true ∧ isPositiveCheck .ge (some (-1)) = false := by decide

/-- C56 (reported).  A comparison of a call of `indexOf` with a number is reported exactly if it is one of these checks and the
method called has declarations each of which stands beside an `includes` with literally the same parameters. -/
theorem C56_reported_iff (op : Op) (right : Option Int) (ds : Option (List Declaration)) (negative : Bool) :
    check op right ds = some negative ↔
      ((negative = false ∧ isPositiveCheck op right = true) ∨ (negative = true ∧ isNegativeCheck op right = true)) ∧
      ∃ l, ds = some l ∧ l ≠ [] ∧ ∀ d ∈ l, ∃ is, d.includes = some is ∧ d.params ∈ is := by
  have hex : ¬(isPositiveCheck op right = true ∧ isNegativeCheck op right = true) := by
    cases op <;> simp [isPositiveCheck, isNegativeCheck]
  unfold check
  cases ds with
  | none => cases isPositiveCheck op right <;> cases isNegativeCheck op right <;> simp
  | some l =>
    have hc := compatible_iff l
    cases hp : isPositiveCheck op right <;> cases hn : isNegativeCheck op right <;> simp only [hp, hn, and_self, not_true_eq_false] at hex <;>
      cases negative <;> simp [hc]

example : check .neeq (some (-1)) (some [⟨[['x']], some [[['y']], [['x']]]⟩]) = some false := by decide

/-- C56 (strings).  `s.indexOf(x)` is a position exactly if `s` includes `x`. -/
theorem C56_strings (s x : Str) : 0 ≤ indexOf s x ↔ StringIncludes s x := by
  unfold indexOf StringIncludes
  split
  · next k hk =>
    have hp : x.isPrefixOf (s.drop k) = true := (List.find?_eq_some_iff_append.1 hk).1
    rw [List.isPrefixOf_iff_prefix] at hp
    simp only [Int.natCast_nonneg, true_iff]
    exact hp.isInfix.trans (List.drop_suffix k s).isInfix
  · next hk =>
    simp only [show ¬((0 : Int) ≤ -1) by decide, false_iff]
    rintro ⟨a, b, rfl⟩
    rw [List.find?_eq_none] at hk
    refine hk a.length (by simp; omega) ?_
    rw [List.isPrefixOf_iff_prefix]
    simp

/-- C56 (arrays).  The same for arrays and positions to start from, unless NaN is searched for, or undefined in an array with
holes. -/
theorem C56_arrays (a : Array') (x : Js) (start : Nat) (hn : x ≠ .nan) (hu : x = .undefined → none ∉ a) :
    0 ≤ arrayIndexOf a x start ↔ arrayIncludes a x start = true := by
  unfold arrayIndexOf arrayIncludes
  have he : ∀ k, (decide (start ≤ k) && strictAt a x k)
      = (decide (start ≤ k) && sameAt a x k) := by
    intro k
    congr 1
    unfold strictAt sameAt
    cases h : a[k]? with
    | none => rfl
    | some y =>
      cases y with
      | none =>
        have hm : none ∈ a := List.mem_of_getElem? h
        simp only [Js.sameValueZero, Option.getD_none]
        cases hx : (x == Js.undefined) with
        | false => rfl
        | true => exact absurd hm (hu (beq_iff_eq.1 hx))
      | some y => simp [Js.strictEq, Js.sameValueZero, hn]
  rw [funext he]
  split
  · next k hk =>
    simp only [Int.natCast_nonneg, true_iff, List.any_eq_true]
    exact ⟨k, List.mem_of_find?_eq_some hk, (List.find?_eq_some_iff_append.1 hk).1⟩
  · next hk =>
    simp only [show ¬((0 : Int) ≤ -1) by decide, false_iff, List.any_eq_true, not_exists, not_and]
    rw [List.find?_eq_none] at hk
    exact hk

example : 0 ≤ arrayIndexOf [some (.value 1), none, some (.value 2)] (.value 2) 1 ∧
    arrayIncludes [some (.value 1), none, some (.value 2)] (.value 2) 1 = true := by decide

/-- C56 (hazards).  The exceptions are real: `[NaN].indexOf(NaN)` is −1, `[NaN].includes(NaN)` true; likewise for `[,]` and
undefined. -/
theorem C56_hazard_arrays : (arrayIndexOf [some .nan] .nan 0 = -1 ∧ arrayIncludes [some .nan] .nan 0 = true) ∧
    (arrayIndexOf [none] .undefined 0 = -1 ∧ arrayIncludes [none] .undefined 0 = true) := by decide

/-- C56 (hazard).  The rule replaces `a?.indexOf(b) === -1` by `!a?.includes(b)` as well.  If `a` is undefined the former compares
undefined with −1, which is false, the latter is the negation of undefined, true; likewise `!==` and `a?.includes(b)`.  Here values
that are not numbers are `none`; undefined is neither equal to a number nor truthy. -/
theorem C56_hazard_optional :
    let equals (v : Option Int) (n : Int) : Bool := v == some n
    let truthy (v : Option Bool) : Bool := v == some true
    isNegativeCheck .eqeq (some (-1)) = true ∧ equals none (-1) = false ∧ (!truthy none) = true ∧
    isPositiveCheck .neeq (some (-1)) = true ∧ (!equals none (-1)) = true ∧ truthy none = false := by decide

/-- C56 (patterns).  A harmless pattern the rule accepts, read as a regular expression without flags, matches exactly the strings
that include what the string literal written by the fix denotes. -/
theorem C56_pattern (p : Text) (hs : isSimpleLiteralPattern p = true) (hh : harmless p = true) :
    ∃ r text, reading p = some r ∧ (∀ s : Str, r.Test s ↔ StringIncludes s text) ∧
      Reads noHoles (.str '\'') (chars (escapeString p)) (units text) := by
  obtain ⟨t, h1, h2⟩ := pattern_core p.length p (Char.ofNat 0) (p.length + 1) (Nat.le_refl _) (by omega) hs hh (fun h => absurd h (by decide))
  exact ⟨_, t, h1, fun s => StartsEnds.test_anywhere s t, h2⟩

example : isSimpleLiteralPattern "it's \\/ \\.".toList = true ∧ harmless "it's \\/ \\.".toList = true ∧
    escapeString "it's \\/ \\.".toList = "it\\'s \\/ \\.".toList := by decide +kernel

/-- C56 (literal).  The pattern of a literal is what stands between its first and last slash; literals with flags are left alone. -/
theorem C56_literal (compiles : Text → Bool) (pattern flags p : Text) (hf : '/' ∉ flags) :
    extractRegexLiteralPattern compiles ('/' :: pattern ++ '/' :: flags) = some p ↔
      flags = [] ∧ p = pattern ∧ pattern ≠ [] ∧ compiles pattern = true ∧ isSimpleLiteralPattern pattern = true := by
  have found : ∀ k, lastSlash ('/' :: pattern ++ '/' :: flags) (pattern.length + 1 + k) = some (pattern.length + 1) := by
    intro k
    induction k with
    | zero =>
      rw [Nat.add_zero, lastSlash, if_pos]
      rw [List.cons_append, List.getElem?_cons_succ, List.getElem?_append_right (Nat.le_refl _)]; simp
    | succ k ih =>
      rw [show pattern.length + 1 + (k + 1) = (pattern.length + 1 + k) + 1 by omega, lastSlash, if_neg]
      · exact ih
      · intro h
        rw [List.cons_append, List.getElem?_cons_succ, List.getElem?_append_right (by omega)] at h
        rw [show pattern.length + 1 + k - pattern.length = k + 1 by omega, List.getElem?_cons_succ] at h
        exact hf (List.mem_of_getElem? h)
  have h2 : ('/' :: pattern ++ '/' :: flags).length - 1 = pattern.length + 1 + flags.length := by
    simp only [List.cons_append, List.length_cons, List.length_append]; omega
  unfold extractRegexLiteralPattern
  rw [h2, found]
  have h3 : (List.take (pattern.length + 1) ('/' :: pattern ++ '/' :: flags)).drop 1 = pattern := by
    rw [List.cons_append, List.take_succ_cons, List.take_left]; rfl
  have h4 : ('/' :: pattern ++ '/' :: flags).drop (pattern.length + 1 + 1) = flags := by
    rw [List.cons_append, List.drop_succ_cons, ← List.drop_drop, List.drop_left]; rfl
  simp only [h3, h4]
  split
  · next h =>
    simp only [List.cons_append, List.length_cons, List.length_append, List.head?_cons, ne_eq, not_true_eq_false, or_false] at h
    have : pattern = [] := List.length_eq_zero_iff.1 (by omega)
    simp [this]
  · by_cases hfl : flags = []
    · cases hc : compiles pattern <;> cases hs : isSimpleLiteralPattern pattern <;> simp [hfl]
      by_cases hp : pattern = [] <;> simp [hp]
      exact eq_comm
    · simp [hfl]

example : extractRegexLiteralPattern (fun _ => true) "/a\\/b/".toList = some "a\\/b".toList := by decide +kernel

/-- C56 (hazards).  Patterns that are not harmless are accepted, too: `/\\./` (a backslash and any character) as the string
`\.`, of a backslash and a dot; `/\'/` becomes a string literal ending after the backslash; the constructor call
`new RegExp('a', 'i')` is replaced by a test for `a`. -/
theorem C56_hazard_backslash : isSimpleLiteralPattern ['\\', '\\', '.'] = true ∧ reading ['\\', '\\', '.'] = none := by decide

theorem C56_hazard_apostrophe : isSimpleLiteralPattern ['\\', '\''] = true ∧ escapeString ['\\', '\''] = ['\\', '\\', '\''] := by decide

theorem C56_hazard_flags (compiles : Text → Bool) (pattern flags : Text) :
    resolve compiles (.variableConstructor pattern flags) = resolve compiles (.variableConstructor pattern []) := rfl

/-- C56 (texts).  `obj.indexOf(args) op number` becomes `obj.includes(args)`, with a `!` in front for negative checks. -/
theorem C56_fix_compare (negative : Bool) (pre obj name args tail post : Bytes) (ho : obj ≠ []) (hn : name ≠ []) :
    AppliesTo (pre ++ obj ++ name ++ args ++ tail ++ post)
      (fixCompare negative pre.length (pre ++ obj).length (pre ++ obj ++ name).length (pre ++ obj ++ name ++ args).length
        (pre ++ obj ++ name ++ args ++ tail).length)
      (pre ++ (if negative then ascii "!" else []) ++ obj ++ ascii "includes" ++ args ++ post) := by
  have hlo := List.length_pos_iff.2 ho
  have hln := List.length_pos_iff.2 hn
  cases negative
  · have := Seg.applies_sorted [.keep pre, .keep obj, .sub name (ascii "includes"), .keep args, .sub tail [], .keep post]
    simpa [Seg.old, Seg.new, Seg.edits, fixCompare, List.append_assoc, Nat.add_assoc] using this
  · have := Seg.applies_shuffle [.keep pre, .sub [] (ascii "!"), .keep obj, .sub name (ascii "includes"), .keep args, .sub tail [], .keep post]
      (fixCompare true pre.length (pre ++ obj).length (pre ++ obj ++ name).length (pre ++ obj ++ name ++ args).length
        (pre ++ obj ++ name ++ args ++ tail).length) (by
      have e : Seg.edits 0 [.keep pre, .sub [] (ascii "!"), .keep obj, .sub name (ascii "includes"), .keep args, .sub tail [], .keep post]
        = [⟨ascii "!", pre.length, pre.length⟩, ⟨ascii "includes", (pre ++ obj).length, (pre ++ obj ++ name).length⟩,
           ⟨[], (pre ++ obj ++ name ++ args).length, (pre ++ obj ++ name ++ args ++ tail).length⟩] := by
        simp [Seg.edits, Nat.add_assoc]
      rw [e]
      refine (Shuffle.cons _ (Shuffle.swap _ _ _ (.inl ?_))).trans (Shuffle.swap _ _ _ (.inl ?_)) <;>
        simp only [List.length_append] <;> omega)
    simpa [Seg.old, Seg.new, List.append_assoc] using this

/-- `re.test(arg)` becomes `arg.includes('text')`, or `(arg).includes('text')`. -/
theorem C56_fix_test (needsParens : Bool) (quoted pre head arg close post : Bytes) (ha : arg ≠ []) (hc : close ≠ []) (hh : head ≠ []) :
    AppliesTo (pre ++ head ++ arg ++ close ++ post)
      (fixTest needsParens quoted pre.length (pre ++ head).length (pre ++ head ++ arg).length (pre ++ head ++ arg ++ close).length)
      (pre ++ (if needsParens then ascii "(" ++ arg ++ ascii ")" else arg) ++ ascii ".includes('" ++ quoted ++ ascii "')" ++ post) := by
  have hla := List.length_pos_iff.2 ha
  have hlc := List.length_pos_iff.2 hc
  have hlh := List.length_pos_iff.2 hh
  cases needsParens
  · have := Seg.applies_shuffle [.keep pre, .sub head [], .keep arg, .sub [] (ascii ".includes('" ++ quoted ++ ascii "')"),
        .sub close [], .keep post]
      (fixTest false quoted pre.length (pre ++ head).length (pre ++ head ++ arg).length (pre ++ head ++ arg ++ close).length) (by
      have e : Seg.edits 0 [.keep pre, .sub head [], .keep arg, .sub [] (ascii ".includes('" ++ quoted ++ ascii "')"),
          .sub close [], .keep post]
        = [⟨[], pre.length, (pre ++ head).length⟩,
           ⟨ascii ".includes('" ++ quoted ++ ascii "')", (pre ++ head ++ arg).length, (pre ++ head ++ arg).length⟩,
           ⟨[], (pre ++ head ++ arg).length, (pre ++ head ++ arg ++ close).length⟩] := by
        simp [Seg.edits, Nat.add_assoc]
      rw [e]
      refine Shuffle.cons _ (Shuffle.swap _ _ _ (.inr ?_))
      simp only [List.length_append]; omega)
    simpa [Seg.old, Seg.new, List.append_assoc] using this
  · have := Seg.applies_shuffle [.keep pre, .sub head [], .sub [] (ascii "("), .keep arg, .sub [] (ascii ")"),
        .sub [] (ascii ".includes('" ++ quoted ++ ascii "')"), .sub close [], .keep post]
      (fixTest true quoted pre.length (pre ++ head).length (pre ++ head ++ arg).length (pre ++ head ++ arg ++ close).length) (by
      have e : Seg.edits 0 [.keep pre, .sub head [], .sub [] (ascii "("), .keep arg, .sub [] (ascii ")"),
          .sub [] (ascii ".includes('" ++ quoted ++ ascii "')"), .sub close [], .keep post]
        = [⟨[], pre.length, (pre ++ head).length⟩, ⟨ascii "(", (pre ++ head).length, (pre ++ head).length⟩,
           ⟨ascii ")", (pre ++ head ++ arg).length, (pre ++ head ++ arg).length⟩,
           ⟨ascii ".includes('" ++ quoted ++ ascii "')", (pre ++ head ++ arg).length, (pre ++ head ++ arg).length⟩,
           ⟨[], (pre ++ head ++ arg).length, (pre ++ head ++ arg ++ close).length⟩] := by
        simp [Seg.edits, Nat.add_assoc]
      rw [e]
      refine Shuffle.cons _ ((Shuffle.swap _ _ _ (.inl ?_)).trans (Shuffle.cons _ ((Shuffle.swap _ _ _ (.inr ?_)).trans
        (Shuffle.cons _ (Shuffle.swap _ _ _ (.inr ?_)))))) <;> simp only [List.length_append] <;> omega)
    simpa [Seg.old, Seg.new, List.append_assoc] using this

example : AppliesTo (ascii "if (/a'b/.test(x + y)) {}") (fixTest true (ascii "a\\'b") 4 15 20 21)
    (ascii "if ((x + y).includes('a\\'b')) {}") :=
  C56_fix_test true (ascii "a\\'b") (ascii "if (") (ascii "/a'b/.test(") (ascii "x + y") (ascii ")") (ascii ") {}")
    (by decide) (by decide) (by decide)

example : AppliesTo (ascii "if (a.indexOf(b) === -1) {}") (fixCompare true 4 6 13 16 23) (ascii "if (!a.includes(b)) {}") :=
  C56_fix_compare true (ascii "if (") (ascii "a.") (ascii "indexOf") (ascii "(b)") (ascii " === -1") (ascii ") {}") (by decide) (by decide)

end Tsgolint.Includes
