import Verif.Model.SmallRules
import Verif.Props.TypeGraph
import Verif.Proof.StableFix
/-! # C70: no-meaningless-void-operator, require-array-sort-compare, no-for-in-array, no-unsafe-unary-minus; C71: prefer-reduce-type-parameter

The specification vocabulary (`UnionPart`, `Constituent`) is that of `Spec/TypeGraph`. -/
namespace Tsgolint.SmallRules
open Tsgolint.TypeGraph Tsgolint.Fixer
variable {T : Type} [DecidableEq T]

omit [DecidableEq T] in
theorem all_parts (shape : T → Shape T) (p : T → Bool) (t : T) : (unionParts shape t).all p = true ↔ ∀ q, UnionPart shape t q → p q = true := by
  simp only [List.all_eq_true, mem_unionParts]

/-- C70 (void).  `void e` is reported with a fix exactly if every part of the type of `e` is void or undefined, with a suggestion exactly if `checkNever`
is on, every part is void, undefined or never, and one is not void-like. -/
theorem C70_void (shape : T → Shape T) (voidLike isNever : T → Bool) (checkNever : Bool) (t : T) :
    (reportVoid shape voidLike isNever checkNever t = some .fix ↔ ∀ p, UnionPart shape t p → voidLike p = true) ∧
    (reportVoid shape voidLike isNever checkNever t = some .suggestion ↔
      checkNever = true ∧ (∀ p, UnionPart shape t p → voidLike p = true ∨ isNever p = true) ∧ ∃ p, UnionPart shape t p ∧ voidLike p = false) := by
  have h1 := all_parts shape voidLike t
  have h2 := all_parts shape (fun p => voidLike p || isNever p) t
  simp only [Bool.or_eq_true] at h2
  have h3 : (¬ ∀ p, UnionPart shape t p → voidLike p = true) ↔ ∃ p, UnionPart shape t p ∧ voidLike p = false := by
    rw [Classical.not_forall]
    constructor
    · rintro ⟨p, h⟩
      rw [Classical.not_imp] at h
      exact ⟨p, h.1, by simpa using h.2⟩
    · rintro ⟨p, hp, h⟩
      exact ⟨p, fun h' => by rw [h' hp] at h; cases h⟩
  rw [← h1, ← h2, ← h3, ← h1]
  clear h1 h2 h3
  unfold reportVoid
  simp only
  generalize (unionParts shape t).all voidLike = a
  generalize (unionParts shape t).all (fun p => voidLike p || isNever p) = b
  cases a <;> cases checkNever <;> cases b <;> simp

/-- C70 (void).  The fix removes exactly the word `void`. -/
theorem C70_void_fix (pre post : Bytes) :
    AppliesTo (pre ++ ascii "void" ++ post) (voidFix pre.length (pre ++ ascii "void").length) (pre ++ post) := by
  have := Seg.applies_sorted [.keep pre, .sub (ascii "void") [], .keep post]
  simpa [Seg.old, Seg.new, Seg.edits, voidFix, List.append_assoc, Nat.add_assoc] using this

omit [DecidableEq T] in
/-- C70 (sort).  `a.sort()` or `a.toSorted()` without arguments is reported exactly if every part of the type of `a` is an array or tuple and, if string
arrays are to be ignored, it is not itself an array all of whose element types are strings. -/
theorem C70_sort (E : SortEnv T) (ignore : Bool) (args : Nat) (method : Option String) (t : T) :
    reportSort E ignore args method t = true ↔ args = 0 ∧ (method = some "sort" ∨ method = some "toSorted") ∧
      (∀ p, UnionPart E.shape t p → E.isArray p = true) ∧
      ¬ (ignore = true ∧ E.isArray t = true ∧ ∀ a ∈ E.typeArgs t, E.isString a = true) := by
  rw [← all_parts]
  have h : (E.typeArgs t).all E.isString = true ↔ ∀ a ∈ E.typeArgs t, E.isString a = true := by simp only [List.all_eq_true]
  rw [← h]
  unfold reportSort
  by_cases ha : args = 0
  · subst ha
    cases method with
    | none => simp
    | some m =>
      by_cases hm : m = "sort" ∨ m = "toSorted"
      · have hm' : ¬ (m ≠ "sort" ∧ m ≠ "toSorted") := by rintro ⟨h1, h2⟩; exact hm.elim h1 h2
        simp only [ne_eq, not_true_eq_false, if_false, Option.some.injEq, hm, true_and]
        rw [if_neg hm']
        generalize (E.typeArgs t).all E.isString = a
        generalize (unionParts E.shape t).all E.isArray = b
        generalize E.isArray t = c
        cases ignore <;> cases a <;> cases c <;> simp
      · have hm' : m ≠ "sort" ∧ m ≠ "toSorted" := ⟨fun h => hm (.inl h), fun h => hm (.inr h)⟩
        simp only [ne_eq, not_true_eq_false, if_false, Option.some.injEq, hm, false_and, and_false, iff_false]
        rw [if_pos hm']
        simp
  · simp [ha]

theorem recurser_pure (shape : T → Shape T) (p : T → Bool) (n : Nat) (t : T) (b : Bool)
    (h : typeRecurser shape (fun t (_ : Unit) => some (p t, ())) n t () = some (b, ())) : b = true ↔ ∃ c, Constituent shape t c ∧ p c = true := by
  have := typeRecurser_spec (shape := shape) (predicate := fun t (_ : Unit) => some (p t, ())) (I := fun _ => True) (Qt := fun c => p c = true)
    (Qf := fun c => p c = false) n t () b () (by
      intro c s b s' _ _ hc
      simp only [Option.some.injEq, Prod.mk.injEq, and_true] at hc
      subst hc
      exact ⟨id, fun h => ⟨h, trivial⟩⟩) trivial h
  constructor
  · exact this.1
  · rintro ⟨c, hc, hp⟩
    cases b with
    | true => rfl
    | false =>
      have := (this.2 rfl).1 c hc
      rw [hp] at this; cases this

/-- C70 (for-in).  `for (… in e)` is reported exactly if some constituent of the type of `e` has a number index and a `length` that is a number. -/
theorem C70_for_in (shape : T → Shape T) (numberIndexed length : T → Bool) (n : Nat) (t : T) (b : Bool)
    (h : reportForIn shape numberIndexed length n t = some b) :
    b = true ↔ ∃ c, Constituent shape t c ∧ numberIndexed c = true ∧ length c = true := by
  simp only [reportForIn, Option.map_eq_some_iff] at h
  obtain ⟨⟨b', u⟩, h, rfl⟩ := h
  rw [recurser_pure shape _ n t b' h]
  simp [arrayLike]

omit [DecidableEq T] in
/-- C70 (minus).  `-e` is reported exactly if some part of the type of `e` is not any, never, a bigint or a number; the first such part is named. -/
theorem C70_minus (shape : T → Shape T) (fine : T → Bool) (t : T) :
    reportMinus shape fine false t = none ∧
    (reportMinus shape fine true t = none ↔ ∀ p, UnionPart shape t p → fine p = true) ∧
    ∀ p, reportMinus shape fine true t = some p → UnionPart shape t p ∧ fine p = false ∧
      ∃ before after, unionParts shape t = before ++ p :: after ∧ ∀ q ∈ before, fine q = true := by
  refine ⟨rfl, ?_, ?_⟩
  · simp only [reportMinus, Bool.not_true, Bool.false_eq_true, if_false, List.find?_eq_none, mem_unionParts]
    simp
  · intro p h
    simp only [reportMinus, Bool.not_true, Bool.false_eq_true, if_false] at h
    have h1 := List.find?_some h
    have h2 := List.mem_of_find?_eq_some h
    obtain ⟨before, after, h3, h4⟩ := (List.find?_eq_some_iff_append.1 h).2
    refine ⟨(mem_unionParts ..).1 h2, by simpa using h1, before, after, h3, ?_⟩
    intro q hq
    simpa using h4 q hq

/-! ## prefer-reduce-type-parameter -/

/-- C71.  A call is reported exactly if it is `a.reduce(f, e as T)` or `a.reduce(f, <T>e)`, every constituent of the type of `a` is an array or tuple, and
`e` is assignable to `T`: without the assertion there is no type error. -/
theorem C71_reduce (shape : T → Shape T) (isArray : T → Bool) (assignable : T → T → Bool) (n : Nat) (args : List (Second T)) (method : Option String)
    (object : T) (b : Bool) (h : reportReduce shape isArray assignable n args method object = some b) :
    b = true ↔ method = some "reduce" ∧ (∀ c, Constituent shape object c → isArray c = true) ∧
      ∃ i a rest, (args = .as_ i a :: rest ∨ args = .angle i a :: rest) ∧ assignable i a = true := by
  have go : ∀ i a, reportReduce.go shape isArray assignable n method object i a = some b →
      (b = true ↔ method = some "reduce" ∧ (∀ c, Constituent shape object c → isArray c = true) ∧ assignable i a = true) := by
    clear h
    intro i a h
    unfold reportReduce.go at h
    by_cases hm : method = some "reduce"
    · cases ha : assignable i a with
      | false => simp [hm, ha] at h; subst h; simp
      | true =>
        simp only [hm, ne_eq, not_true_eq_false, if_false, ha, Bool.not_true, Bool.false_eq_true, Option.map_eq_some_iff] at h
        obtain ⟨⟨b', u⟩, h, rfl⟩ := h
        have := recurser_pure shape _ n object b' h
        simp only [hm, true_and, and_true]
        cases b' with
        | true =>
          obtain ⟨c, hc, hn⟩ := this.1 rfl
          simp only [Bool.not_true, Bool.false_eq_true, false_iff]
          intro h
          rw [h c hc] at hn; cases hn
        | false =>
          simp only [Bool.not_false, true_iff]
          intro c hc
          cases hi : isArray c with
          | true => rfl
          | false => exact absurd (this.2 ⟨c, hc, by simp [hi]⟩) (by simp)
    · simp [hm] at h; subst h; simp [hm]
  unfold reportReduce at h
  split at h
  · simp at h; subst h; simp
  · simp at h; subst h; simp
  · next i a rest =>
    rw [go i a h]
    constructor
    · rintro ⟨h1, h2, h3⟩; exact ⟨h1, h2, i, a, rest, .inl rfl, h3⟩
    · rintro ⟨h1, h2, i', a', rest', h3 | h3, h4⟩
      · cases h3; exact ⟨h1, h2, h4⟩
      · cases h3
  · next i a rest =>
    rw [go i a h]
    constructor
    · rintro ⟨h1, h2, h3⟩; exact ⟨h1, h2, i, a, rest, .inr rfl, h3⟩
    · rintro ⟨h1, h2, i', a', rest', h3 | h3, h4⟩
      · cases h3
      · cases h3; exact ⟨h1, h2, h4⟩

/-- C71.  `a.reduce(f, e as T)` becomes `a.reduce<T>(f, e)`; with type arguments the assertion is only removed. -/
theorem C71_fix_as (callee args operand typeText post : Bytes) (has : Bool) (ha : args ≠ []) :
    AppliesTo (callee ++ args ++ operand ++ ascii " as" ++ typeText ++ post)
      (reduceFix true has callee.length (callee ++ args).length (callee ++ args).length (callee ++ args ++ operand).length
        (callee ++ args ++ operand ++ ascii " as" ++ typeText).length typeText)
      (callee ++ (if has then [] else ascii "<" ++ typeText ++ ascii ">") ++ args ++ operand ++ post) := by
  have hla := List.length_pos_iff.2 ha
  cases has with
  | true =>
    have := Seg.applies_sorted [.keep callee, .keep args, .keep operand, .sub (ascii " as" ++ typeText) [], .keep post]
    simpa [Seg.old, Seg.new, Seg.edits, reduceFix, List.append_assoc, Nat.add_assoc] using this
  | false =>
    have := Seg.applies_shuffle [.keep callee, .sub [] (ascii "<" ++ typeText ++ ascii ">"), .keep args, .keep operand, .sub (ascii " as" ++ typeText) [], .keep post]
      (reduceFix true false callee.length (callee ++ args).length (callee ++ args).length (callee ++ args ++ operand).length
        (callee ++ args ++ operand ++ ascii " as" ++ typeText).length typeText) (by
      have e : Seg.edits 0 [.keep callee, .sub [] (ascii "<" ++ typeText ++ ascii ">"), .keep args, .keep operand, .sub (ascii " as" ++ typeText) [], .keep post] =
          [⟨ascii "<" ++ typeText ++ ascii ">", callee.length, callee.length⟩,
           ⟨[], (callee ++ args ++ operand).length, (callee ++ args ++ operand ++ ascii " as" ++ typeText).length⟩] := by
        simp [Seg.edits, Nat.add_assoc]
      rw [e]
      refine Shuffle.swap _ _ _ (.inl ?_)
      simp only [List.length_append]; omega)
    simpa [Seg.old, Seg.new, List.append_assoc] using this

/-- C71.  `a.reduce(f, <T>e)` becomes `a.reduce<T>(f, e)`. -/
theorem C71_fix_angle (callee args typeText operand post : Bytes) (has : Bool) (ha : args ≠ []) :
    AppliesTo (callee ++ args ++ ascii "<" ++ typeText ++ ascii ">" ++ operand ++ post)
      (reduceFix false has callee.length (callee ++ args).length (callee ++ args ++ ascii "<" ++ typeText ++ ascii ">").length
        (callee ++ args ++ ascii "<" ++ typeText ++ ascii ">" ++ operand).length 0 typeText)
      (callee ++ (if has then [] else ascii "<" ++ typeText ++ ascii ">") ++ args ++ operand ++ post) := by
  have hla := List.length_pos_iff.2 ha
  cases has with
  | true =>
    have := Seg.applies_sorted [.keep callee, .keep args, .sub (ascii "<" ++ typeText ++ ascii ">") [], .keep operand, .keep post]
    simpa [Seg.old, Seg.new, Seg.edits, reduceFix, List.append_assoc, Nat.add_assoc] using this
  | false =>
    have := Seg.applies_shuffle [.keep callee, .sub [] (ascii "<" ++ typeText ++ ascii ">"), .keep args, .sub (ascii "<" ++ typeText ++ ascii ">") [], .keep operand, .keep post]
      (reduceFix false false callee.length (callee ++ args).length (callee ++ args ++ ascii "<" ++ typeText ++ ascii ">").length
        (callee ++ args ++ ascii "<" ++ typeText ++ ascii ">" ++ operand).length 0 typeText) (by
      have e : Seg.edits 0 [.keep callee, .sub [] (ascii "<" ++ typeText ++ ascii ">"), .keep args, .sub (ascii "<" ++ typeText ++ ascii ">") [], .keep operand, .keep post] =
          [⟨ascii "<" ++ typeText ++ ascii ">", callee.length, callee.length⟩,
           ⟨[], (callee ++ args).length, (callee ++ args ++ ascii "<" ++ typeText ++ ascii ">").length⟩] := by
        simp [Seg.edits, Nat.add_assoc]
      rw [e]
      refine Shuffle.swap _ _ _ (.inl ?_)
      simp only [List.length_append]; omega)
    simpa [Seg.old, Seg.new, List.append_assoc] using this

/-! ## Cases: 0 = number, 1 = void, 2 = never, 3 = 1 | 2, 4 = string[], 5 = 4 | 4, 6 = string -/

def shape : Nat → Shape Nat
  | 3 => .union [1, 2]
  | 5 => .union [4, 4]
  | _ => .other

def env : SortEnv Nat := ⟨shape, (· == 4), fun t => if t = 4 then [6] else [], (· == 6)⟩

example : (List.range 4).map (reportVoid shape (· == 1) (· == 2) true) = [none, some .fix, some .suggestion, some .suggestion] := by decide
example : reportVoid shape (· == 1) (· == 2) false 3 = none := by decide
example : reportSort env false 0 (some "sort") 4 = true := by decide
example : reportSort env true 0 (some "toSorted") 4 = false := by decide
example : reportForIn shape (· == 4) (· == 4) 3 5 = some true := by decide
example : reportMinus shape (· == 0) true 3 = some 1 := by decide
example : reportReduce shape (· == 4) (· ≤ ·) 3 [.as_ 1 2] (some "reduce") 5 = some true := by decide
example : reportReduce shape (· == 4) (· ≤ ·) 3 [.as_ 2 1] (some "reduce") 5 = some false := by decide

/-- C70 (finding).  A union of string arrays is reported although string arrays are to be ignored. -/
theorem C70_hazard_union : reportSort env true 0 (some "sort") 5 = true ∧ ∀ p, UnionPart shape 5 p → p = 4 ∧ ∀ a ∈ env.typeArgs 4, env.isString a = true := by
  refine ⟨by decide, ?_⟩
  intro p hp
  have := (mem_unionParts ..).2 hp
  simp [unionParts, shape] at this
  subst this
  exact ⟨rfl, by simp [env]⟩

/-- C71 (finding).  The type is not looked at: `e as const` becomes `a.reduce< const>(f, e)`, which is not a program. -/
theorem C71_hazard_const :
    AppliesTo (ascii "a.reduce(f, e as const)") (reduceFix true false 8 12 12 13 22 (ascii " const")) (ascii "a.reduce< const>(f, e)") := by
  exact C71_fix_as (ascii "a.reduce") (ascii "(f, ") (ascii "e") (ascii " const") (ascii ")") false (by decide)

end Tsgolint.SmallRules
