import Verif.Proof.StartsEnds
import Verif.Proof.StableFix
import Verif.Proof.StartsEndsRegex
import Verif.Proof.StartsEndsText
/-! # C55: replacing string tests by startsWith and endsWith -/
namespace Tsgolint.StartsEnds
open Fixer (Fix Bytes ascii AppliesTo Seg)
open Tsgolint.StringLiteral (utf16)
open Tsgolint.Template (Reads noHoles units chars)

theorem compare_of_iff (op : Op) {a b : Value} {p : Prop} [Decidable p] (h : a = b ↔ p) :
    compare op a b = (decide p != op.negative) := by
  unfold compare
  congr 1
  rw [Bool.eq_iff_iff]; simp [h]

/-- C55 (comparisons).  Whenever the rule offers to replace a comparison of `obj[i]`, `obj.charAt(i)`, `obj.indexOf(x)`,
`obj.lastIndexOf(x)`, `obj.slice(..)` or `obj.substring(..)` by `obj.startsWith(arg)` or `obj.endsWith(arg)` (negated for `!=` and
`!==`), both have the same value for all strings — if variables keep their initial value and equal tokens mean equal values —
outside three situations: `lastIndexOf` with a searched text exactly one longer than the string, `slice(-x.length)` with an empty
`x`, and a second argument that is not the length of the string. -/
theorem C55_comparison (same : Expr → Expr → Bool) (ev : Expr → Value) (hc : Coherent same ev) (allow : Bool)
    (isString : Expr → Bool) (op : Op) (left : Left) (right arg : Expr) (starts : Bool) (o x : Str)
    (hcheck : check same allow isString op left right = some ⟨starts, some arg⟩)
    (hobj : ev (leftObject left) = .str o) (harg : ev arg = .str x)
    (hlast : ∀ ob a, left = .lastIndexOf ob a → o.length + 1 ≠ x.length)
    (hempty : ∀ ob e rest, left = .slice ob (.neg e :: rest) → x ≠ [])
    (hend : ∀ ob a b, left = .slice ob [a, b] ∨ left = .substring ob [a, b] → starts = false → isLengthExpression same b ob = true) :
    compare op (evalLeft ev left) (ev right) = (decide (if starts then x <+: o else x <:+ o) != op.negative) := by
  have index : ∀ (obj i : Expr), ev obj = .str o → reportIndex same allow obj i right = some ⟨starts, some arg⟩ →
      ∃ u, x = [u] ∧ ev right = .str [u] ∧ (starts = true ∧ ev i = .num 0 ∨ starts = false ∧ ev i = .num ((o.length : Int) - 1)) := by
    intro obj i ho h
    unfold reportIndex at h
    simp only at h
    split at h
    · cases h
    · split at h
      · cases h
      · split at h
        · cases h
        · next hz =>
          simp only [Option.some.injEq, Report.mk.injEq] at h
          obtain ⟨hs, hr⟩ := h
          split at hr
          · next hch =>
            cases hr
            unfold isCharacter at hch
            split at hch
            · next t ht =>
              have h1 := staticString_ev hc ht
              rw [harg] at h1
              cases h1
              simp only [beq_iff_eq] at hch
              obtain ⟨u, rfl⟩ := List.length_eq_one_iff.1 hch
              refine ⟨u, rfl, harg, ?_⟩
              cases he : isLastIndexExpression same i obj with
              | true =>
                right
                simp only [he, Bool.not_true, Bool.false_and] at hs
                refine ⟨hs.symm, ?_⟩
                unfold isLastIndexExpression at he
                split at he
                · next l r =>
                  simp only [Bool.and_eq_true, beq_iff_eq] at he
                  exact hc.sub _ _ _ _ (isLength_ev hc he.1 ho) (staticNumber_ev hc he.2)
                · cases he
              | false =>
                left
                have h0 : staticNumber i = some 0 := by
                  cases h0 : (staticNumber i == some 0) with
                  | true => exact beq_iff_eq.1 h0
                  | false => simp [he, h0] at hz
                refine ⟨?_, staticNumber_ev hc h0⟩
                rw [← hs, he, h0]; rfl
            · cases hch
          · cases hr
  have cut : ∀ (isSlice : Bool) (obj : Expr) (args : List Expr), ev obj = .str o →
      reportSlice same isSlice op obj args right = some ⟨starts, some arg⟩ →
      (starts = false → ∀ a b, args = [a, b] → isLengthExpression same b obj = true) →
      arg = right ∧ ((starts = true ∧ ∃ a b, args = [a, b] ∧ ev a = .num 0 ∧ ev b = .num x.length) ∨
        (starts = false ∧ ∃ a rest, args = a :: rest ∧ (rest = [] ∨ ∃ b, rest = [b] ∧ ev b = .num o.length) ∧
          (ev a = .num ((o.length : Int) - x.length) ∨ isSlice = true ∧ (∃ e, a = .neg e) ∧ ev a = .num (-(x.length : Int))))) := by
    intro isSlice obj args ho h hl
    unfold reportSlice at h
    split at h
    · cases h
    · next st hv =>
      simp only [Option.some.injEq, Report.mk.injEq] at h
      obtain ⟨rfl, hr⟩ := h
      split at hr
      · next hvalid =>
        cases hr
        refine ⟨rfl, ?_⟩
        have ends : ∀ a : Expr, validStart same isSlice obj right a = true →
            (ev a = .num ((o.length : Int) - x.length) ∨ isSlice = true ∧ (∃ e, a = .neg e) ∧ ev a = .num (-(x.length : Int))) := by
          intro a ha
          unfold validStart at ha
          split at ha
          · simp only [Bool.and_eq_true] at ha
            exact .inl (hc.sub _ _ _ _ (isLength_ev hc ha.1 ho) (isLength_ev hc ha.2 harg))
          · next e =>
            simp only [Bool.and_eq_true] at ha
            exact .inr ⟨ha.1, ⟨e, rfl⟩, hc.neg _ _ (isLength_ev hc ha.2 harg)⟩
          · cases ha
        unfold sliceVerdict at hv
        unfold sliceFixable at hvalid
        split at hvalid
        · cases hvalid
        · split at hv
          · next a =>
            split at hv
            · cases hv
              right
              exact ⟨rfl, a, [], rfl, .inl rfl, ends a hvalid⟩
            · cases hv
          · next a b =>
            split at hv
            · next h1 =>
              cases hv
              left
              simp only [Bool.and_eq_true, beq_iff_eq] at h1
              exact ⟨rfl, a, b, rfl, staticNumber_ev hc h1.1, isLength_ev hc h1.2 harg⟩
            · split at hv
              · cases hv
                right
                exact ⟨rfl, a, [b], rfl, .inr ⟨b, rfl, isLength_ev hc (hl rfl a b rfl) ho⟩, ends a hvalid⟩
              · cases hv
          · cases hv
      · cases hr
  cases left with
  | index obj i =>
    simp only [check] at hcheck
    split at hcheck
    · obtain ⟨u, rfl, hr, h⟩ := index obj i hobj hcheck
      simp only [leftObject] at hobj
      rw [hr]
      refine compare_of_iff op ?_
      rcases h with ⟨rfl, hi⟩ | ⟨rfl, hi⟩
      · simp only [evalLeft, hobj, hi, if_true]; exact element_start o u
      · simp only [evalLeft, hobj, hi]; exact element_end o u
    · cases hcheck
  | charAt obj args =>
    match args with
    | [i] =>
      simp only [check] at hcheck
      split at hcheck
      · obtain ⟨u, rfl, hr, h⟩ := index obj i hobj hcheck
        simp only [leftObject] at hobj
        rw [hr]
        refine compare_of_iff op ?_
        rcases h with ⟨rfl, hi⟩ | ⟨rfl, hi⟩
        · simp only [evalLeft, hobj, hi, if_true, Value.str.injEq]; exact charAt_start o u
        · simp only [evalLeft, hobj, hi, Value.str.injEq]; exact charAt_end o u
      · cases hcheck
    | [] => simp [check] at hcheck
    | _ :: _ :: _ => simp [check] at hcheck
  | indexOf obj args =>
    match args with
    | [y] =>
      simp only [check] at hcheck
      split at hcheck
      · next h =>
        simp only [Bool.and_eq_true, beq_iff_eq] at h
        simp only [Option.some.injEq, Report.mk.injEq] at hcheck
        obtain ⟨rfl, rfl⟩ := hcheck
        simp only [leftObject] at hobj
        rw [staticNumber_ev hc h.1]
        refine compare_of_iff op ?_
        simp only [evalLeft, hobj, harg, Value.num.injEq, if_true]
        exact indexOf_zero o x
      · cases hcheck
    | [] => simp [check] at hcheck
    | _ :: _ :: _ => simp [check] at hcheck
  | lastIndexOf obj args =>
    match args with
    | [y] =>
      simp only [check] at hcheck
      split at hcheck
      · next l r =>
        split at hcheck
        · next h =>
          simp only [Bool.and_eq_true] at h
          simp only [Option.some.injEq, Report.mk.injEq] at hcheck
          obtain ⟨rfl, rfl⟩ := hcheck
          simp only [leftObject] at hobj
          rw [hc.sub _ _ _ _ (isLength_ev hc h.1.2 hobj) (isLength_ev hc h.2 harg)]
          refine compare_of_iff op ?_
          simp only [evalLeft, hobj, harg, Value.num.injEq]
          exact lastIndexOf_end o x (hlast _ _ rfl)
        · cases hcheck
      · cases hcheck
    | [] => simp [check] at hcheck
    | _ :: _ :: _ => simp [check] at hcheck
  | slice obj args =>
    simp only [check] at hcheck
    split at hcheck
    · obtain ⟨rfl, h⟩ := cut true obj args hobj hcheck (fun hs a b e => hend obj a b (.inl (by rw [e])) hs)
      simp only [leftObject] at hobj
      rw [harg]
      refine compare_of_iff op ?_
      rcases h with ⟨rfl, a, b, rfl, ha, hb⟩ | ⟨rfl, a, rest, rfl, hrest, ha⟩
      · simp only [evalLeft, hobj, ha, hb, Value.str.injEq, if_true]; exact slice_start o x
      · have hne : (∃ e, a = .neg e) → x ≠ [] := by
          rintro ⟨e, rfl⟩; exact hempty obj e rest rfl
        rcases hrest with rfl | ⟨b, rfl, hb⟩
        · rcases ha with ha | ⟨-, he, ha⟩
          · simp only [evalLeft, hobj, ha, Value.str.injEq]; exact slice_sub o x none (.inl rfl)
          · simp only [evalLeft, hobj, ha, Value.str.injEq]; exact slice_neg o x none (.inl rfl) (hne he)
        · rcases ha with ha | ⟨-, he, ha⟩
          · simp only [evalLeft, hobj, ha, hb, Value.str.injEq]; exact slice_sub o x _ (.inr rfl)
          · simp only [evalLeft, hobj, ha, hb, Value.str.injEq]; exact slice_neg o x _ (.inr rfl) (hne he)
    · cases hcheck
  | substring obj args =>
    simp only [check] at hcheck
    split at hcheck
    · obtain ⟨rfl, h⟩ := cut false obj args hobj hcheck (fun hs a b e => hend obj a b (.inr (by rw [e])) hs)
      simp only [leftObject] at hobj
      rw [harg]
      refine compare_of_iff op ?_
      rcases h with ⟨rfl, a, b, rfl, ha, hb⟩ | ⟨rfl, a, rest, rfl, hrest, ha⟩
      · simp only [evalLeft, hobj, ha, hb, Value.str.injEq, if_true]; exact substring_start o x
      · rcases ha with ha | ⟨h, -⟩
        · rcases hrest with rfl | ⟨b, rfl, hb⟩
          · simp only [evalLeft, hobj, ha, Value.str.injEq]; exact substring_sub o x none (.inl rfl)
          · simp only [evalLeft, hobj, ha, hb, Value.str.injEq]; exact substring_sub o x _ (.inr rfl)
        · cases h
    · cases hcheck

/-- Evaluation with given values for unknown expressions: the hypotheses on `ev` can be met. -/
def evalIn (env : Nat → Value) : Expr → Value
  | .number n => .num n
  | .neg e => match evalIn env e with
    | .num n => .num (-n)
    | _ => .undefined
  | .sub a b => match evalIn env a, evalIn env b with
    | .num m, .num n => .num (m - n)
    | _, _ => .undefined
  | .str t => .str t
  | .length e => match evalIn env e with
    | .str s => .num s.length
    | _ => .undefined
  | .var _ i => evalIn env i
  | .other id => env id

theorem evalIn_coherent (env : Nat → Value) : Coherent (fun a b => decide (a = b)) (evalIn env) where
  number _ := rfl
  str _ := rfl
  neg e n h := by simp [evalIn, h]
  sub a b m n h1 h2 := by simp [evalIn, h1, h2]
  length e s h := by simp [evalIn, h]
  var _ _ := rfl
  same a b h := by rw [of_decide_eq_true h]

/-- The expressions `s`, `x` of the examples. -/
def envOf (s x : Str) : Nat → Value
  | 0 => .str s
  | 1 => .str x
  | _ => .undefined

/-- `s.slice(0, x.length) !== x`, `s.lastIndexOf(x) === s.length - x.length`, `s.substring(s.length - 3) === "abc"`,
`s[s.length - 1] == "a"`, `s.charAt(0) === "a"`, `s.indexOf(x) === 0`: the hypotheses of `C55_comparison` are met. -/
example : check (fun a b => decide (a = b)) false (fun _ => true) ⟨true, false⟩ (.slice (.other 0) [.number 0, .length (.other 1)]) (.other 1)
    = some ⟨true, some (.other 1)⟩ := by decide
example : check (fun a b => decide (a = b)) false (fun _ => true) ⟨false, false⟩ (.lastIndexOf (.other 0) [.other 1])
    (.sub (.length (.other 0)) (.length (.other 1))) = some ⟨false, some (.other 1)⟩ := by decide
example : check (fun a b => decide (a = b)) false (fun _ => true) ⟨false, false⟩
    (.substring (.other 0) [.sub (.length (.other 0)) (.number 3)]) (.str [97, 98, 99]) = some ⟨false, some (.str [97, 98, 99])⟩ := by decide
example : check (fun a b => decide (a = b)) false (fun _ => true) ⟨false, true⟩
    (.index (.other 0) (.sub (.length (.other 0)) (.number 1))) (.str [97]) = some ⟨false, some (.str [97])⟩ := by decide
example : check (fun a b => decide (a = b)) false (fun _ => true) ⟨false, false⟩ (.charAt (.other 0) [.number 0]) (.var 7 (.str [97]))
    = some ⟨true, some (.var 7 (.str [97]))⟩ := by decide
example : check (fun a b => decide (a = b)) true (fun _ => true) ⟨false, false⟩ (.indexOf (.other 0) [.other 1]) (.number 0)
    = some ⟨true, some (.other 1)⟩ := by decide

/-- The theorem at work: `s.slice(-3) !== "abc"` is `!s.endsWith("abc")` for every string. -/
example (s : Str) : compare ⟨true, false⟩ (.str (slice s (-3) none)) (.str [97, 98, 99]) = !decide ([97, 98, 99] <:+ s) := by
  have := C55_comparison _ _ (evalIn_coherent (envOf s [])) false (fun _ => true) ⟨true, false⟩ (.slice (.other 0) [.neg (.number 3)])
    (.str [97, 98, 99]) (.str [97, 98, 99]) false s [97, 98, 99] (by decide) rfl rfl (by intro _ _ h; cases h)
    (by intros; simp) (by intro _ _ _ h; rcases h with h | h <;> cases h)
  simpa [evalLeft, evalIn, envOf] using this

/-- `e` is written as the length of `of`: `of.length`, or the length of a string constant as a number. -/
def WritesLength (same : Expr → Expr → Bool) (e of : Expr) : Prop :=
  (∃ o, e = .length o ∧ same o of = true) ∨ (∃ t, staticNumber e = some (t.length : Int) ∧ staticString of = some t)

theorem isLengthExpression_iff (same : Expr → Expr → Bool) (e of : Expr) : isLengthExpression same e of = true ↔ WritesLength same e of := by
  unfold isLengthExpression WritesLength
  rw [Bool.or_eq_true]
  apply or_congr
  · cases e <;> simp
  · cases h1 : staticNumber e <;> cases h2 : staticString of <;> simp

/-- Where a text as long as `of` at the end of `obj` begins: `-len`, or `obj.length - len`. -/
def AheadOfEnd (same : Expr → Expr → Bool) (obj of start : Expr) : Prop :=
  (∃ e, start = .neg e ∧ WritesLength same e of) ∨ (∃ l r, start = .sub l r ∧ WritesLength same l obj ∧ WritesLength same r of)

theorem isLengthAheadOfEnd_iff (same : Expr → Expr → Bool) (obj of start : Expr) :
    isLengthAheadOfEnd same start of obj = true ↔ AheadOfEnd same obj of start := by
  unfold isLengthAheadOfEnd AheadOfEnd
  cases start with
  | sub l r =>
    simp only [Bool.and_eq_true, isLengthExpression_iff]
    exact ⟨fun h => .inr ⟨l, r, rfl, h⟩, by rintro (⟨e, h, -⟩ | ⟨l', r', h, h'⟩) <;> cases h; exact h'⟩
  | _ => simp [isLengthExpression_iff]

/-- C55 (which slices).  A comparison of `obj.slice(…)` or `obj.substring(…)` is reported exactly if the arguments cut off a text as long as the other side at the
start (`(0, len)`) or at the end (`(-len)`, `(obj.length - len)`, with the length of `obj` or zero as second argument). -/
theorem C55_slices (same : Expr → Expr → Bool) (allow : Bool) (isString : Expr → Bool) (op : Op) (obj : Expr) (args : List Expr) (right : Expr) (left : Left)
    (hl : left = .slice obj args ∨ left = .substring obj args) :
    (∃ fix, check same allow isString op left right = some ⟨true, fix⟩) ↔
      isString obj = true ∧ ∃ a b, args = [a, b] ∧ staticNumber a = some 0 ∧ WritesLength same b right := by
  have : (∃ fix, check same allow isString op left right = some ⟨true, fix⟩) ↔ isString obj = true ∧ sliceVerdict same obj args right = some true := by
    rcases hl with rfl | rfl <;> simp only [check, reportSlice] <;> cases isString obj <;> simp <;>
      cases sliceVerdict same obj args right <;> simp
  rw [this]
  refine and_congr Iff.rfl ?_
  unfold sliceVerdict
  simp only [← isLengthExpression_iff]
  split
  · split <;> simp
  · next a b =>
    by_cases h : staticNumber a = some 0 ∧ isLengthExpression same b right = true
    · simp only [h, BEq.rfl, Bool.and_self, if_true, true_iff]; exact ⟨a, b, rfl, h.1, h.2⟩
    · have h' : (staticNumber a == some 0 && isLengthExpression same b right) = false := by
        rw [Bool.eq_false_iff]; simpa using h
      simp only [h', Bool.false_eq_true, if_false]
      constructor
      · intro h; split at h <;> simp at h
      · rintro ⟨a', b', h1, h2⟩; cases h1; exact absurd h2 h
  · next h1 h2 => simp; intro a b h; exact absurd h (h2 a b)

/-- C55 (which slices, at the end); `(-0, 0)` compared with the empty string counts as a start. -/
theorem C55_end_slices (same : Expr → Expr → Bool) (allow : Bool) (isString : Expr → Bool) (op : Op) (obj : Expr) (args : List Expr) (right : Expr) (left : Left)
    (hl : left = .slice obj args ∨ left = .substring obj args) :
    (∃ fix, check same allow isString op left right = some ⟨false, fix⟩) ↔
      isString obj = true ∧ ∃ a, AheadOfEnd same obj right a ∧
        (args = [a] ∨ ∃ b, args = [a, b] ∧ (WritesLength same b obj ∨ staticNumber b = some 0) ∧
          ¬(staticNumber a = some 0 ∧ WritesLength same b right)) := by
  have : (∃ fix, check same allow isString op left right = some ⟨false, fix⟩) ↔ isString obj = true ∧ sliceVerdict same obj args right = some false := by
    rcases hl with rfl | rfl <;> simp only [check, reportSlice] <;> cases isString obj <;> simp <;>
      cases sliceVerdict same obj args right <;> simp
  rw [this]
  refine and_congr Iff.rfl ?_
  unfold sliceVerdict
  simp only [← isLengthExpression_iff, ← isLengthAheadOfEnd_iff]
  split
  · next a => split <;> simp_all
  · next a b =>
    have e : ∀ P : Expr → Expr → Prop, (∃ x, isLengthAheadOfEnd same x right obj = true ∧ ([a, b] = [x] ∨ ∃ y, [a, b] = [x, y] ∧ P x y)) ↔
        isLengthAheadOfEnd same a right obj = true ∧ P a b := by
      intro P
      constructor
      · rintro ⟨x, h, h' | ⟨y, h', hp⟩⟩ <;> cases h'
        exact ⟨h, hp⟩
      · rintro ⟨h, hp⟩; exact ⟨a, h, .inr ⟨b, rfl, hp⟩⟩
    rw [e (fun a b => (isLengthExpression same b obj = true ∨ staticNumber b = some 0) ∧ ¬(staticNumber a = some 0 ∧ isLengthExpression same b right = true))]
    generalize isLengthExpression same b obj = p
    generalize isLengthExpression same b right = q
    generalize isLengthAheadOfEnd same a right obj = r
    by_cases h1 : staticNumber a = some 0 <;> by_cases h2 : staticNumber b = some 0 <;> cases p <;> cases q <;> cases r <;> simp [h1, h2]
  · next h1 h2 =>
    simp only [reduceCtorEq, false_iff]
    rintro ⟨a, -, h | ⟨b, h, -⟩⟩
    · exact absurd h (h1 a)
    · exact absurd h (h2 a b)

example : AheadOfEnd (fun a b => decide (a = b)) (.other 0) (.str [97]) (.sub (.length (.other 0)) (.number 1)) :=
  .inr ⟨_, _, rfl, .inl ⟨_, rfl, by decide⟩, .inr ⟨[97], rfl, rfl⟩⟩
example : check (fun a b => decide (a = b)) false (fun _ => true) ⟨false, false⟩ (.slice (.other 0) [.sub (.length (.other 0)) (.number 1)]) (.str [97])
    = some ⟨false, some (.str [97])⟩ := by decide
example : check (fun a b => decide (a = b)) false (fun _ => true) ⟨false, false⟩ (.slice (.other 0) [.sub (.length (.other 1)) (.number 1)]) (.str [97])
    = none := by decide

/-- C55 (reported).  What is reported without a fix is a string index comparison whose other side is not known to be a single
character, or a slice/substring comparison outside the conditions of the fixer; all other reports have a fix. -/
theorem C55_report_fix (same : Expr → Expr → Bool) (allow : Bool) (isString : Expr → Bool) (op : Op) (left : Left) (right : Expr)
    (starts : Bool) (h : check same allow isString op left right = some ⟨starts, none⟩) :
    (∃ obj i, (left = .index obj i ∨ left = .charAt obj [i]) ∧ isCharacter right = false) ∨
    (∃ obj args isSlice, (isSlice = true ∧ left = .slice obj args ∨ isSlice = false ∧ left = .substring obj args) ∧
      (op.loose = true ∧ (∀ t, right ≠ .str t) ∨ ∃ a rest, args = a :: rest ∧ starts = false ∧
        ∀ l r, a = .sub l r → ¬(isLengthExpression same l obj = true ∧ isLengthExpression same r right = true))) := by
  have index : ∀ obj i, reportIndex same allow obj i right = some ⟨starts, none⟩ → isCharacter right = false := by
    intro obj i h
    unfold reportIndex at h
    simp only at h
    split at h
    · cases h
    · split at h
      · cases h
      · split at h
        · cases h
        · simp only [Option.some.injEq, Report.mk.injEq] at h
          have := h.2
          split at this
          · cases this
          · next h => simpa using h
  have cut : ∀ isSlice obj args, reportSlice same isSlice op obj args right = some ⟨starts, none⟩ →
      (op.loose = true ∧ (∀ t, right ≠ .str t) ∨ ∃ a rest, args = a :: rest ∧ starts = false ∧
        ∀ l r, a = .sub l r → ¬(isLengthExpression same l obj = true ∧ isLengthExpression same r right = true)) := by
    clear h index
    intro isSlice obj args h
    unfold reportSlice at h
    split at h
    · cases h
    · next st hv =>
      simp only [Option.some.injEq, Report.mk.injEq] at h
      obtain ⟨rfl, h⟩ := h
      split at h
      · cases h
      · next hx =>
        unfold sliceFixable at hx
        split at hx
        · next hl =>
          left
          simp only [Bool.and_eq_true, Bool.not_eq_true'] at hl
          refine ⟨hl.1, ?_⟩
          rintro t rfl
          cases hl.2
        · right
          unfold sliceVerdict at hv
          split at hv
          · next a =>
            split at hv
            · cases hv
              refine ⟨a, [], rfl, rfl, ?_⟩
              rintro l r rfl ⟨h1, h2⟩
              exact hx (by simp [validStart, h1, h2])
            · cases hv
          · next a b =>
            split at hv
            · next h1 =>
              cases hv
              simp only [Bool.and_eq_true] at h1
              exact absurd h1.2 (by simpa using hx)
            · split at hv
              · cases hv
                refine ⟨a, [b], rfl, rfl, ?_⟩
                rintro l r rfl ⟨h1, h2⟩
                exact hx (by simp [validStart, h1, h2])
              · cases hv
          · cases hv
  unfold check at h
  split at h
  · split at h
    · exact .inl ⟨_, _, .inl rfl, index _ _ h⟩
    · cases h
  · split at h
    · exact .inl ⟨_, _, .inr rfl, index _ _ h⟩
    · cases h
  · split at h <;> cases h
  · split at h
    · split at h <;> cases h
    · cases h
  · split at h
    · exact .inr ⟨_, _, true, .inl ⟨rfl, rfl⟩, cut _ _ _ h⟩
    · cases h
  · split at h
    · exact .inr ⟨_, _, false, .inr ⟨rfl, rfl⟩, cut _ _ _ h⟩
    · cases h
  · cases h

/-- `s.slice(-3) == y` is reported without a fix, as `y` may not be a string. -/
example : check (fun a b => decide (a = b)) false (fun _ => true) ⟨false, true⟩ (.slice (.other 0) [.neg (.length (.other 1))]) (.other 1)
    = some ⟨false, none⟩ := by decide

/-- C55 (regular expressions).  A pattern the rule accepts has none of the flags `i`, `m`, `g`, `y` and, unless it contains a legacy
octal escape, matches exactly the strings that start (respectively end) with the text extracted from it. -/
theorem C55_regex (isDigit : Char → Bool) (hd : ∀ c : Char, c.isDigit = true → isDigit c = true) (pattern flags : Text)
    (p : Parsed) (hl : legacyOctal pattern = false) (hp : parseRegExp isDigit pattern flags = some p) :
    (∀ f ∈ ['i', 'm', 'g', 'y'], f ∉ flags) ∧ p.isStartsWith = !p.isEndsWith ∧
    ∃ r, reading pattern = some r ∧ ∀ s : Str, r.Test s ↔
      if p.isStartsWith then p.text.flatMap utf16 <+: s else p.text.flatMap utf16 <:+ s :=
  regex_sound isDigit hd pattern flags p hl hp

/-- `/^\.b/u` and `/\$\0$/` -/
example : parseRegExp Char.isDigit "^\\.b".toList ['u'] = some ⟨false, true, ".b".toList⟩ ∧
    legacyOctal "^\\.b".toList = false := by decide
example : parseRegExp Char.isDigit "\\$\\0$".toList [] = some ⟨true, false, ['$', Char.ofNat 0]⟩ ∧
    legacyOctal "\\$\\0$".toList = false := by decide

/-- C55 (hazard).  A legacy octal escape is misread: `/^\012/` matches what starts with a line feed, but the text extracted is a
null followed by `12`. -/
theorem C55_hazard_octal : parseRegExp Char.isDigit "^\\012".toList [] = some ⟨false, true, [Char.ofNat 0, '1', '2']⟩ ∧
    reading "^\\012".toList = some (.seq .startOfInput (.seq (.unit 10) .empty)) := by decide

/-- C55 (match).  `s.match(re) === null`, `!== null`, `== null` and so on have the value of the replacement `!s.startsWith(..)` or
`s.startsWith(..)`: a match is found exactly if the pattern tests true. -/
theorem C55_match (isString : Bool) (op : Op) (right : Nullish) (parsed : Option Parsed) (p : Parsed) (insertBang matched : Bool)
    (h : checkMatch isString op right parsed = some (p, insertBang)) :
    parsed = some p ∧ compareMatch op matched right = (matched != insertBang) := by
  unfold checkMatch at h
  obtain ⟨negative, loose⟩ := op
  cases parsed with
  | none => split at h <;> (try cases h); split at h <;> cases h
  | some q =>
    cases isString <;> cases right <;> cases loose <;> cases negative <;> simp at h <;>
      (obtain ⟨rfl, rfl⟩ := h; cases matched <;> simp [compareMatch])

example : checkMatch true ⟨true, true⟩ .undefined (some ⟨false, true, ['a']⟩) = some (⟨false, true, ['a']⟩, false) := by decide

/-- C55 (literals).  A regular expression literal is split at the slash that ends it: flags have no slash, and the closing slash is
not escaped. -/
theorem C55_split (pattern flags : Text) (hf : '/' ∉ flags) (he : endingBackslashes pattern % 2 = 0) :
    splitRegexLiteral ('/' :: pattern ++ '/' :: flags) = some (pattern, flags) := by
  have h0 : endingBackslashes ('/' :: pattern) = endingBackslashes pattern := by
    unfold endingBackslashes
    rw [List.reverse_cons, List.takeWhile_append]
    split
    · next h => simp [h]
    · rfl
  have hc := closing_found ('/' :: pattern) flags (by simp) hf (by rw [h0]; exact he) flags.length
  unfold splitRegexLiteral
  have h1 : ¬(('/' :: pattern ++ '/' :: flags).length < 2 ∨ ('/' :: pattern ++ '/' :: flags).head? ≠ some '/') := by
    simp only [List.cons_append, List.length_cons, List.length_append, List.head?_cons, ne_eq, not_true_eq_false, or_false]; omega
  have h2 : ('/' :: pattern ++ '/' :: flags).length - 1 = ('/' :: pattern).length + flags.length := by
    simp only [List.length_append, List.length_cons]; omega
  rw [if_neg h1, h2, hc]
  simp only [Option.some.injEq, Prod.mk.injEq]
  constructor
  · rw [List.take_left]; rfl
  · rw [List.cons_append, List.length_cons, List.drop_succ_cons]
    rw [← List.drop_drop, List.drop_left]
    rfl

example : splitRegexLiteral "/^a\\/b\\\\/su".toList = some ("^a\\/b\\\\".toList, "su".toList) := by decide

/-- C55 (quoting).  The text written into the program between double quotes denotes the extracted text — provided what Go considers
printable are no control characters, the text has no BEL, and its characters outside the basic plane are printable. -/
theorem C55_quote (printable : Char → Bool) (hp : ∀ c, printable c = true → 32 ≤ c.toNat) (text : Text)
    (hb : ∀ c ∈ text, printable c = false → c.toNat ≠ 7 ∧ c.toNat < 0x10000) :
    Reads noHoles (.str '"') (chars (goQuoteBody printable text)) (units (text.flatMap utf16)) := by
  induction text with
  | nil => exact .nil
  | cons c t ih =>
    simp only [goQuoteBody, List.flatMap_cons]
    have := quote_char printable hp c (fun h => (hb c (List.mem_cons_self ..) h).1) (fun h => (hb c (List.mem_cons_self ..) h).2) _ _
      (ih fun x hx => hb x (List.mem_cons_of_mem _ hx))
    rw [show units (utf16 c ++ t.flatMap utf16) = units (utf16 c) ++ units (t.flatMap utf16) by simp [units]]
    exact this

example : goQuoteBody (fun c => decide (32 ≤ c.toNat)) ['a', '"', '\n', Char.ofNat 1] = "a\\\"\\n\\x01".toList := by decide

/-- C55 (hazard).  The exceptions are real: `strconv.Quote` writes BEL as `\a`, which JavaScript reads as the letter. -/
theorem C55_hazard_quote (printable : Char → Bool) (h : printable (Char.ofNat 7) = false) :
    goQuoteBody printable [Char.ofNat 7] = ['\\', 'a'] ∧
    Reads noHoles (.str '"') (chars ['\\', 'a']) (units [97]) ∧ [Char.ofNat 7].flatMap utf16 = [7] := by
  refine ⟨?_, ?_, by decide⟩
  · have h1 : ¬(Char.ofNat 7 = '"' ∨ Char.ofNat 7 = '\\') := by decide
    have h2 : (Char.ofNat 7).toNat = 7 := by decide
    simp only [goQuoteBody, List.flatMap_cons, List.flatMap_nil, goEscape, h1, if_false, h, Bool.false_eq_true, h2, if_true, List.append_nil]
  · have := Reads.esc (ev := noHoles) (p := .str '"') (e := ['a']) (u := utf16 'a') (.char (by decide) (by decide)) .nil
    exact this

/-- C55 (hazards).  The three exceptions of `C55_comparison` are real: `s.lastIndexOf(x) === s.length - x.length` holds (both sides
being −1) for the empty `s` and `x = "a"`; `s.slice(-x.length) === x` fails for the empty `x` and `s = "a"`;
`s.slice(-3, 0) === "abc"` is always false but replaced by `s.endsWith("abc")`. -/
theorem C55_hazard_lastIndexOf :
    check (fun a b => decide (a = b)) false (fun _ => true) ⟨false, false⟩ (.lastIndexOf (.other 0) [.other 1])
      (.sub (.length (.other 0)) (.length (.other 1))) = some ⟨false, some (.other 1)⟩ ∧
    (let ev := evalIn (envOf [] [97])
     compare ⟨false, false⟩ (evalLeft ev (.lastIndexOf (.other 0) [.other 1])) (ev (.sub (.length (.other 0)) (.length (.other 1)))) = true) ∧
    ¬ ([97] <:+ ([] : Str)) := by decide

theorem C55_hazard_empty :
    check (fun a b => decide (a = b)) false (fun _ => true) ⟨false, false⟩ (.slice (.other 0) [.neg (.length (.other 1))]) (.other 1)
      = some ⟨false, some (.other 1)⟩ ∧
    (let ev := evalIn (envOf [97] [])
     compare ⟨false, false⟩ (evalLeft ev (.slice (.other 0) [.neg (.length (.other 1))])) (ev (.other 1)) = false) ∧
    [] <:+ ([97] : Str) := by decide

theorem C55_hazard_end :
    check (fun a b => decide (a = b)) false (fun _ => true) ⟨false, false⟩ (.slice (.other 0) [.neg (.number 3), .number 0]) (.str [97, 98, 99])
      = some ⟨false, some (.str [97, 98, 99])⟩ ∧
    (let ev := evalIn (envOf [97, 98, 99] [])
     compare ⟨false, false⟩ (evalLeft ev (.slice (.other 0) [.neg (.number 3), .number 0])) (ev (.str [97, 98, 99])) = false) ∧
    [97, 98, 99] <:+ ([97, 98, 99] : Str) := by decide

/-- C55 (hazard).  Equal tokens are equal texts without white space, even inside string literals: `"a b"` and `"ab"` count as the
same, so `s.slice(0, "a b".length) === "ab"` is replaced by `s.startsWith("ab")`. -/
theorem C55_hazard_tokens : normalized (· == ' ') "\"a b\"".toList = normalized (· == ' ') "\"ab\"".toList := by decide

/-- C55 (texts).  `obj.member … right …` becomes `obj.startsWith(right)`, with a `!` in front for negative operators; white space and
comments between the object and the member stay.  `right` is the operand without parentheses, `tail` the closing ones. -/
theorem C55_fix_right (negative optional starts : Bool) (pre obj old right tail post : Bytes) :
    AppliesTo (pre ++ obj ++ old ++ right ++ tail ++ post)
      (fixWithRightOperand negative optional starts pre.length (pre ++ obj).length (pre ++ obj ++ old).length
        (pre ++ obj ++ old ++ right).length (pre ++ obj ++ old ++ right ++ tail).length)
      (pre ++ (if negative then ascii "!" else []) ++ obj ++ methodText optional starts ++ ascii "(" ++ right ++ ascii ")" ++ post) := by
  have := Seg.applies_sorted ([.keep pre] ++ (if negative then [.sub [] (ascii "!")] else []) ++
    [.keep obj, .sub old (methodText optional starts ++ ascii "("), .keep right, .sub tail (ascii ")"), .keep post])
  cases negative <;>
    simpa [Seg.old, Seg.new, Seg.edits, fixWithRightOperand, bang, List.append_assoc, Nat.add_assoc] using this

/-- `obj.member(args) op right` becomes `obj.startsWith(args)`. -/
theorem C55_fix_argument (negative optional starts : Bool) (pre obj member args tail post : Bytes) :
    AppliesTo (pre ++ obj ++ member ++ args ++ tail ++ post)
      (fixWithArgument negative optional starts pre.length (pre ++ obj).length (pre ++ obj ++ member).length
        (pre ++ obj ++ member ++ args).length (pre ++ obj ++ member ++ args ++ tail).length)
      (pre ++ (if negative then ascii "!" else []) ++ obj ++ methodText optional starts ++ args ++ post) := by
  have := Seg.applies_sorted ([.keep pre] ++ (if negative then [.sub [] (ascii "!")] else []) ++
    [.keep obj, .sub member (methodText optional starts), .keep args, .sub tail [], .keep post])
  cases negative <;>
    simpa [Seg.old, Seg.new, Seg.edits, fixWithArgument, bang, List.append_assoc, Nat.add_assoc] using this

/-- `obj.match(re) op null` becomes `obj.startsWith("text")`. -/
theorem C55_fix_match (insertBang optional starts : Bool) (quoted pre obj member open' arg close tail post : Bytes) :
    AppliesTo (pre ++ obj ++ member ++ open' ++ arg ++ close ++ tail ++ post)
      (fixMatch insertBang optional starts quoted pre.length (pre ++ obj).length (pre ++ obj ++ member).length
        (pre ++ obj ++ member ++ open').length (pre ++ obj ++ member ++ open' ++ arg).length
        (pre ++ obj ++ member ++ open' ++ arg ++ close).length (pre ++ obj ++ member ++ open' ++ arg ++ close ++ tail).length)
      (pre ++ (if insertBang then ascii "!" else []) ++ obj ++ methodText optional starts ++ open' ++ quoted ++ close ++ post) := by
  have := Seg.applies_sorted ([.keep pre] ++ (if insertBang then [.sub [] (ascii "!")] else []) ++
    [.keep obj, .sub member (methodText optional starts), .keep open', .sub arg quoted, .keep close, .sub tail [], .keep post])
  cases insertBang <;>
    simpa [Seg.old, Seg.new, Seg.edits, fixMatch, bang, List.append_assoc, Nat.add_assoc] using this

/-- `re.test(arg)` becomes `arg.startsWith("text")`, or `(arg).startsWith("text")`. -/
theorem C55_fix_test (needsParen optional starts : Bool) (quoted pre head arg close post : Bytes) :
    AppliesTo (pre ++ head ++ arg ++ close ++ post)
      (fixTest needsParen optional starts quoted pre.length (pre ++ head).length (pre ++ head ++ arg).length)
      (pre ++ (if needsParen then ascii "(" ++ arg ++ ascii ")" else arg) ++ methodText optional starts ++ ascii "(" ++ quoted
        ++ close ++ post) := by
  cases needsParen
  · have := Seg.applies_sorted [.keep pre, .sub head [], .keep arg, .sub [] (methodText optional starts ++ ascii "(" ++ quoted),
      .keep close, .keep post]
    simpa [Seg.old, Seg.new, Seg.edits, fixTest, List.append_assoc, Nat.add_assoc] using this
  · have := Seg.applies_sorted [.keep pre, .sub head [], .sub [] (ascii "("), .keep arg, .sub [] (ascii ")"),
      .sub [] (methodText optional starts ++ ascii "(" ++ quoted), .keep close, .keep post]
    simpa [Seg.old, Seg.new, Seg.edits, fixTest, List.append_assoc, Nat.add_assoc] using this

/-- `if (/^a/.test(x + y)) {}` -/
example : AppliesTo (ascii "if (/^a/.test(x + y)) {}") (fixTest true false true (ascii "\"a\"") 4 14 19)
    (ascii "if ((x + y).startsWith(\"a\")) {}") :=
  C55_fix_test true false true (ascii "\"a\"") (ascii "if (") (ascii "/^a/.test(") (ascii "x + y") (ascii ")") (ascii ") {}")

/-- C55 (hazard).  Parentheses around the argument (or around the left side of a comparison) are torn apart: `/^a/.test((x))`
becomes `x.startsWith("a"))`. -/
theorem C55_hazard_parentheses : AppliesTo (ascii "/^a/.test((x))") (fixTest false false true (ascii "\"a\"") 0 11 12)
    (ascii "x.startsWith(\"a\"))") :=
  C55_fix_test false false true (ascii "\"a\"") [] (ascii "/^a/.test((") (ascii "x") (ascii "))") []

end Tsgolint.StartsEnds
