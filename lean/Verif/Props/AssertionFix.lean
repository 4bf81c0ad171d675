import Verif.Spec.AssertionFix
import Verif.Proof.StableFix
/-!
# C99: fixes of no-unnecessary-type-assertion remove the assertion and keep the rest
-/
namespace Tsgolint.AssertionFix
open Fixer (Bytes Fix ascii AppliesTo Seg)

/-! ### White space -/

/-- C99 (white space). `IsStrWhiteSpace` recognises exactly the white space and line ends of ECMAScript. -/
theorem C99_whiteSpace (r : Nat) : isStrWhiteSpace r = true ↔ WhiteRune r := by
  simp only [isStrWhiteSpace, isSpaceSeparator, WhiteRune, List.contains_cons, List.contains_nil, Bool.or_eq_true, Bool.and_eq_true, beq_iff_eq, decide_eq_true_eq,
    Bool.or_false]
  omega

theorem whiteByte_iff (b : UInt8) : isStrWhiteSpace b.toNat = true ↔ WhiteByte b := by
  rw [C99_whiteSpace, WhiteRune, WhiteByte]
  have h := b.toNat_lt
  simp only [← UInt8.toNat_inj, UInt8.toNat_ofNat]
  omega

theorem back_spec (before tail : Bytes) : ∀ (g : Bytes), ∃ kept, Trimmed g.reverse kept ∧
    back (before ++ g.reverse ++ tail) before.length (before.length + g.length) = before.length + kept.length := by
  intro g
  induction g generalizing tail with
  | nil =>
    refine ⟨[], ⟨[], rfl, by simp, by simp⟩, ?_⟩
    simp only [List.length_nil, Nat.add_zero]
    cases hb : before.length with
    | zero => rfl
    | succ p => rw [back, if_pos (by omega)]
  | cons b g ih =>
    have hcode : before ++ (b :: g).reverse ++ tail = before ++ g.reverse ++ (b :: tail) := by simp
    have hat : (before ++ g.reverse ++ (b :: tail))[before.length + g.length]? = some b := by
      rw [List.getElem?_append_right (by simp)]; simp
    rw [hcode, show before.length + (b :: g).length = (before.length + g.length) + 1 by simp; omega, back, if_neg (by omega)]
    by_cases hw : isStrWhiteSpace b.toNat = true
    · rw [if_neg (by simp [spaceAt, hat, hw])]
      obtain ⟨kept, ⟨ws, h1, h2, h3⟩, h4⟩ := ih (b :: tail)
      refine ⟨kept, ⟨ws ++ [b], by simp [h1], ?_, h3⟩, h4⟩
      intro x hx
      rcases List.mem_append.1 hx with h | h
      · exact h2 x h
      · rw [List.mem_singleton.1 h]; exact (whiteByte_iff b).1 hw
    · rw [if_pos (by simp only [spaceAt, hat]; simpa using hw)]
      refine ⟨g.reverse ++ [b], ⟨[], by simp, by simp, ?_⟩, by simp; omega⟩
      intro x hx
      simp only [List.getLast?_append, List.getLast?_singleton, Option.some_or, Option.some.injEq] at hx
      subst hx
      exact fun h => hw ((whiteByte_iff _).2 h)

theorem Trimmed.unique {t a b : Bytes} (h : Trimmed t a) (k : Trimmed t b) : a = b := by
  obtain ⟨u, h1, h2, h3⟩ := h
  obtain ⟨v, k1, k2, k3⟩ := k
  rw [h1] at k1
  have key : ∀ (a b u v : Bytes), a ++ u = b ++ v → (∀ x ∈ v, WhiteByte x) → (∀ x, a.getLast? = some x → ¬ WhiteByte x) → a.length ≤ b.length := by
    intro a b u v h hv ha
    apply Classical.byContradiction
    intro hlt
    have hlt : b.length < a.length := by omega
    obtain ⟨m, rfl⟩ : ∃ m, a = b ++ m := by
      refine ⟨a.drop b.length, ?_⟩
      have : (a ++ u).take b.length = (b ++ v).take b.length := by rw [h]
      rw [List.take_append_of_le_length (by omega), List.take_left] at this
      exact (this ▸ (List.take_append_drop b.length a)).symm
    have hm : m ≠ [] := by rintro rfl; simp at hlt
    have hv' : v = m ++ u := by
      have := h; rw [List.append_assoc] at this; exact (List.append_cancel_left this).symm
    have hl : m.getLast hm ∈ v := by rw [hv']; exact List.mem_append_left _ (List.getLast_mem hm)
    refine ha (m.getLast hm) ?_ (hv _ hl)
    rw [List.getLast?_append, List.getLast?_eq_some_getLast hm]; rfl
  have l1 := key a b u v k1 k2 h3
  have l2 := key b a v u k1.symm h2 k3
  exact (List.append_inj k1 (by omega)).1

/-! ### `as` -/

/-- C99 (`as`). Removing `as T` removes the keyword and the type, the white space (bytes) before the keyword, and what lies between the keyword and the type if
that is white space; comments before the keyword and comments between the two stay. -/
theorem C99_as (decode : Bytes → List Nat) (before gap keyword mid type rest : Bytes) :
    ∃ kept, Trimmed gap kept ∧
      ((∀ r ∈ decode mid, WhiteRune r) → AppliesTo (before ++ gap ++ keyword ++ mid ++ type ++ rest)
        (asFixes decode (before ++ gap ++ keyword ++ mid ++ type ++ rest) (asAt before gap keyword mid type)) (before ++ kept ++ rest)) ∧
      (¬ (∀ r ∈ decode mid, WhiteRune r) → AppliesTo (before ++ gap ++ keyword ++ mid ++ type ++ rest)
        (asFixes decode (before ++ gap ++ keyword ++ mid ++ type ++ rest) (asAt before gap keyword mid type)) (before ++ kept ++ mid ++ rest)) := by
  obtain ⟨kept, ⟨ws, h1, h2, h3⟩, hb⟩ := back_spec before (keyword ++ mid ++ type ++ rest) gap.reverse
  simp only [List.reverse_reverse, List.length_reverse] at h1 hb
  have hb' : back (before ++ gap ++ keyword ++ mid ++ type ++ rest) before.length (before.length + gap.length) = before.length + kept.length := by
    rw [← hb]; simp [List.append_assoc]
  have hs : slice (before ++ gap ++ keyword ++ mid ++ type ++ rest) (before.length + gap.length + keyword.length) (before.length + gap.length + keyword.length + mid.length) = mid := by
    rw [slice, show before.length + gap.length + keyword.length = (before ++ gap ++ keyword).length by simp [Nat.add_assoc]]
    rw [show before ++ gap ++ keyword ++ mid ++ type ++ rest = (before ++ gap ++ keyword) ++ (mid ++ (type ++ rest)) by simp [List.append_assoc], List.drop_left]
    rw [show (before ++ gap ++ keyword).length + mid.length - (before ++ gap ++ keyword).length = mid.length by omega, List.take_left]
  have hw : isStringWhiteSpace decode mid = true ↔ ∀ r ∈ decode mid, WhiteRune r := by
    rw [isStringWhiteSpace, List.all_eq_true]; simp only [C99_whiteSpace]
  have hlen : gap.length = kept.length + ws.length := by rw [h1]; simp
  refine ⟨kept, ⟨ws, h1, h2, h3⟩, fun hm => ?_, fun hm => ?_⟩
  · have h := Seg.applies_sorted [.keep (before ++ kept), .sub (ws ++ keyword ++ mid ++ type) [], .keep rest]
    have e : asFixes decode (before ++ gap ++ keyword ++ mid ++ type ++ rest) (asAt before gap keyword mid type) =
        Seg.edits 0 [.keep (before ++ kept), .sub (ws ++ keyword ++ mid ++ type) [], .keep rest] := by
      simp only [asFixes, asAt, hb', hs, hw.2 hm, Seg.edits]
      rw [if_neg (by omega)]
      simp only [Bool.not_true, Bool.false_eq_true, if_false, List.cons.injEq, Fix.mk.injEq, and_true, true_and, List.length_append]
      constructor <;> push_cast <;> omega
    rw [e]
    simpa [Seg.old, Seg.new, h1, List.append_assoc] using h
  · have h := Seg.applies_sorted [.keep (before ++ kept), .sub (ws ++ keyword) [], .keep mid, .sub type [], .keep rest]
    have e : asFixes decode (before ++ gap ++ keyword ++ mid ++ type ++ rest) (asAt before gap keyword mid type) =
        Seg.edits 0 [.keep (before ++ kept), .sub (ws ++ keyword) [], .keep mid, .sub type [], .keep rest] := by
      have hm : isStringWhiteSpace decode mid = false := by rw [← Bool.not_eq_true, hw]; exact hm
      simp only [asFixes, asAt, hb', hs, hm, Seg.edits]
      rw [if_neg (by omega)]
      simp only [Bool.not_false, if_true, List.cons.injEq, Fix.mk.injEq, and_true, true_and, List.length_append]
      refine ⟨⟨?_, ?_⟩, ?_, ?_⟩ <;> push_cast <;> omega
    rw [e]
    simpa [Seg.old, Seg.new, h1, List.append_assoc] using h

/-- C99 (what is lost before `as`). If the text between the operand and `as` has no byte 160, only white space in ASCII is removed from it. -/
theorem C99_ascii (gap kept : Bytes) (h : Trimmed gap kept) (h160 : ∀ b ∈ gap, b ≠ 160) : ∃ ws, gap = kept ++ ws ∧ ∀ b ∈ ws, b = 9 ∨ b = 10 ∨ b = 11 ∨ b = 12 ∨ b = 13 ∨ b = 32 := by
  obtain ⟨ws, h1, h2, _⟩ := h
  refine ⟨ws, h1, fun b hb => ?_⟩
  have := h160 b (by rw [h1]; exact List.mem_append_right _ hb)
  rcases h2 b hb with h | h | h | h | h | h | h
  · exact .inl h
  · exact .inr (.inl h)
  · exact .inr (.inr (.inl h))
  · exact .inr (.inr (.inr (.inl h)))
  · exact .inr (.inr (.inr (.inr (.inl h))))
  · exact .inr (.inr (.inr (.inr (.inr h))))
  · exact absurd h this

/-- C99 (finding). A no-break space before `as` (C2 A0 in UTF-8) is cut in two: its second byte is taken for white space and removed, its first one stays. -/
theorem C99_noBreakSpace (decode : Bytes → List Nat) (before keyword mid type rest : Bytes) (hm : ∀ r ∈ decode mid, WhiteRune r) :
    AppliesTo (before ++ [0xC2, 0xA0] ++ keyword ++ mid ++ type ++ rest)
      (asFixes decode (before ++ [0xC2, 0xA0] ++ keyword ++ mid ++ type ++ rest) (asAt before [0xC2, 0xA0] keyword mid type)) (before ++ [0xC2] ++ rest) := by
  obtain ⟨kept, h1, h2, _⟩ := C99_as decode before [0xC2, 0xA0] keyword mid type rest
  have : kept = [0xC2] := h1.unique ⟨[0xA0], rfl, by simp [WhiteByte], by simp [WhiteByte]⟩
  subst this
  exact h2 hm

/-- C99 (no keyword). If there is no keyword between the operand and the type (the next token is already part of the type), everything from the operand to the
end of the type is removed. -/
theorem C99_noKeyword (decode : Bytes → List Nat) (before removed rest : Bytes) (a : As) (h1 : a.expressionEnd = before.length) (h2 : a.typeEnd = before.length + removed.length)
    (h3 : a.typeStart < a.keyword.stop) : AppliesTo (before ++ removed ++ rest) (asFixes decode (before ++ removed ++ rest) a) (before ++ rest) := by
  have := Seg.applies_sorted [.keep before, .sub removed [], .keep rest]
  rw [asFixes, if_pos h3, h1, h2]
  simpa [Seg.old, Seg.new, Seg.edits, List.append_assoc] using this

example : AppliesTo (ascii "x" ++ ascii " T" ++ ascii ";") (asFixes (fun _ => []) (ascii "x" ++ ascii " T" ++ ascii ";") ⟨1, ⟨2, 3⟩, 2, 3⟩) (ascii "x" ++ ascii ";") :=
  C99_noKeyword _ (ascii "x") (ascii " T") (ascii ";") _ rfl rfl (by decide)

/-! ### `<T>x`, `x!` -/

/-- C99 (`<T>`). Removing `<T>` removes everything from `<` to `>`, and nothing else. -/
theorem C99_angle (before assertion rest : Bytes) (opening closing : Bytes) (middle : Bytes) (h : assertion = opening ++ middle ++ closing) :
    AppliesTo (before ++ assertion ++ rest) (angleFixes ⟨⟨before.length, before.length + opening.length⟩,
      ⟨before.length + opening.length + middle.length, before.length + assertion.length⟩⟩) (before ++ rest) := by
  subst h
  have := Seg.applies_sorted [.keep before, .sub (opening ++ middle ++ closing) [], .keep rest]
  simpa [Seg.old, Seg.new, Seg.edits, angleFixes, List.append_assoc] using this

/-- C99 (`!`). Removing `!` removes that token, and nothing else; comments before it stay. -/
theorem C99_bang (before bang rest : Bytes) : AppliesTo (before ++ bang ++ rest) (bangFixes ⟨before.length, before.length + bang.length⟩) (before ++ rest) := by
  have := Seg.applies_sorted [.keep before, .sub bang [], .keep rest]
  simpa [Seg.old, Seg.new, Seg.edits, bangFixes, List.append_assoc] using this

/-- C99 (several). Assertions in a row are replaced by the text of the innermost operand; in parentheses if it is an object literal and the body of an arrow function. -/
theorem C99_double (before left operand right rest : Bytes) (object arrowBody : Bool) :
    AppliesTo (before ++ (left ++ operand ++ right) ++ rest)
      (doubleFixes (before ++ (left ++ operand ++ right) ++ rest) ⟨before.length, before.length + (left ++ operand ++ right).length⟩
        ⟨before.length + left.length, before.length + left.length + operand.length⟩ object arrowBody)
      (before ++ (if object = true ∧ arrowBody = true then ascii "(" ++ operand ++ ascii ")" else operand) ++ rest) := by
  have hs : slice (before ++ (left ++ operand ++ right) ++ rest) (before.length + left.length) (before.length + left.length + operand.length) = operand := by
    rw [slice, show before.length + left.length = (before ++ left).length by simp,
      show before ++ (left ++ operand ++ right) ++ rest = (before ++ left) ++ (operand ++ (right ++ rest)) by simp [List.append_assoc], List.drop_left,
      show (before ++ left).length + operand.length - (before ++ left).length = operand.length by omega, List.take_left]
  have := Seg.applies_sorted [.keep before, .sub (left ++ operand ++ right) (if object = true ∧ arrowBody = true then ascii "(" ++ operand ++ ascii ")" else operand), .keep rest]
  simp only [doubleFixes, hs]
  have hc : (if (object && arrowBody) = true then ascii "(" ++ operand ++ ascii ")" else operand) = (if object = true ∧ arrowBody = true then ascii "(" ++ operand ++ ascii ")" else operand) := by
    simp
  rw [hc]
  simpa [Seg.old, Seg.new, Seg.edits, List.append_assoc] using this

/-! ### Documentation comments -/

theorem find_range (p : Nat → Bool) (n i : Nat) : (List.range n).reverse.find? p = some i ↔ i < n ∧ p i = true ∧ ∀ j, i < j → j < n → p j = false := by
  induction n with
  | zero => simp
  | succ n ih =>
    rw [List.range_succ, List.reverse_append]
    simp only [List.reverse_cons, List.reverse_nil, List.nil_append, List.cons_append, List.find?_cons]
    cases hp : p n with
    | true =>
      simp only [Option.some.injEq]
      constructor
      · rintro rfl; exact ⟨by omega, hp, fun j h1 h2 => by omega⟩
      · rintro ⟨h1, h2, h3⟩
        apply Classical.byContradiction
        intro hne
        have := h3 n (by omega) (by omega)
        rw [hp] at this; cases this
    | false =>
      simp only [ih]
      constructor
      · rintro ⟨h1, h2, h3⟩
        refine ⟨by omega, h2, fun j h4 h5 => ?_⟩
        by_cases hj : j = n
        · subst hj; exact hp
        · exact h3 j h4 (by omega)
      · rintro ⟨h1, h2, h3⟩
        refine ⟨?_, h2, fun j h4 h5 => h3 j h4 (by omega)⟩
        have : i ≠ n := by rintro rfl; rw [hp] at h2; cases h2
        omega

theorem lastIndex_iff (s pattern : Bytes) (i : Nat) (hp : pattern ≠ []) : lastIndex s pattern = some i ↔ LastAt s pattern i := by
  have hout : ∀ j, s.length < j + 1 → ¬ pattern <+: s.drop j := by
    intro j hj h
    rw [List.drop_eq_nil_of_le (by omega)] at h
    exact hp (List.prefix_nil.1 h)
  rw [lastIndex, find_range, LastAt]
  simp only [List.isPrefixOf_iff_prefix]
  constructor
  · rintro ⟨h1, h2, h3⟩
    refine ⟨h2, fun j hj hpre => ?_⟩
    by_cases hl : j < s.length + 1
    · have := h3 j hj hl
      rw [← Bool.not_eq_true, List.isPrefixOf_iff_prefix] at this
      exact this hpre
    · exact hout j (by omega) hpre
  · rintro ⟨h1, h2⟩
    refine ⟨?_, h1, fun j hj _ => ?_⟩
    · apply Classical.byContradiction
      intro hl
      exact hout i (by omega) h1
    · rw [← Bool.not_eq_true, List.isPrefixOf_iff_prefix]; exact h2 j hj

theorem leadingSpaces_spec (s : Bytes) : ∃ ws more, s = ws ++ more ∧ ws.length = leadingSpaces s ∧ (∀ b ∈ ws, WhiteByte b) ∧ ∀ b, more.head? = some b → ¬ WhiteByte b := by
  induction s with
  | nil => exact ⟨[], [], rfl, rfl, by simp, by simp⟩
  | cons b s ih =>
    rw [leadingSpaces]
    split
    · rename_i h
      obtain ⟨ws, more, h1, h2, h3, h4⟩ := ih
      exact ⟨b :: ws, more, by rw [h1]; rfl, by simp [h2], List.forall_mem_cons.2 ⟨(whiteByte_iff b).1 h, h3⟩, h4⟩
    · rename_i h
      refine ⟨[], b :: s, rfl, rfl, by simp, ?_⟩
      intro x hx
      simp only [List.head?_cons, Option.some.injEq] at hx
      subst hx
      exact fun hw => h ((whiteByte_iff _).2 hw)

/-- Where the search for a documentation comment starts -/
def searchStart (nodePos : Nat) (parenPos : Option Nat) : Nat := parenPos.getD nodePos

/-- C99 (documentation comments: when). The comment is removed instead of the assertion exactly if the type lies before the operand and the text from the
beginning of the assertion (or of the parentheses around it), white space and comments before it included, to the operand contains `/**` and, after
the last of them, `*/`. -/
theorem C99_doc_iff (code : Bytes) (typePos nodePos : Nat) (parenPos : Option Nat) (expressionPos : Nat) :
    (docComment code typePos nodePos parenPos expressionPos).isSome = true ↔
      typePos < expressionPos ∧ ∃ s e, s ≤ e ∧ LastAt (slice code (parenPos.getD nodePos) expressionPos) (ascii "/**") s ∧
        LastAt (slice code (parenPos.getD nodePos) expressionPos) (ascii "*/") e := by
  rw [docComment]
  split
  · rename_i ht
    simp only
    have i1 := fun i => lastIndex_iff (slice code (parenPos.getD nodePos) expressionPos) (ascii "/**") i (by decide)
    have i2 := fun i => lastIndex_iff (slice code (parenPos.getD nodePos) expressionPos) (ascii "*/") i (by decide)
    generalize lastIndex (slice code (parenPos.getD nodePos) expressionPos) (ascii "/**") = a at i1
    generalize lastIndex (slice code (parenPos.getD nodePos) expressionPos) (ascii "*/") = b at i2
    simp only [ht, true_and, ← i1, ← i2]
    cases a <;> cases b <;> simp
  · rename_i ht
    simp [ht]

theorem slice_middle (p m r : Bytes) : slice (p ++ m ++ r) p.length (p.length + m.length) = m := by
  rw [slice, List.append_assoc, List.drop_left, show p.length + m.length - p.length = m.length by omega, List.take_left]

/-- A text with its last `/**` and, after it, its last `*/` -/
theorem comment_parts (text : Bytes) (s e : Nat) (hle : s ≤ e) (hs : LastAt text (ascii "/**") s) (he : LastAt text (ascii "*/") e) :
    ∃ a c b, text = a ++ c ++ b ∧ a.length = s ∧ a.length + c.length = e + 2 ∧ ascii "/**" <+: c ∧ ascii "*/" <:+ c ∧ Free (ascii "*/") b := by
  obtain ⟨x, hx⟩ := hs.1
  obtain ⟨y, hy⟩ := he.1
  have hslen : text.length - s = 3 + x.length := by
    have := congrArg List.length hx; simp only [List.length_append, List.length_drop] at this; rw [← this]; rfl
  have helen : text.length - e = 2 + y.length := by
    have := congrArg List.length hy; simp only [List.length_append, List.length_drop] at this; rw [← this]; rfl
  have hse : s + 2 ≤ e := by
    apply Classical.byContradiction
    intro hlt
    rcases Nat.lt_or_ge s e with h | h
    · have : e = s + 1 := by omega
      subst this
      have hd : text.drop (s + 1) = (text.drop s).drop 1 := by rw [List.drop_drop]
      rw [hd, ← hx] at hy
      have h2 := congrArg (fun l => l[1]?) hy
      simp [ascii] at h2
    · have : e = s := by omega
      subst this
      rw [← hx] at hy
      have h2 := congrArg (fun l => l[0]?) hy
      simp [ascii] at h2
  have hd : ascii "/**" ++ x = (text.drop s) := hx
  have hde : (text.drop s).drop (e - s) = ascii "*/" ++ y := by rw [List.drop_drop, show s + (e - s) = e by omega, hy]
  have hC : (text.drop s).take (e + 2 - s) = (text.drop s).take (e - s) ++ ascii "*/" := by
    rw [show e + 2 - s = (e - s) + 2 by omega, List.take_add, hde]
    congr 1
  refine ⟨text.take s, (text.drop s).take (e + 2 - s), text.drop (e + 2), ?_, ?_, ?_, ?_, ?_, ?_⟩
  · rw [List.append_assoc, show text.drop (e + 2) = (text.drop s).drop (e + 2 - s) by rw [List.drop_drop]; congr 1; omega, List.take_append_drop, List.take_append_drop]
  · simp; omega
  · simp; omega
  · refine ⟨x.take (e - 1 - s), ?_⟩
    rw [← hd, show e + 2 - s = 3 + (e - 1 - s) by omega, List.take_add]
    rfl
  · exact ⟨_, hC.symm⟩
  · intro a b h
    refine he.2 (e + 2 + a.length) (by omega) ⟨b, ?_⟩
    rw [← List.drop_drop, h, List.append_assoc, List.drop_left]

/-- C99 (documentation comments: what). It removes a text from `/**` to the last `*/` before the operand, and the white space (bytes) after that; nothing else. -/
theorem C99_doc (decode : Bytes → List Nat) (code : Bytes) (typePos nodePos : Nat) (parenPos : Option Nat) (expressionPos : Nat) (form : Form)
    (hstart : parenPos.getD nodePos ≤ expressionPos) (hcode : expressionPos ≤ code.length)
    (h : (docComment code typePos nodePos parenPos expressionPos).isSome = true) :
    ∃ before comment ws more rest, code = before ++ comment ++ ws ++ more ++ rest ∧ parenPos.getD nodePos ≤ before.length ∧
      (before ++ comment ++ ws ++ more).length = expressionPos ∧
      ascii "/**" <+: comment ∧ ascii "*/" <:+ comment ∧ Free (ascii "*/") (ws ++ more) ∧ (∀ b ∈ ws, WhiteByte b) ∧ (∀ b, more.head? = some b → ¬ WhiteByte b) ∧
      (report decode code typePos nodePos parenPos expressionPos form).range = ⟨before.length, before.length + comment.length⟩ ∧
      AppliesTo code (report decode code typePos nodePos parenPos expressionPos form).fixes (before ++ more ++ rest) := by
  obtain ⟨ht, s, e, hle, hs, he⟩ := (C99_doc_iff code typePos nodePos parenPos expressionPos).1 h
  have hdoc : docComment code typePos nodePos parenPos expressionPos = some (⟨parenPos.getD nodePos + s, parenPos.getD nodePos + e + 2⟩,
      parenPos.getD nodePos + e + 2 + leadingSpaces (slice code (parenPos.getD nodePos + e + 2) expressionPos)) := by
    simp only [docComment, ht, if_true, (lastIndex_iff _ (ascii "/**") s (by decide)).2 hs, (lastIndex_iff _ (ascii "*/") e (by decide)).2 he, ge_iff_le, hle]
  generalize hS : parenPos.getD nodePos = S at *
  have htext : code = code.take S ++ slice code S expressionPos ++ code.drop expressionPos := by
    rw [slice, List.append_assoc, show code.drop expressionPos = (code.drop S).drop (expressionPos - S) by rw [List.drop_drop]; congr 1; omega, List.take_append_drop,
      List.take_append_drop]
  have hlenS : (code.take S).length = S := by simp; omega
  have hlenT : (slice code S expressionPos).length = expressionPos - S := by simp [slice]; omega
  obtain ⟨a, c, b, habc, ha, hac, h1, h2, h3⟩ := comment_parts _ s e hle hs he
  generalize code.take S = p at htext hlenS
  generalize code.drop expressionPos = rest at htext
  generalize slice code S expressionPos = text at *
  subst habc
  have hb : slice code (S + e + 2) expressionPos = b := by
    have := slice_middle (p ++ a ++ c) b rest
    rw [show p ++ a ++ c ++ b ++ rest = code by rw [htext]; simp [List.append_assoc]] at this
    rw [show S + e + 2 = (p ++ a ++ c).length by simp; omega, show expressionPos = (p ++ a ++ c).length + b.length by simp at hlenT ⊢; omega]
    exact this
  rw [hb] at hdoc
  obtain ⟨ws, more, hws, hlen, hw, hm⟩ := leadingSpaces_spec b
  refine ⟨p ++ a, c, ws, more, rest, ?_, by simp; omega, ?_, h1, h2, hws ▸ h3, hw, hm, ?_, ?_⟩
  · rw [htext, hws]; simp [List.append_assoc]
  · rw [hws] at hlenT; simp at hlenT ⊢; omega
  · rw [report.eq_def, hdoc]
    simp only [Span.mk.injEq, List.length_append]
    omega
  · rw [report.eq_def, hdoc]
    have h := Seg.applies_sorted [.keep (p ++ a), .sub (c ++ ws) [], .keep (more ++ rest)]
    have hold : Seg.old [.keep (p ++ a), .sub (c ++ ws) [], .keep (more ++ rest)] = code := by
      rw [htext, hws]; simp [Seg.old, List.append_assoc]
    rw [hold] at h
    have hed : Seg.edits 0 [.keep (p ++ a), .sub (c ++ ws) [], .keep (more ++ rest)] =
        [⟨[], ((S + s : Nat) : Int), ((S + e + 2 + leadingSpaces b : Nat) : Int)⟩] := by
      simp only [Seg.edits, List.cons.injEq, Fix.mk.injEq, and_true, true_and, List.length_append, Nat.zero_add]
      constructor <;> congr 1 <;> omega
    rw [hed] at h
    simpa [Seg.new, List.append_assoc] using h

/-- C99 (no documentation comment). Otherwise the assertion is removed, and the keyword (or `<`) up to the end of the type (or `>`) is reported. -/
theorem C99_plain (decode : Bytes → List Nat) (code : Bytes) (typePos nodePos : Nat) (parenPos : Option Nat) (expressionPos : Nat) (form : Form)
    (h : (docComment code typePos nodePos parenPos expressionPos).isSome = false) :
    (report decode code typePos nodePos parenPos expressionPos form).fixes = contextualFixes decode code form ∧
    ∀ k t, (∀ a, form = .as a → k = a.keyword.pos ∧ t = a.typeEnd) → (∀ a, form = .angle a → k = a.opening.pos ∧ t = a.closing.stop) →
      (report decode code typePos nodePos parenPos expressionPos form).range = ⟨k, t⟩ := by
  have h : docComment code typePos nodePos parenPos expressionPos = none := by simpa using h
  rw [report.eq_def, h]
  cases form with
  | as a => exact ⟨rfl, fun k t h1 _ => by obtain ⟨rfl, rfl⟩ := h1 a rfl; rfl⟩
  | angle a => exact ⟨rfl, fun k t _ h1 => by obtain ⟨rfl, rfl⟩ := h1 a rfl; rfl⟩

/-- C99 (finding). The search for documentation comments is meant for JavaScript, but is made for every `<T>x`, and covers the comments before it: of
`/** … */ <T>x` the comment is removed, and the assertion stays. -/
theorem C99_doc_instead (decode : Bytes → List Nat) (before text type operand : Bytes) (form : Form)
    (hs : LastAt (ascii "/**" ++ text ++ ascii "*/ <" ++ type ++ ascii ">") (ascii "/**") 0)
    (he : LastAt (ascii "/**" ++ text ++ ascii "*/ <" ++ type ++ ascii ">") (ascii "*/") (3 + text.length)) :
    AppliesTo (before ++ (ascii "/**" ++ text ++ ascii "*/ <" ++ type ++ ascii ">") ++ operand)
      (report decode (before ++ (ascii "/**" ++ text ++ ascii "*/ <" ++ type ++ ascii ">") ++ operand) (before.length + 7 + text.length) before.length none
        (before.length + (ascii "/**" ++ text ++ ascii "*/ <" ++ type ++ ascii ">").length) form).fixes
      (before ++ (ascii "<" ++ type ++ ascii ">") ++ operand) := by
  have hslice := slice_middle before (ascii "/**" ++ text ++ ascii "*/ <" ++ type ++ ascii ">") operand
  have hb : slice (before ++ (ascii "/**" ++ text ++ ascii "*/ <" ++ type ++ ascii ">") ++ operand) (before.length + (3 + text.length) + 2)
      (before.length + (ascii "/**" ++ text ++ ascii "*/ <" ++ type ++ ascii ">").length) = ascii " <" ++ type ++ ascii ">" := by
    have := slice_middle (before ++ ascii "/**" ++ text ++ ascii "*/") (ascii " <" ++ type ++ ascii ">") operand
    rw [show before ++ ascii "/**" ++ text ++ ascii "*/" ++ (ascii " <" ++ type ++ ascii ">") ++ operand =
      before ++ (ascii "/**" ++ text ++ ascii "*/ <" ++ type ++ ascii ">") ++ operand by simp [ascii]] at this
    refine Eq.trans ?_ this
    congr 1 <;> simp [ascii] <;> omega
  have hdoc : docComment (before ++ (ascii "/**" ++ text ++ ascii "*/ <" ++ type ++ ascii ">") ++ operand) (before.length + 7 + text.length) before.length none
      (before.length + (ascii "/**" ++ text ++ ascii "*/ <" ++ type ++ ascii ">").length) =
      some (⟨before.length + 0, before.length + (3 + text.length) + 2⟩, before.length + (3 + text.length) + 2 + 1) := by
    rw [docComment, if_pos (by simp [ascii]; omega)]
    simp only [Option.getD_none, hslice, (lastIndex_iff _ (ascii "/**") 0 (by decide)).2 hs, (lastIndex_iff _ (ascii "*/") _ (by decide)).2 he, ge_iff_le, Nat.zero_le, if_true, hb]
    rfl
  rw [report.eq_def, hdoc]
  have h := Seg.applies_sorted [.keep before, .sub (ascii "/**" ++ text ++ ascii "*/ ") [], .keep (ascii "<" ++ type ++ ascii ">" ++ operand)]
  simp only [Seg.old, Seg.new, Seg.edits] at h
  have e1 : before ++ (ascii "/**" ++ text ++ ascii "*/ " ++ (ascii "<" ++ type ++ ascii ">" ++ operand ++ [])) =
      before ++ (ascii "/**" ++ text ++ ascii "*/ <" ++ type ++ ascii ">") ++ operand := by simp [ascii]
  rw [e1] at h
  have e2 : (0 + before.length + (ascii "/**" ++ text ++ ascii "*/ ").length) = before.length + (3 + text.length) + 2 + 1 := by simp [ascii]; omega
  rw [e2] at h
  simpa [List.append_assoc] using h

/-! ### Samples, and what can go wrong -/

/-- decoding of ASCII -/
def decodeAscii (s : Bytes) : List Nat := s.map (·.toNat)

/-- `const y = x /* a */ as /* b */ string;` -/
example : ∃ kept, Trimmed (ascii " /* a */ ") kept ∧ AppliesTo (ascii "const y = x" ++ ascii " /* a */ " ++ ascii "as" ++ ascii " /* b */ " ++ ascii "string" ++ ascii ";")
    (asFixes decodeAscii (ascii "const y = x" ++ ascii " /* a */ " ++ ascii "as" ++ ascii " /* b */ " ++ ascii "string" ++ ascii ";")
      (asAt (ascii "const y = x") (ascii " /* a */ ") (ascii "as") (ascii " /* b */ ") (ascii "string")))
    (ascii "const y = x" ++ kept ++ ascii " /* b */ " ++ ascii ";") := by
  obtain ⟨kept, h1, _, h3⟩ := C99_as decodeAscii (ascii "const y = x") (ascii " /* a */ ") (ascii "as") (ascii " /* b */ ") (ascii "string") (ascii ";")
  refine ⟨kept, h1, h3 fun h => ?_⟩
  have := h 0x2F (by decide)
  simp [WhiteRune] at this
example : Trimmed (ascii " /* a */ ") (ascii " /* a */") := ⟨ascii " ", by decide, by decide, by decide⟩

theorem as_sample (before mid type rest : Bytes) (hm : ∀ r ∈ decodeAscii mid, WhiteRune r) :
    AppliesTo (before ++ ascii " " ++ ascii "as" ++ mid ++ type ++ rest)
      (asFixes decodeAscii (before ++ ascii " " ++ ascii "as" ++ mid ++ type ++ rest) (asAt before (ascii " ") (ascii "as") mid type)) (before ++ rest) := by
  obtain ⟨kept, h1, h2, _⟩ := C99_as decodeAscii before (ascii " ") (ascii "as") mid type rest
  have : kept = [] := h1.unique ⟨ascii " ", rfl, by decide, by simp⟩
  subst this
  simpa using h2 hm

/-- C99 (finding). `x as T[]in y` becomes `xin y`: nothing separates the operand from what comes after the type. -/
theorem C99_glue : AppliesTo (ascii "x" ++ ascii " " ++ ascii "as" ++ ascii " " ++ ascii "T[]" ++ ascii "in y")
    (asFixes decodeAscii (ascii "x" ++ ascii " " ++ ascii "as" ++ ascii " " ++ ascii "T[]" ++ ascii "in y") (asAt (ascii "x") (ascii " ") (ascii "as") (ascii " ") (ascii "T[]")))
    (ascii "xin y") :=
  as_sample (ascii "x") (ascii " ") (ascii "T[]") (ascii "in y") (by decide)

/-- C99 (finding). `return<T>x` becomes `returnx`. -/
theorem C99_glue_angle : AppliesTo (ascii "return" ++ ascii "<T>" ++ ascii "x") (angleFixes ⟨⟨6, 7⟩, ⟨8, 9⟩⟩) (ascii "returnx") :=
  C99_angle (ascii "return") (ascii "<T>") (ascii "x") (ascii "<") (ascii ">") (ascii "T") rfl

/-- C99 (finding). `() => <T>{a: b}` becomes `() => {a: b}`: the object is now a block with a labelled statement. -/
theorem C99_block : AppliesTo (ascii "() => " ++ ascii "<T>" ++ ascii "{a: b}") (angleFixes ⟨⟨6, 7⟩, ⟨8, 9⟩⟩) (ascii "() => {a: b}") :=
  C99_angle (ascii "() => ") (ascii "<T>") (ascii "{a: b}") (ascii "<") (ascii ">") (ascii "T") rfl

/-- C99 (finding). `f((a, b) as any as T)` becomes `f(a, b)`: the parentheses around the innermost operand are lost, and one argument becomes two. -/
theorem C99_parentheses : AppliesTo (ascii "f(" ++ (ascii "(" ++ ascii "a, b" ++ ascii ") as any as T") ++ ascii ")")
    (doubleFixes (ascii "f(" ++ (ascii "(" ++ ascii "a, b" ++ ascii ") as any as T") ++ ascii ")") ⟨2, 2 + (ascii "(" ++ ascii "a, b" ++ ascii ") as any as T").length⟩ ⟨3, 7⟩ false false)
    (ascii "f(a, b)") :=
  C99_double (ascii "f(") (ascii "(") (ascii "a, b") (ascii ") as any as T") (ascii ")") false false

/-- C99 (finding). `x!in y` becomes `xin y`. -/
theorem C99_glue_bang : AppliesTo (ascii "x" ++ ascii "!" ++ ascii "in y") (bangFixes ⟨1, 2⟩) (ascii "xin y") := C99_bang (ascii "x") (ascii "!") (ascii "in y")

/-- `() => <T><any>{a: b}` keeps parentheses around the object. -/
example : AppliesTo (ascii "() => " ++ (ascii "<T><any>" ++ ascii "{a: b}" ++ []) ++ ascii ";")
    (doubleFixes (ascii "() => " ++ (ascii "<T><any>" ++ ascii "{a: b}" ++ []) ++ ascii ";") ⟨6, 6 + (ascii "<T><any>" ++ ascii "{a: b}" ++ []).length⟩ ⟨14, 20⟩ true true)
    (ascii "() => ({a: b});") :=
  C99_double (ascii "() => ") (ascii "<T><any>") (ascii "{a: b}") [] (ascii ";") true true

theorem lastAt_of (s pattern : Bytes) (i : Nat) (hp : pattern ≠ []) (h : lastIndex s pattern = some i) : LastAt s pattern i := (lastIndex_iff s pattern i hp).1 h

/-- `const y = /** the name */ <string>x;` becomes `const y = <string>x;` -/
example : AppliesTo (ascii "const y = " ++ (ascii "/**" ++ ascii " the name " ++ ascii "*/ <" ++ ascii "string" ++ ascii ">") ++ ascii "x;")
    (report decodeAscii (ascii "const y = " ++ (ascii "/**" ++ ascii " the name " ++ ascii "*/ <" ++ ascii "string" ++ ascii ">") ++ ascii "x;") 27 10 none 34
      (.angle ⟨⟨26, 27⟩, ⟨33, 34⟩⟩)).fixes (ascii "const y = <string>x;") :=
  C99_doc_instead decodeAscii (ascii "const y = ") (ascii " the name ") (ascii "string") (ascii "x;") _ (lastAt_of _ _ _ (by decide) (by decide)) (lastAt_of _ _ _ (by decide) (by decide))

/-- A cast in a JavaScript file: `(/** @type {string} */ x)` -/
example : (docComment (ascii "y = (/** @type {string} */ x)") 10 5 (some 4) 26).isSome = true := by decide +kernel
/-- without a comment -/
example : (docComment (ascii "y = (<string>x)") 6 5 (some 4) 13).isSome = false := by decide +kernel
example : Trimmed (ascii " ") [] ∧ ∀ b ∈ ascii " ", b ≠ 160 := ⟨⟨ascii " ", rfl, by decide, by simp⟩, by decide⟩

end Tsgolint.AssertionFix
