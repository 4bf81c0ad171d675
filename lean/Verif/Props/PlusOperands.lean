import Verif.Spec.PlusOperands
/-! # C58: operands of `+` -/
namespace Tsgolint.PlusOperands

theorem bad_iff (o : Options) (other : Ty) (p : Part) :
    Bad o other p ↔ (invalid o p.flags = true ∨ (if p.regexp then !(o.allowRegExp && !other.flags.numberLike)
      else !((o.allowAny || !p.flags.any) && !p.objects)) = true) := by
  obtain ⟨⟨a, b, c, d, e, f, g, h, i⟩, r, ob⟩ := p
  constructor
  · intro hb
    cases hb <;> simp_all [invalid]
  · intro hb
    rcases hb with hb | hb
    · simp only [invalid, Bool.or_eq_true, Bool.and_eq_true, Bool.not_eq_true'] at hb
      rcases hb with ((((hb | hb) | hb) | hb) | hb) | hb
      · exact .symbol hb
      · exact .never hb
      · exact .unknown hb
      · exact .any hb.2 hb.1
      · exact .boolean hb.2 hb.1
      · exact .nullish hb.2 hb.1
    · cases r with
      | true =>
        refine .regexp rfl ?_
        cases h1 : o.allowRegExp <;> cases h2 : other.flags.numberLike <;> simp [h1, h2] at hb ⊢
      | false =>
        cases ob with
        | true => exact .object rfl rfl
        | false =>
          cases h1 : o.allowAny <;> cases d <;> simp [h1] at hb
          exact .any rfl h1

theorem loop_found (o : Options) (other : Ty) (ps : List Part) (f : Flags) (b : Bool) :
    (loop o other f b ps).2 = true ↔ b = true ∨ ∃ p ∈ ps, Bad o other p := by
  induction ps generalizing f b with
  | nil => simp [loop]
  | cons p ps ih =>
    have hb := bad_iff o other p
    rw [loop]
    cases hi : invalid o p.flags with
    | true =>
      simp only [if_true, true_iff]
      exact .inr ⟨p, List.mem_cons_self .., hb.2 (.inl hi)⟩
    | false =>
      simp only [hi, Bool.false_eq_true, if_false, false_or] at hb ⊢
      cases hr : p.regexp <;> simp only [hr, if_true, if_false, Bool.false_eq_true] at hb ⊢
      · cases hx : ((o.allowAny || !p.flags.any) && !p.objects) with
        | true => simp [hx, ih, hb]
        | false => simp [hx, ih, hb]
      · cases hx : (o.allowRegExp && !other.flags.numberLike) with
        | true => simp [hx, ih, hb]
        | false => simp [hx, ih, hb]

theorem loop_flags (o : Options) (other : Ty) (ps : List Part) (f : Flags) (b : Bool) (h : (loop o other f b ps).2 = false) :
    ((loop o other f b ps).1.stringLike = true ↔ f.stringLike = true ∨ ∃ p ∈ ps, p.flags.stringLike = true) ∧
    ((loop o other f b ps).1.numberLike = true ↔ f.numberLike = true ∨ ∃ p ∈ ps, p.flags.numberLike = true) ∧
    ((loop o other f b ps).1.bigIntLike = true ↔ f.bigIntLike = true ∨ ∃ p ∈ ps, p.flags.bigIntLike = true) := by
  induction ps generalizing f b with
  | nil => simp [loop]
  | cons p ps ih =>
    rw [loop] at h ⊢
    have step : ∀ b', (loop o other (f.or p.flags) b' ps).2 = false →
      ((loop o other (f.or p.flags) b' ps).1.stringLike = true ↔ f.stringLike = true ∨ ∃ q ∈ p :: ps, q.flags.stringLike = true) ∧
      ((loop o other (f.or p.flags) b' ps).1.numberLike = true ↔ f.numberLike = true ∨ ∃ q ∈ p :: ps, q.flags.numberLike = true) ∧
      ((loop o other (f.or p.flags) b' ps).1.bigIntLike = true ↔ f.bigIntLike = true ∨ ∃ q ∈ p :: ps, q.flags.bigIntLike = true) := by
      intro b' hb'
      obtain ⟨h1, h2, h3⟩ := ih _ _ hb'
      refine ⟨h1.trans ?_, h2.trans ?_, h3.trans ?_⟩ <;> simp [Flags.or, or_assoc]
    split at h
    · cases h
    · next hi =>
      rw [if_neg hi]
      split at h
      · next hr =>
        rw [if_pos hr]
        split at h
        · next hx => rw [if_pos hx]; exact step _ h
        · next hx => rw [if_neg hx]; exact step _ h
      · next hr =>
        rw [if_neg hr]
        split at h
        · next hx => rw [if_pos hx]; exact step _ h
        · next hx => rw [if_neg hx]; exact step _ h

theorem checkInvalid_bad (o : Options) (t other : Ty) : (checkInvalid o t other).2 = true ↔ BadOperand o t other := by
  unfold checkInvalid BadOperand
  rw [loop_found]; simp

theorem checkInvalid_flags (o : Options) (t other : Ty) (h : ¬ BadOperand o t other) :
    ((checkInvalid o t other).1.stringLike = true ↔ HasString t) ∧ ((checkInvalid o t other).1.numberLike = true ↔ HasNumber t) ∧
    ((checkInvalid o t other).1.bigIntLike = true ↔ HasBigInt t) := by
  have h' : (checkInvalid o t other).2 = false := by
    cases hb : (checkInvalid o t other).2 with
    | false => rfl
    | true => exact absurd ((checkInvalid_bad ..).1 hb) h
  obtain ⟨h1, h2, h3⟩ := loop_flags o other t.parts {} false h'
  exact ⟨by simpa [checkInvalid, HasString] using h1, by simpa [checkInvalid, HasNumber] using h2, by simpa [checkInvalid, HasBigInt] using h3⟩

/-- C58 (exact).  Unless both operands are of the same simple type: the left (right) operand is reported exactly if it has a part that
is not allowed; if neither has, a mismatch is reported exactly if one may be a string and the other a number or bigint and this
is not allowed; the mixing of numbers and bigints exactly if one may be a number, the other a bigint; of the two mixtures the one found
first, reading the left operand first. -/
theorem C58_exact (o : Options) (l r : Ty) :
    (Report.invalidLeft ∈ check o l r ↔ ¬ SameSimple l r ∧ BadOperand o l r) ∧
    (Report.invalidRight ∈ check o l r ↔ ¬ SameSimple l r ∧ BadOperand o r l) ∧
    (Report.mismatched ∈ check o l r ↔ ¬ SameSimple l r ∧ ¬ BadOperand o l r ∧ ¬ BadOperand o r l ∧ o.allowNumberAndString = false ∧
      ((HasString l ∧ (HasNumber r ∨ HasBigInt r)) ∨ (HasString r ∧ (HasNumber l ∨ HasBigInt l) ∧ ¬(HasNumber l ∧ HasBigInt r)))) ∧
    (Report.bigintAndNumber ∈ check o l r ↔ ¬ SameSimple l r ∧ ¬ BadOperand o l r ∧ ¬ BadOperand o r l ∧
      ¬(o.allowNumberAndString = false ∧ HasString l ∧ (HasNumber r ∨ HasBigInt r)) ∧
      ((HasNumber l ∧ HasBigInt r) ∨ ((HasNumber r ∧ HasBigInt l) ∧ ¬(o.allowNumberAndString = false ∧ HasString r ∧ (HasNumber l ∨ HasBigInt l))))) := by
  have hsame : (l.id = r.id ∧ (l.flags.bigIntLike || l.flags.numberLike || l.flags.stringLike) = true) ↔ SameSimple l r := by
    unfold SameSimple
    cases l.flags.bigIntLike <;> cases l.flags.numberLike <;> cases l.flags.stringLike <;> simp
  by_cases hs : SameSimple l r
  · have hc : check o l r = [] := by unfold check; exact if_pos (hsame.2 hs)
    simp [hs, hc]
  · unfold check
    rw [if_neg (fun x => hs (hsame.1 x))]
    simp only [hs, not_false_eq_true, true_and]
    have hl := checkInvalid_bad o l r
    have hr := checkInvalid_bad o r l
    by_cases bl : BadOperand o l r <;> by_cases br : BadOperand o r l
    · simp [hl.2 bl, hr.2 br, bl, br]
    · have : (checkInvalid o r l).2 = false := by
        cases h : (checkInvalid o r l).2 with
        | false => rfl
        | true => exact absurd (hr.1 h) br
      simp [hl.2 bl, this, bl, br]
    · have : (checkInvalid o l r).2 = false := by
        cases h : (checkInvalid o l r).2 with
        | false => rfl
        | true => exact absurd (hl.1 h) bl
      simp [hr.2 br, this, bl, br]
    · have h1 : (checkInvalid o l r).2 = false := by
        cases h : (checkInvalid o l r).2 with
        | false => rfl
        | true => exact absurd (hl.1 h) bl
      have h2 : (checkInvalid o r l).2 = false := by
        cases h : (checkInvalid o r l).2 with
        | false => rfl
        | true => exact absurd (hr.1 h) br
      obtain ⟨a1, a2, a3⟩ := checkInvalid_flags o l r bl
      obtain ⟨b1, b2, b3⟩ := checkInvalid_flags o r l br
      simp only [h1, h2, Bool.or_self, Bool.false_eq_true, if_false, bl, br, not_false_eq_true, true_and]
      rw [← a1, ← a2, ← a3, ← b1, ← b2, ← b3]
      generalize (checkInvalid o l r).1 = fl
      generalize (checkInvalid o r l).1 = fr
      obtain ⟨a1, a2, a3, -, -, -, -, -, -⟩ := fl
      obtain ⟨b1, b2, b3, -, -, -, -, -, -⟩ := fr
      obtain ⟨-, -, -, -, an, -⟩ := o
      cases an <;> cases a1 <;> cases a2 <;> cases a3 <;> cases b1 <;> cases b2 <;> cases b3 <;> simp [mismatch]

/-- `1 + "a"` and `1n + 1`, `{} + 1` -/
example : check ⟨false, false, false, false, false, false⟩ ⟨0, { numberLike := true }, [⟨{ numberLike := true }, false, false⟩]⟩
    ⟨1, { stringLike := true }, [⟨{ stringLike := true }, false, false⟩]⟩ = [.mismatched] := by decide
example : check ⟨true, true, true, true, true, false⟩ ⟨2, { bigIntLike := true }, [⟨{ bigIntLike := true }, false, false⟩]⟩
    ⟨0, { numberLike := true }, [⟨{ numberLike := true }, false, false⟩]⟩ = [.bigintAndNumber] := by decide
example : check ⟨true, true, true, true, true, false⟩ ⟨3, {}, [⟨{}, false, true⟩]⟩
    ⟨0, { numberLike := true }, [⟨{ numberLike := true }, false, false⟩]⟩ = [.invalidLeft] := by decide

/-- C58 (soundness).  With nothing allowed, an addition that is not reported adds two numbers, two bigints or two strings, whatever
the run-time values. -/
theorem C58_sound (o : Options) (ho : o.allowAny = false ∧ o.allowBoolean = false ∧ o.allowNullish = false ∧ o.allowRegExp = false ∧
      o.allowNumberAndString = false)
    (l r : Ty) (hid : l.id = r.id → l = r) (hl : l.Simple) (h : check o l r = []) (a b : Kind) (ha : l.Has a) (hb : r.Has b) :
    a = b ∧ a ≠ .other := by
  obtain ⟨e1, e2, e3, e4⟩ := C58_exact o l r
  rw [h] at e1 e2 e3 e4
  simp only [List.not_mem_nil, false_iff] at e1 e2 e3 e4
  by_cases hs : SameSimple l r
  · obtain rfl := hid hs.1
    obtain ⟨p, hp, hk⟩ := hl hs.2
    obtain ⟨q, hq, hqa⟩ := ha
    obtain ⟨q', hq', hqb⟩ := hb
    rw [hp] at hq hq'
    simp only [List.mem_singleton] at hq hq'
    subst hq hq'
    rcases hk with hk | hk | hk <;> (rw [hk a hqa, hk b hqb]; exact ⟨rfl, by simp⟩)
  · simp only [hs, not_false_eq_true, true_and, ho.2.2.2.2] at e1 e2 e3 e4
    have kind : ∀ (t other : Ty), ¬ BadOperand o t other → ∀ k, t.Has k →
        (k = .string ∧ HasString t) ∨ (k = .number ∧ HasNumber t) ∨ (k = .bigint ∧ HasBigInt t) := by
      intro t other hbad k ⟨p, hp, hk⟩
      have n1 : p.flags.unknown = false := by
        cases hx : p.flags.unknown with
        | false => rfl
        | true => exact absurd ⟨p, hp, .unknown hx⟩ hbad
      have n2 : p.flags.any = false := by
        cases hx : p.flags.any with
        | false => rfl
        | true => exact absurd ⟨p, hp, .any hx ho.1⟩ hbad
      have n3 : p.regexp = false := by
        cases hx : p.regexp with
        | false => rfl
        | true => exact absurd ⟨p, hp, .regexp hx (.inl ho.2.2.2.1)⟩ hbad
      have n4 : p.objects = false := by
        cases hx : p.objects with
        | false => rfl
        | true => exact absurd ⟨p, hp, .object n3 hx⟩ hbad
      have n5 : p.flags.symbolLike = false := by
        cases hx : p.flags.symbolLike with
        | false => rfl
        | true => exact absurd ⟨p, hp, .symbol hx⟩ hbad
      have n6 : p.flags.booleanLike = false := by
        cases hx : p.flags.booleanLike with
        | false => rfl
        | true => exact absurd ⟨p, hp, .boolean hx ho.2.1⟩ hbad
      have n7 : p.flags.nullable = false := by
        cases hx : p.flags.nullable with
        | false => rfl
        | true => exact absurd ⟨p, hp, .nullish hx ho.2.2.1⟩ hbad
      cases k <;> simp [Part.Has, n1, n2, n3, n4, n5, n6, n7] at hk
      · exact .inl ⟨rfl, p, hp, hk⟩
      · exact .inr (.inl ⟨rfl, p, hp, hk⟩)
      · exact .inr (.inr ⟨rfl, p, hp, hk⟩)
    have bad1 := e1
    have bad2 := e2
    rcases kind l r bad1 a ha with ⟨rfl, h1⟩ | ⟨rfl, h1⟩ | ⟨rfl, h1⟩ <;>
      rcases kind r l bad2 b hb with ⟨rfl, h2⟩ | ⟨rfl, h2⟩ | ⟨rfl, h2⟩ <;>
      simp_all

/-- The hypotheses can be met: adding two strings of different types. -/
example : check ⟨false, false, false, false, false, false⟩ ⟨0, { stringLike := true }, [⟨{ stringLike := true }, false, false⟩]⟩
    ⟨1, {}, [⟨{ stringLike := true }, false, false⟩, ⟨{ stringLike := true }, false, false⟩]⟩ = [] := by decide

/-- C58 (symmetric).  Exchanging the operands, each is reported as before, and an addition is left alone exactly if the exchanged one
is. -/
theorem C58_symmetric (o : Options) (l r : Ty) (hid : l.id = r.id → l = r) :
    (Report.invalidLeft ∈ check o l r ↔ Report.invalidRight ∈ check o r l) ∧ (check o l r = [] ↔ check o r l = []) := by
  have hsame : SameSimple l r ↔ SameSimple r l := by
    constructor
    · rintro ⟨h, h'⟩; obtain rfl := hid h; exact ⟨rfl, h'⟩
    · rintro ⟨h, h'⟩; obtain rfl := hid h.symm; exact ⟨rfl, h'⟩
  obtain ⟨a1, a2, a3, a4⟩ := C58_exact o l r
  obtain ⟨b1, b2, b3, b4⟩ := C58_exact o r l
  refine ⟨by rw [a1, b2, hsame], ?_⟩
  have nil : ∀ l r, check o l r = [] ↔ Report.invalidLeft ∉ check o l r ∧ Report.invalidRight ∉ check o l r ∧
      Report.mismatched ∉ check o l r ∧ Report.bigintAndNumber ∉ check o l r := by
    intro l r
    constructor
    · intro h; simp [h]
    · rintro ⟨h1, h2, h3, h4⟩
      apply List.eq_nil_iff_forall_not_mem.2
      intro x; cases x <;> assumption
  rw [nil l r, nil r l, a1, a2, a3, a4, b1, b2, b3, b4, hsame]
  by_cases hs : SameSimple r l
  · simp [hs]
  · by_cases x1 : BadOperand o l r <;> by_cases x2 : BadOperand o r l <;> simp [hs, x1, x2]
    by_cases c1 : HasString l <;> by_cases c2 : HasNumber l <;> by_cases c3 : HasBigInt l <;>
    by_cases d1 : HasString r <;> by_cases d2 : HasNumber r <;> by_cases d3 : HasBigInt r <;>
    cases o.allowNumberAndString <;> simp [c1, c2, c3, d1, d2, d3]

/-- C58 (compound assignments).  `+=` is treated like `+` unless the option says otherwise; other operators are not looked at. -/
theorem C58_operators (o : Options) (l r : Ty) :
    run o .plus l r = check o l r ∧ run o .plusEquals l r = (if o.skipCompoundAssignments then [] else check o l r) ∧
    run o .other l r = [] := by
  cases h : o.skipCompoundAssignments <;> simp [run, h]

end Tsgolint.PlusOperands
