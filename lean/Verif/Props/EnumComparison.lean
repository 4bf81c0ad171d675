import Verif.Spec.EnumComparison
import Verif.Props.StringLiteral
/-! # C60: no-unsafe-enum-comparison -/
namespace Tsgolint.EnumComparison

theorem primitiveLike_iff (f : Prim → Bool) (t : Ty) : primitiveLike f t = true ↔ ∀ p ∈ t, ∃ i ∈ p.inter, f i = true := by
  simp [primitiveLike]

theorem violatesLoop_iff (n s : Bool) (ps : List Part) :
    violatesLoop n s ps = true ↔ ∃ p ∈ ps, p.enumLike = true ∧ ((p.numberLiteral = true ∧ n = true) ∨ (p.numberLiteral = false ∧ s = true)) := by
  induction ps with
  | nil => simp [violatesLoop]
  | cons p ps ih =>
    rw [violatesLoop]
    cases h1 : p.enumLike <;> cases h2 : p.numberLiteral <;> cases n <;> cases s <;> simp [enumValueType, h1, h2] at ih ⊢ <;> simp [ih]

theorem typeViolates_iff (a b : Ty) : typeViolates a b = true ↔ Violates a b := by
  have hn := primitiveLike_iff (·.numberLike) b
  have hs := primitiveLike_iff (·.stringLike) b
  unfold typeViolates Violates AllNumbers AllStrings
  simp only [← hn, ← hs]
  rw [← violatesLoop_iff]
  cases h1 : primitiveLike (·.numberLike) b <;> cases h2 : primitiveLike (·.stringLike) b <;> simp
  rw [← Bool.not_eq_true, violatesLoop_iff]
  simp

theorem shares_iff (a b : List Part) : shares a b = true ↔ SharePart a b := by
  unfold SharePart
  induction a with
  | nil => simp [shares]
  | cons p ps ih =>
    rw [shares]
    by_cases h : (b.any fun q => decide (q.id = p.id)) = true
    · rw [if_pos h]
      simp only [List.any_eq_true, decide_eq_true_eq] at h
      obtain ⟨q, hq, he⟩ := h
      simp only [true_iff]
      exact ⟨p, List.mem_cons_self .., q, hq, he.symm⟩
    · rw [if_neg h, ih]
      simp only [List.any_eq_true, decide_eq_true_eq, not_exists, not_and] at h
      constructor
      · rintro ⟨p', hp', h'⟩; exact ⟨p', List.mem_cons_of_mem _ hp', h'⟩
      · rintro ⟨p', hp', q, hq, h'⟩
        rcases List.mem_cons.1 hp' with rfl | hp'
        · exact absurd h'.symm (h q hq)
        · exact ⟨p', hp', q, hq, h'⟩

/-- C60 (exact).  A comparison is reported exactly if a side may be an enum member, the sides have neither an enum nor a part in common, and one
side may be a member of a number (string) enum while the other is always a number (string). -/
theorem C60_exact (l r : Ty) :
    mismatched l r = true ↔
      (MentionsEnum l ∨ MentionsEnum r) ∧ ¬ ShareEnum l r ∧ ¬ SharePart l r ∧ (Violates l r ∨ Violates r l) := by
  have he : ∀ t : Ty, (enumTypes t).isEmpty = true ↔ ¬ MentionsEnum t := by
    intro t; simp [enumTypes, MentionsEnum]
  have hs : (enumTypes l).any (enumTypes r).contains = true ↔ ShareEnum l r := by
    simp only [List.any_eq_true, List.contains_iff_mem, enumTypes, List.mem_map, List.mem_filter, ShareEnum]
    constructor
    · rintro ⟨_, ⟨p, ⟨hp, hpe⟩, rfl⟩, q, ⟨hq, hqe⟩, h⟩
      exact ⟨p, hp, q, hq, hpe, hqe, h.symm⟩
    · rintro ⟨p, hp, q, hq, hpe, hqe, h⟩
      exact ⟨_, ⟨p, ⟨hp, hpe⟩, rfl⟩, q, ⟨hq, hqe⟩, h.symm⟩
  unfold mismatched
  simp only
  by_cases h1 : ((enumTypes l).isEmpty && (enumTypes r).isEmpty) = true
  · rw [if_pos h1]
    simp only [Bool.and_eq_true, he] at h1
    simp [h1.1, h1.2]
  · rw [if_neg h1]
    have h1' : MentionsEnum l ∨ MentionsEnum r := by
      simp only [Bool.and_eq_true, he] at h1
      by_cases hl : MentionsEnum l
      · exact .inl hl
      · by_cases hr : MentionsEnum r
        · exact .inr hr
        · exact absurd ⟨hl, hr⟩ h1
    by_cases h2 : (enumTypes l).any (enumTypes r).contains = true
    · rw [if_pos h2]; simp [hs.1 h2]
    · rw [if_neg h2]
      have h2' : ¬ ShareEnum l r := fun h => h2 (hs.2 h)
      by_cases h3 : shares l r = true
      · rw [if_pos h3]; simp [(shares_iff l r).1 h3]
      · rw [if_neg h3]
        have h3' : ¬ SharePart l r := fun h => h3 ((shares_iff l r).2 h)
        simp [h1', h2', h3', typeViolates_iff]

/-- Parts of `Fruit.Apple` (a number), `0` and `Vegetable.Beet`. -/
def apple : Part := ⟨0, true, true, true, 100, [⟨true, false⟩]⟩
def zero : Part := ⟨1, false, false, true, 0, [⟨true, false⟩]⟩
def beet : Part := ⟨2, true, true, true, 200, [⟨true, false⟩]⟩
def undef : Part := ⟨3, false, false, false, 0, [⟨false, false⟩]⟩

example : mismatched [apple] [zero] = true ∧ mismatched [apple] [beet] = true ∧ mismatched [apple, zero] [zero] = false ∧
    mismatched [apple] [undef] = false ∧ mismatched [apple] [apple] = false := by decide

/-- C60 (symmetric).  The order of the operands does not matter. -/
theorem C60_symmetric (l r : Ty) : mismatched l r = mismatched r l := by
  have e1 : ShareEnum l r ↔ ShareEnum r l := by
    constructor <;> rintro ⟨p, hp, q, hq, h1, h2, h3⟩ <;> exact ⟨q, hq, p, hp, h2, h1, h3.symm⟩
  have e2 : SharePart l r ↔ SharePart r l := by
    constructor <;> rintro ⟨p, hp, q, hq, h⟩ <;> exact ⟨q, hq, p, hp, h.symm⟩
  rw [Bool.eq_iff_iff, C60_exact, C60_exact, e1, e2, or_comm (a := MentionsEnum l), or_comm (a := Violates l r)]

/-- C60 (operators).  Exactly comparisons are looked at. -/
theorem C60_operators (op : Op) (l r : Ty) : runBinary op l r = true ↔ op ≠ .other ∧ mismatched l r = true := by
  cases op <;> simp [runBinary, compares]

/-- C60 (static values).  The value computed for an operand is the value the expression has, and there is only one. -/
theorem C60_static (ν : Num) (e : Expr) (v : Value ν) (h : staticValue ν e = some v) : Eval ν e v ∧ ∀ w, Eval ν e w → w = v := by
  induction e generalizing v with
  | paren e ih =>
    obtain ⟨h1, h2⟩ := ih v h
    exact ⟨.paren h1, fun w hw => by cases hw with | paren hw => exact h2 w hw⟩
  | string t => cases h; exact ⟨.string, fun w hw => by cases hw; rfl⟩
  | template t => cases h; exact ⟨.template, fun w hw => by cases hw; rfl⟩
  | numeric t => cases h; exact ⟨.numeric, fun w hw => by cases hw; rfl⟩
  | unary op e ih =>
    rw [staticValue] at h
    cases hs : staticValue ν e with
    | none => simp [hs] at h
    | some u =>
      cases u with
      | str s => simp [hs] at h
      | num n =>
        obtain ⟨h1, h2⟩ := ih _ hs
        cases op with
        | other => simp [hs] at h
        | minus =>
          simp only [hs, Option.some.injEq] at h
          subst h
          refine ⟨.minus h1, fun w hw => ?_⟩
          cases hw with
          | minus hw => cases h2 _ hw; rfl
        | plus =>
          simp only [hs, Option.some.injEq] at h
          subst h
          refine ⟨.plus h1, fun w hw => ?_⟩
          cases hw with
          | plus hw => exact h2 _ hw
  | assertion e ih =>
    obtain ⟨h1, h2⟩ := ih v h
    exact ⟨.assertion h1, fun w hw => by cases hw with | assertion hw => exact h2 w hw⟩
  | binary op l r ihl ihr =>
    rw [staticValue] at h
    cases op with
    | other => simp at h
    | plus =>
      simp only [ne_eq, not_true_eq_false, if_false] at h
      cases hl : staticValue ν l with
      | none => simp [hl] at h
      | some a =>
        cases hr : staticValue ν r with
        | none => simp [hl, hr] at h
        | some b =>
          simp only [hl, hr, Option.some.injEq] at h
          subst h
          obtain ⟨a1, a2⟩ := ihl a hl
          obtain ⟨b1, b2⟩ := ihr b hr
          constructor
          · cases a with
            | str a => cases b with
              | str b => exact .concat a1 b1
              | num b => exact .concatLeft a1 b1
            | num a => cases b with
              | str b => exact .concatRight a1 b1
              | num b => exact .add a1 b1
          · intro w hw
            cases hw with
            | add x y => cases a2 _ x; cases b2 _ y; rfl
            | concat x y => cases a2 _ x; cases b2 _ y; rfl
            | concatLeft x y => cases a2 _ x; cases b2 _ y; rfl
            | concatRight x y => cases a2 _ x; cases b2 _ y; rfl
  | other => cases h

/-- Integers, for examples. -/
def ints : Num := ⟨Int, (-·), (· + ·), fun a b => decide (a = b), fun n => (toString n).toList, fun s => (String.ofList s).toInt?.getD 0⟩

example : (match staticValue ints (.binary .plus (.string ['a']) (.paren (.string ['b']))) with | some (.str s) => s | _ => []) = ['a', 'b'] := by
  decide

theorem matchesValue_iff {ν : Num} (a : Option (Value ν)) (v : Value ν) : matchesValue a v = true ↔ ∃ u, a = some u ∧ StrictEq u v := by
  cases a with
  | none => simp [matchesValue]
  | some u =>
    simp only [Option.some.injEq]
    cases u with
    | str a =>
      cases v with
      | str b =>
        simp only [matchesValue, decide_eq_true_eq]
        constructor
        · rintro rfl; exact ⟨_, rfl, .str⟩
        · rintro ⟨u, hu, h⟩; subst hu; cases h; rfl
      | num b =>
        simp only [matchesValue, Bool.false_eq_true, false_iff]
        rintro ⟨u, hu, h⟩; subst hu; cases h
    | num a =>
      cases v with
      | str b =>
        simp only [matchesValue, Bool.false_eq_true, false_iff]
        rintro ⟨u, hu, h⟩; subst hu; cases h
      | num b =>
        simp only [matchesValue]
        constructor
        · intro h; exact ⟨_, rfl, .num h⟩
        · rintro ⟨u, hu, h⟩; subst hu; cases h; assumption

/-- A member that can be written instead of the value `v`, and its text: it has this value, its name can be written, and so can its enum —
as in the other operand, if that accesses a member of the enum, and else by its name. -/
def Candidate {ν : Num} (isIdent : List Char → Bool) (access fromType : Nat → List Char) (v : Value ν) (m : Member ν) (text : List Char) : Prop :=
  (∃ u, m.value = some u ∧ StrictEq u v) ∧ suffixText isIdent m.name ≠ [] ∧
    ∃ q, q ≠ [] ∧ (q = access m.enum ∨ (access m.enum = [] ∧ q = fromType m.enum)) ∧ text = q ++ suffixText isIdent m.name

/-- C60 (suggestion).  The text suggested is that of the first literal that can be written; there is no suggestion exactly if there is none. -/
theorem C60_key {ν : Num} (isIdent : List Char → Bool) (access fromType : Nat → List Char) (ms : List (Option (Member ν))) (v : Value ν) :
    (∀ text, text ≠ [] → (enumKey isIdent access fromType ms v = text ↔
      ∃ pre m post, ms = pre ++ some m :: post ∧ Candidate isIdent access fromType v m text ∧
        ∀ m', some m' ∈ pre → ∀ t, ¬ Candidate isIdent access fromType v m' t)) ∧
    (enumKey isIdent access fromType ms v = [] ↔ ∀ m, some m ∈ ms → ∀ t, ¬ Candidate isIdent access fromType v m t) := by
  induction ms with
  | nil =>
    constructor
    · intro text ht
      simp only [enumKey, List.nil_eq_append_iff, reduceCtorEq, and_false, false_and, exists_false, iff_false]
      exact fun h => ht h.symm
    · simp [enumKey]
  | cons m ms ih =>
    obtain ⟨ih1, ih2⟩ := ih
    -- either the first literal is a candidate, or the rest decides
    have key : (∃ m0 t, m = some m0 ∧ Candidate isIdent access fromType v m0 t ∧ (∀ t', Candidate isIdent access fromType v m0 t' → t' = t) ∧
          t ≠ [] ∧ enumKey isIdent access fromType (m :: ms) v = t) ∨
        ((∀ m0, m = some m0 → ∀ t, ¬ Candidate isIdent access fromType v m0 t) ∧
          enumKey isIdent access fromType (m :: ms) v = enumKey isIdent access fromType ms v) := by
      cases m with
      | none => right; exact ⟨by simp, by rw [enumKey]⟩
      | some m0 =>
        rw [enumKey]
        simp only
        by_cases hv : matchesValue m0.value v = true
        · by_cases hs : suffixText isIdent m0.name = []
          · right
            simp only [hv, hs, Bool.not_true, Bool.false_eq_true, if_false, if_true, and_true]
            rintro m1 hm t ⟨-, h, -⟩
            cases hm; exact h hs
          · by_cases hq : (if access m0.enum = [] then fromType m0.enum else access m0.enum) = []
            · right
              simp only [hv, hs, hq, Bool.not_true, Bool.false_eq_true, if_false, if_true, and_true]
              rintro m1 hm t ⟨-, -, q, hq0, hq1, -⟩
              cases hm
              rcases hq1 with rfl | ⟨ha, rfl⟩
              · rw [if_neg hq0] at hq; exact hq0 hq
              · rw [if_pos ha] at hq; exact hq0 hq
            · left
              have hcand : ∀ t, Candidate isIdent access fromType v m0 t ↔
                  t = (if access m0.enum = [] then fromType m0.enum else access m0.enum) ++ suffixText isIdent m0.name := by
                intro t
                constructor
                · rintro ⟨-, -, q, hq0, hq1, rfl⟩
                  rcases hq1 with rfl | ⟨ha, rfl⟩
                  · rw [if_neg hq0]
                  · rw [if_pos ha]
                · rintro rfl
                  refine ⟨(matchesValue_iff _ _).1 hv, hs, _, hq, ?_, rfl⟩
                  by_cases ha : access m0.enum = []
                  · rw [if_pos ha]; exact .inr ⟨ha, rfl⟩
                  · rw [if_neg ha]; exact .inl rfl
              refine ⟨m0, _, rfl, (hcand _).2 rfl, fun t' ht' => (hcand t').1 ht', ?_, ?_⟩
              · intro h; exact hs (List.append_eq_nil_iff.1 h).2
              · simp only [hv, hs, hq, Bool.not_true, Bool.false_eq_true, if_false]
        · right
          have hv' : matchesValue m0.value v = false := by simpa using hv
          simp only [hv', Bool.not_false, if_true, and_true]
          rintro m1 hm t ⟨h, -⟩
          cases hm; exact hv ((matchesValue_iff _ _).2 h)
    rcases key with ⟨m0, t, rfl, hc, huniq, hne, he⟩ | ⟨hno, he⟩
    · rw [he]
      constructor
      · intro text ht
        constructor
        · rintro rfl; exact ⟨[], m0, ms, rfl, hc, by simp⟩
        · rintro ⟨pre, m', post, hms, hc', hn⟩
          cases pre with
          | nil =>
            simp only [List.nil_append, List.cons.injEq, Option.some.injEq] at hms
            obtain ⟨rfl, -⟩ := hms
            exact (huniq _ hc').symm
          | cons x xs =>
            simp only [List.cons_append, List.cons.injEq] at hms
            exact absurd hc (hn m0 (by simp [hms.1]) t)
      · constructor
        · intro h; exact absurd h hne
        · intro h; exact absurd hc (h m0 (by simp) t)
    · rw [he]
      constructor
      · intro text ht
        rw [ih1 text ht]
        constructor
        · rintro ⟨pre, m', post, rfl, hc', hn⟩
          refine ⟨m :: pre, m', post, rfl, hc', ?_⟩
          intro m'' hm'' t
          rcases List.mem_cons.1 hm'' with h | h
          · exact hno m'' h.symm t
          · exact hn m'' h t
        · rintro ⟨pre, m', post, hms, hc', hn⟩
          cases pre with
          | nil =>
            simp only [List.nil_append, List.cons.injEq] at hms
            exact absurd hc' (hno m' hms.1 text)
          | cons x xs =>
            simp only [List.cons_append, List.cons.injEq] at hms
            exact ⟨xs, m', post, hms.2, hc', fun m'' h => hn m'' (List.mem_cons_of_mem _ h)⟩
      · rw [ih2]
        constructor
        · intro h m' hm' t
          rcases List.mem_cons.1 hm' with h' | h'
          · exact hno m' h'.symm t
          · exact h m' h' t
        · intro h m' hm'; exact h m' (List.mem_cons_of_mem _ hm')

/-- C60 (same result).  Whatever is suggested, the operand replaced has a static value, and the member written for it has an equal one. -/
theorem C60_suggest {ν : Num} (isIdent : List Char → Bool) (access fromType : Side → Nat → List Char) (ms : Side → List (Option (Member ν)))
    (left right : Expr) (side : Side) (text : List Char)
    (h : suggest left right (fun s v => enumKey isIdent (access s) (fromType s) (ms s) v) = some (side, text)) :
    ∃ v other m u, Eval ν (if side = .right then right else left) v ∧ other ≠ side ∧ some m ∈ ms other ∧ m.value = some u ∧ StrictEq u v ∧
      Candidate isIdent (access other) (fromType other) v m text := by
  have fin : ∀ (e : Expr) (v : Value ν) (other : Side), staticValue ν e = some v →
      enumKey isIdent (access other) (fromType other) (ms other) v ≠ [] →
      ∃ m u, Eval ν e v ∧ some m ∈ ms other ∧ m.value = some u ∧ StrictEq u v ∧
        Candidate isIdent (access other) (fromType other) v m (enumKey isIdent (access other) (fromType other) (ms other) v) := by
    intro e v other hv hne
    obtain ⟨pre, m, post, hms, hc, -⟩ := ((C60_key isIdent (access other) (fromType other) (ms other) v).1 _ hne).1 rfl
    obtain ⟨u, hu, he⟩ := hc.1
    exact ⟨m, u, (C60_static ν e v hv).1, by simp [hms], hu, he, hc⟩
  have tl : ∀ s t, (match staticValue ν left with
      | some v => if enumKey isIdent (access .right) (fromType .right) (ms .right) v ≠ [] then
          some (Side.left, enumKey isIdent (access .right) (fromType .right) (ms .right) v) else none
      | none => none) = some (s, t) →
      ∃ v other m u, Eval ν (if s = .right then right else left) v ∧ other ≠ s ∧ some m ∈ ms other ∧ m.value = some u ∧ StrictEq u v ∧
        Candidate isIdent (access other) (fromType other) v m t := by
    intro s t h
    cases hl : staticValue ν left with
    | none => simp [hl] at h
    | some v =>
      simp only [hl] at h
      split at h
      · next hk =>
        cases h
        obtain ⟨m, u, h1, h2⟩ := fin left v .right hl hk
        exact ⟨v, .right, m, u, by simpa using h1, by simp, h2⟩
      · cases h
  unfold suggest at h
  cases hr : staticValue ν right with
  | none =>
    simp only [hr] at h
    exact tl side text h
  | some v =>
    simp only [hr] at h
    split at h
    · next hk =>
      cases h
      obtain ⟨m, u, h1, h2⟩ := fin right v .left hr hk
      exact ⟨v, .left, m, u, by simpa using h1, by simp, h2⟩
    · exact tl side text h

/-- `fruit === 'apple'` becomes `fruit === Fruit.Apple`. -/
example : suggest (ν := ints) .other (.string "apple".toList)
    (fun s v => enumKey (fun _ => true) (fun _ => []) (fun _ => "Fruit".toList)
      (if s = .left then [some ⟨some (.str "apple".toList), .identifier "Apple".toList, 0⟩] else []) v) = some (.right, "Fruit.Apple".toList) := by
  decide +kernel

/-- C60 (names).  What is written after the enum denotes the member: a dot and an identifier, or a string literal in brackets that denotes
the member's name. -/
theorem C60_suffix (isIdent : List Char → Bool) (t : List Char) (name : MemberName) (h : name = .string t ∨ name = .template t) :
    (isIdent t = true ∧ suffixText isIdent name = '.' :: t) ∨
    (∃ lit, suffixText isIdent name = '[' :: lit ++ [']'] ∧ ∀ rest, StringLiteral.readLiteral (lit ++ rest) = some (t.flatMap StringLiteral.utf16, rest)) := by
  rcases h with rfl | rfl <;> (rw [suffixText]; cases hi : isIdent t)
  · exact .inr ⟨StringLiteral.quote t, by simp, StringLiteral.C34_denotes t⟩
  · exact .inl ⟨rfl, by simp⟩
  · exact .inr ⟨StringLiteral.quote t, by simp, StringLiteral.C34_denotes t⟩
  · exact .inl ⟨rfl, by simp⟩

theorem splitDots_ne (s : List Char) : splitDots s ≠ [] := by
  cases s with
  | nil => simp [splitDots]
  | cons c s =>
    rw [splitDots]
    split
    · simp
    · split <;> simp

theorem splitDots_iff (s : List Char) (ps : List (List Char)) :
    splitDots s = ps ↔ ps ≠ [] ∧ (∀ p ∈ ps, '.' ∉ p) ∧ s = List.intercalate ['.'] ps := by
  induction s generalizing ps with
  | nil =>
    rw [splitDots]
    constructor
    · rintro rfl; simp [List.intercalate]
    · rintro ⟨h1, h2, h3⟩
      cases ps with
      | nil => exact absurd rfl h1
      | cons p ps =>
        cases ps with
        | nil => simpa [List.intercalate] using h3
        | cons q qs => simp [List.intercalate, List.intersperse] at h3
  | cons c s ih =>
    rw [splitDots]
    by_cases hc : c = '.'
    · rw [if_pos hc]
      subst hc
      obtain ⟨i1, i2, i3⟩ := (ih (splitDots s)).1 rfl
      constructor
      · rintro rfl
        refine ⟨by simp, by simpa using i2, ?_⟩
        cases hs : splitDots s with
        | nil => exact absurd hs (splitDots_ne s)
        | cons q qs =>
          rw [hs] at i3
          simpa [List.intercalate, List.intersperse] using i3
      · rintro ⟨h1, h2, h3⟩
        cases ps with
        | nil => exact absurd rfl h1
        | cons p ps =>
          cases p with
          | cons x xs =>
            exfalso
            have : x = '.' := by
              cases ps <;> simp [List.intercalate, List.intersperse] at h3 <;> exact h3.1.symm
            exact h2 _ (List.mem_cons_self ..) (by simp [this])
          | nil =>
            cases ps with
            | nil => simp [List.intercalate] at h3
            | cons q qs =>
              have h3' : s = List.intercalate ['.'] (q :: qs) := by
                simpa [List.intercalate, List.intersperse] using h3
              rw [(ih (q :: qs)).2 ⟨by simp, fun p hp => h2 p (List.mem_cons_of_mem _ hp), h3'⟩]
    · rw [if_neg hc]
      obtain ⟨i1, i2, i3⟩ := (ih (splitDots s)).1 rfl
      cases hs : splitDots s with
      | nil => exact absurd hs (splitDots_ne s)
      | cons q qs =>
        simp only
        rw [hs] at i2 i3
        constructor
        · rintro rfl
          refine ⟨by simp, ?_, ?_⟩
          · intro p hp
            rcases List.mem_cons.1 hp with rfl | hp
            · simp only [List.mem_cons, not_or]
              exact ⟨fun h => hc h.symm, i2 q (List.mem_cons_self ..)⟩
            · exact i2 p (List.mem_cons_of_mem _ hp)
          · cases qs <;> simpa [List.intercalate, List.intersperse] using i3
        · rintro ⟨h1, h2, h3⟩
          cases ps with
          | nil => exact absurd rfl h1
          | cons p ps =>
            cases p with
            | nil =>
              exfalso
              cases ps with
              | nil => simp [List.intercalate] at h3
              | cons a as => simp [List.intercalate, List.intersperse] at h3; exact hc h3.1
            | cons x xs =>
              have hx : c = x ∧ s = List.intercalate ['.'] (xs :: ps) := by
                cases ps <;> simpa [List.intercalate, List.intersperse] using h3
              obtain ⟨rfl, hx⟩ := hx
              have := (ih (xs :: ps)).2 ⟨by simp, by
                intro p hp
                rcases List.mem_cons.1 hp with rfl | hp
                · have := h2 _ (List.mem_cons_self ..)
                  simp only [List.mem_cons, not_or] at this
                  exact this.2
                · exact h2 p (List.mem_cons_of_mem _ hp), hx⟩
              rw [this] at hs
              cases hs; rfl

/-- C60 (enum names).  A name is used for the enum exactly if it consists of identifiers joined by dots and, if it is a single identifier, means
this enum where it is written.  (A name with dots is not looked up: a hazard.) -/
theorem C60_qualifier (isIdent : List Char → Bool) (typeText q : List Char) (scope : List InScope) (hq : q ≠ []) :
    qualifierFromType isIdent typeText scope = q ↔
      q = typeText ∧ (∃ ps, ps ≠ [] ∧ (∀ p ∈ ps, '.' ∉ p ∧ isIdent p = true) ∧ typeText = List.intercalate ['.'] ps) ∧
      ('.' ∈ typeText ∨ ∃ s ∈ scope, s.name = typeText ∧ s.isEnum = true) := by
  have hqual : isQualified isIdent typeText = true ↔
      ∃ ps, ps ≠ [] ∧ (∀ p ∈ ps, '.' ∉ p ∧ isIdent p = true) ∧ typeText = List.intercalate ['.'] ps := by
    unfold isQualified
    constructor
    · intro h
      obtain ⟨h1, h2, h3⟩ := (splitDots_iff typeText _).1 rfl
      exact ⟨_, h1, fun p hp => ⟨h2 p hp, List.all_eq_true.1 h p hp⟩, h3⟩
    · rintro ⟨ps, h1, h2, h3⟩
      rw [(splitDots_iff typeText ps).2 ⟨h1, fun p hp => (h2 p hp).1, h3⟩]
      exact List.all_eq_true.2 fun p hp => (h2 p hp).2
  rw [← hqual]
  unfold qualifierFromType
  cases h1 : isQualified isIdent typeText with
  | false => simp [hq.symm]
  | true =>
    simp only [Bool.not_true, Bool.false_eq_true, if_false, List.contains_iff_mem, true_and]
    by_cases h2 : '.' ∈ typeText
    · simp [h2]; exact eq_comm
    · simp only [h2, if_false, false_or, List.any_eq_true, Bool.and_eq_true, decide_eq_true_eq]
      by_cases h3 : ∃ s ∈ scope, s.name = typeText ∧ s.isEnum = true
      · simp only [h3, if_true, and_true]; exact eq_comm
      · simp only [h3, if_false, and_false, iff_false]; exact fun h => hq h.symm

/-- The hazard: a dotted name is used even if nothing of it is in scope. -/
theorem C60_hazard_dotted : qualifierFromType (fun _ => true) "ns.Fruit".toList [] = "ns.Fruit".toList ∧
    qualifierFromType (fun _ => true) "Fruit".toList [] = [] := by decide +kernel

end Tsgolint.EnumComparison
