import Verif.Spec.MixedEnums
/-! # C46: mixed enums -/
namespace Tsgolint.MixedEnums

theorem isString_iff (m : Member) : IsString m ↔ memberType m = .string := by
  unfold IsString memberType
  match h : m.init with
  | none => simp
  | some (.numeric, n) => simp
  | some (.string, n) => simp
  | some (.other true b, n) => simp
  | some (.other false true, n) => simp
  | some (.other false false, n) => simp

theorem isNumber_iff (m : Member) : IsNumber m ↔ memberType m = .number := by
  unfold IsNumber memberType
  match h : m.init with
  | none => simp
  | some (.numeric, n) => simp
  | some (.string, n) => simp
  | some (.other true b, n) => simp
  | some (.other false true, n) => simp
  | some (.other false false, n) => simp

theorem mixed_iff (a b : Member) : Mixed a b ↔ memberType a ≠ .unknown ∧ memberType b ≠ .unknown ∧ memberType b ≠ memberType a := by
  rw [Mixed, isString_iff, isString_iff, isNumber_iff, isNumber_iff]
  cases memberType a <;> cases memberType b <;> simp

theorem alike_iff (a b : Member) : Alike a b ↔ memberType b ≠ .unknown ∧ memberType b = memberType a := by
  rw [Alike, isString_iff, isString_iff, isNumber_iff, isNumber_iff]
  cases memberType a <;> cases memberType b <;> simp

theorem loop_iff (f : Member) (hf : memberType f ≠ .unknown) (ms : List Member) (x : Nat) :
    loop (memberType f) ms = some x ↔ ∃ pre m post, ms = pre ++ m :: post ∧ (∀ a ∈ pre, Alike f a) ∧ Mixed f m ∧ x = place m := by
  induction ms with
  | nil => simp [loop]
  | cons a ms ih =>
    rw [loop]
    by_cases hu : memberType a = .unknown
    · rw [if_pos hu]
      simp only [reduceCtorEq, false_iff]
      rintro ⟨pre, m, post, he, hp, hm, _⟩
      cases pre with
      | nil =>
        simp only [List.nil_append, List.cons.injEq] at he
        rw [mixed_iff, ← he.1] at hm
        exact hm.2.1 hu
      | cons b pre =>
        simp only [List.cons_append, List.cons.injEq] at he
        have := hp b (by simp)
        rw [alike_iff, ← he.1] at this
        exact this.1 hu
    · rw [if_neg hu]
      by_cases hd : memberType a ≠ memberType f
      · rw [if_pos hd]
        simp only [Option.some.injEq]
        constructor
        · intro hx
          exact ⟨[], a, ms, rfl, by simp, (mixed_iff _ _).2 ⟨hf, hu, hd⟩, by rw [← hx]; rfl⟩
        · rintro ⟨pre, m, post, he, hp, hm, hx⟩
          cases pre with
          | nil => simp only [List.nil_append, List.cons.injEq] at he; rw [hx, ← he.1]; rfl
          | cons b pre =>
            simp only [List.cons_append, List.cons.injEq] at he
            have := hp b (by simp)
            rw [alike_iff, ← he.1] at this
            exact absurd this.2 hd
      · rw [if_neg hd, ih]
        simp only [ne_eq, Decidable.not_not] at hd
        constructor
        · rintro ⟨pre, m, post, he, hp, hm, hx⟩
          refine ⟨a :: pre, m, post, by simp [he], ?_, hm, hx⟩
          intro b hb
          rcases List.mem_cons.1 hb with rfl | hb
          · exact (alike_iff _ _).2 ⟨hu, hd⟩
          · exact hp b hb
        · rintro ⟨pre, m, post, he, hp, hm, hx⟩
          cases pre with
          | nil =>
            simp only [List.nil_append, List.cons.injEq] at he
            rw [mixed_iff, ← he.1] at hm
            exact absurd hd hm.2.2
          | cons b pre =>
            simp only [List.cons_append, List.cons.injEq] at he
            exact ⟨pre, m, post, he.2, fun c hc => hp c (by simp [hc]), hm, hx⟩

/-- C46.  At most one node is reported per declaration: the first member whose kind differs from that of the first member of the enum's
first declaration, if all members before it are of that kind. -/
theorem C46_exact (e : Enum) (f : Member) (fs : List Member) (hf : e.firstDeclaration = f :: fs) (x : Nat) :
    check e = some (some x) ↔
      ∃ pre m post, e.members = pre ++ m :: post ∧ (∀ a ∈ pre, Alike f a) ∧ Mixed f m ∧ x = place m := by
  unfold check
  rw [hf]
  by_cases he : e.members.length = 0
  · rw [if_pos he]
    rw [List.length_eq_zero_iff] at he
    simp [he]
  · rw [if_neg he]
    simp only
    by_cases hu : memberType f = .unknown
    · rw [if_pos hu]
      simp only [Option.some.injEq, reduceCtorEq, false_iff]
      rintro ⟨_, m, _, _, _, hm, _⟩
      rw [mixed_iff] at hm
      exact hm.1 hu
    · rw [if_neg hu, Option.some.injEq]
      exact loop_iff f hu e.members x

/-- C46 (the usual case).  An enum declared once, all of whose members have a known kind, is reported exactly if it has both string and
number members. -/
theorem C46_mixed (e : Enum) (h1 : e.firstDeclaration = e.members) (hk : ∀ m ∈ e.members, IsString m ∨ IsNumber m) :
    (∃ x, check e = some (some x)) ↔ (∃ m ∈ e.members, IsString m) ∧ ∃ m ∈ e.members, IsNumber m := by
  cases hm : e.members with
  | nil => simp [check, hm]
  | cons f fs =>
    have hx := C46_exact e f fs (h1.trans hm)
    constructor
    · rintro ⟨x, h⟩
      obtain ⟨pre, m, post, he, _, hmix, _⟩ := (hx x).1 h
      have hmem : m ∈ f :: fs := by rw [← hm, he]; simp
      rcases hmix with ⟨a, b⟩ | ⟨a, b⟩
      · exact ⟨⟨f, by simp, a⟩, m, hmem, b⟩
      · exact ⟨⟨m, hmem, b⟩, f, by simp, a⟩
    · rintro ⟨⟨s, hs, hss⟩, n, hn, hnn⟩
      have hfk : ∃ g ∈ e.members, Mixed f g := by
        rw [hm]
        rcases hk f (by simp [hm]) with h | h
        · exact ⟨n, hn, .inl ⟨h, hnn⟩⟩
        · exact ⟨s, hs, .inr ⟨h, hss⟩⟩
      have split : ∀ ms : List Member, (∀ m ∈ ms, IsString m ∨ IsNumber m) → (∃ g ∈ ms, Mixed f g) →
          ∃ pre m post, ms = pre ++ m :: post ∧ (∀ a ∈ pre, Alike f a) ∧ Mixed f m := by
        intro ms
        induction ms with
        | nil => rintro _ ⟨g, hg, _⟩; cases hg
        | cons a ms ih =>
          rintro hk' ⟨g, hg, hmix⟩
          by_cases ha : Mixed f a
          · exact ⟨[], a, ms, rfl, by simp, ha⟩
          · have hal : Alike f a := by
              rw [alike_iff]
              rw [mixed_iff] at ha hmix
              have := hk' a (by simp)
              rw [isString_iff, isNumber_iff] at this
              have hne : memberType a ≠ .unknown := by rcases this with h | h <;> simp [h]
              refine ⟨hne, ?_⟩
              by_cases heq : memberType a = memberType f
              · exact heq
              · exact absurd ⟨hmix.1, hne, heq⟩ ha
            rcases List.mem_cons.1 hg with rfl | hg
            · exact absurd hmix ha
            · obtain ⟨pre, m, post, he, hp, hmm⟩ := ih (fun m hm => hk' m (by simp [hm])) ⟨g, hg, hmix⟩
              refine ⟨a :: pre, m, post, by simp [he], ?_, hmm⟩
              intro b hb
              rcases List.mem_cons.1 hb with rfl | hb
              · exact hal
              · exact hp b hb
      obtain ⟨pre, m, post, he, hp, hmm⟩ := split e.members hk hfk
      exact ⟨place m, (hx _).2 ⟨pre, m, post, he, hp, hmm, rfl⟩⟩

/-- C46 (finding).  The rule crashes exactly on an enum with members whose first declaration is empty. -/
theorem C46_panics_iff (e : Enum) : check e = none ↔ e.members ≠ [] ∧ e.firstDeclaration = [] := by
  unfold check
  by_cases he : e.members.length = 0
  · rw [if_pos he]; rw [List.length_eq_zero_iff] at he; simp [he]
  · rw [if_neg he]
    rw [List.length_eq_zero_iff] at he
    cases e.firstDeclaration with
    | nil => simp [he]
    | cons f fs =>
      simp only [reduceCtorEq, and_false, iff_false]
      split <;> simp

example : check ⟨[⟨1, none⟩, ⟨2, some (.other false true, 3)⟩, ⟨4, some (.string, 5)⟩, ⟨6, some (.numeric, 7)⟩],
    [⟨1, none⟩, ⟨2, some (.other false true, 3)⟩]⟩ = some (some 5) := by decide
example : check ⟨[⟨1, some (.other true true, 2)⟩, ⟨3, none⟩], [⟨1, some (.other true true, 2)⟩, ⟨3, none⟩]⟩ = some (some 3) := by decide
example : check ⟨[⟨1, none⟩], []⟩ = none := by decide

end Tsgolint.MixedEnums
