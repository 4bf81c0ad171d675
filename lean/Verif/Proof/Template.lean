import Verif.Spec.Template
/-! # Lemmas about texts of templates -/
namespace Tsgolint.Template
open Tsgolint.StringLiteral (utf16 hexValue)
variable {H : Type} {ev : H → List Val → Prop} {p : Place}

/-! ## Parity of backslashes -/

theorem bs_cons (c : Char) (b : Text) : backslashes (c :: b) = if c = '\\' then backslashes b + 1 else 0 := by
  unfold backslashes
  by_cases h : c = '\\' <;> simp [List.takeWhile_cons, h]

/-- The number of backslashes at the beginning of a list of symbols. -/
def bsS : List (Sym H) → Nat
  | .ch c :: r => if c = '\\' then bsS r + 1 else 0
  | _ => 0

theorem bsS_chars (t : Text) (r : List (Sym H)) (hr : bsS r = 0) : bsS (chars t ++ r) = backslashes t := by
  induction t with
  | nil => simpa [chars, backslashes] using hr
  | cons c t ih => rw [bs_cons, ← ih]; simp [chars, bsS]

theorem bsS_append (r y : List (Sym H)) (h : bsS y % 2 = 0) : bsS (r ++ y) % 2 = bsS r % 2 := by
  induction r with
  | nil => simpa [bsS] using h
  | cons x r ih =>
    cases x with
    | hole h => simp [bsS]
    | ch c =>
      simp only [List.cons_append, bsS]
      split
      · omega
      · rfl

/-- Ends in an unescaped dollar sign. -/
def EndsDollar (a : List (Sym H)) : Prop := ∃ r, a.reverse = .ch '$' :: r ∧ bsS r % 2 = 0
def EndsNull (a : List (Sym H)) : Prop := ∃ r, a.reverse = .ch '0' :: .ch '\\' :: r
def EndsCR (a : List (Sym H)) : Prop := ∃ r, a.reverse = .ch '\r' :: r

theorem endsDollar_append (x s : List (Sym H)) (hx : bsS x.reverse % 2 = 0) (h : EndsDollar s) : EndsDollar (x ++ s) := by
  obtain ⟨r, hr, he⟩ := h
  exact ⟨r ++ x.reverse, by simp [hr], by rw [bsS_append _ _ hx]; exact he⟩

theorem endsDollar_of_append (x s : List (Sym H)) (hx : bsS x.reverse % 2 = 0) (hs : s ≠ []) (h : EndsDollar (x ++ s)) : EndsDollar s := by
  obtain ⟨r, hr, he⟩ := h
  rw [List.reverse_append] at hr
  cases hh : s.reverse with
  | nil => simp at hh; exact absurd hh hs
  | cons y ys =>
    rw [hh] at hr
    simp only [List.cons_append, List.cons.injEq] at hr
    obtain ⟨rfl, rfl⟩ := hr
    rw [bsS_append _ _ hx] at he
    exact ⟨ys, hh, he⟩

theorem endsNull_append (x s : List (Sym H)) (h : EndsNull s) : EndsNull (x ++ s) := by
  obtain ⟨r, hr⟩ := h; exact ⟨r ++ x.reverse, by simp [hr]⟩
theorem endsCR_append (x s : List (Sym H)) (h : EndsCR s) : EndsCR (x ++ s) := by
  obtain ⟨r, hr⟩ := h; exact ⟨r ++ x.reverse, by simp [hr]⟩

theorem endsDollar_chars (t : Text) : EndsDollar (chars (H := H) t) ↔ endsWithUnescapedDollarSign t = true := by
  unfold EndsDollar endsWithUnescapedDollarSign
  have hrev : (chars (H := H) t).reverse = chars t.reverse := by simp [chars]
  rw [hrev]
  cases t.reverse with
  | nil => simp [chars]
  | cons c b =>
    have := bsS_chars (H := H) b [] rfl
    simp only [List.append_nil] at this
    simp only [chars, List.map_cons, List.cons.injEq, Sym.ch.injEq, Bool.and_eq_true, decide_eq_true_eq, beq_iff_eq]
    constructor
    · rintro ⟨r, ⟨rfl, rfl⟩, h⟩
      exact ⟨rfl, by rw [← this]; exact h⟩
    · rintro ⟨rfl, h⟩
      exact ⟨_, ⟨rfl, rfl⟩, by rw [← chars, this]; exact h⟩

theorem hexNumber_hex (ds : Text) : ∀ acc x, hexNumber acc ds = some x → ∀ c ∈ ds, ∃ v, hexValue c = some v := by
  induction ds with
  | nil => simp
  | cons d ds ih =>
    intro acc x h c hc
    simp only [hexNumber] at h
    cases hd : hexValue d with
    | none => simp [hd] at h
    | some v =>
      simp only [hd] at h
      rcases List.mem_cons.1 hc with rfl | hc
      · exact ⟨v, hd⟩
      · exact ih _ _ h c hc

theorem hex_ne (c : Char) (v : Nat) (h : hexValue c = some v) : c ≠ '\\' ∧ c ≠ '`' ∧ c ≠ '$' ∧ c ≠ '{' ∧ c ≠ '\r' ∧ c ≠ '\n' := by
  refine ⟨?_, ?_, ?_, ?_, ?_, ?_⟩ <;> (rintro rfl; revert h; decide +revert)

theorem esc_even {e : Text} {u : List Nat} (h : Esc e u) : bsS (H := H) (Sym.ch '\\' :: chars e).reverse % 2 = 0 := by
  cases h with
  | single h =>
    simp only [List.mem_cons, Prod.mk.injEq, List.not_mem_nil, or_false] at h
    rcases h with ⟨rfl, _⟩ | ⟨rfl, _⟩ | ⟨rfl, _⟩ | ⟨rfl, _⟩ | ⟨rfl, _⟩ | ⟨rfl, _⟩ <;> simp [chars, bsS]
  | @hex a b x h =>
    obtain ⟨v, hv⟩ := hexNumber_hex _ _ _ h b (by simp)
    simp [chars, bsS, (hex_ne b v hv).1]
  | @unicode a b c d x h =>
    obtain ⟨v, hv⟩ := hexNumber_hex _ _ _ h d (by simp)
    simp [chars, bsS, (hex_ne d v hv).1]
  | codePoint => simp [chars, bsS]
  | @char c h1 h2 =>
    by_cases hc : c = '\\'
    · subst hc; simp [chars, bsS]
    · simp [chars, bsS, hc]
  | newline h =>
    simp only [List.mem_cons, List.not_mem_nil, or_false] at h
    rcases h with rfl | rfl | rfl <;> simp [chars, bsS]
  | crlf => simp [chars, bsS]

/-- A complete escape does not end in an unescaped dollar sign. -/
theorem esc_not_dollar {e : Text} {u : List Nat} (h : Esc e u) : ¬ EndsDollar (H := H) (Sym.ch '\\' :: chars e) := by
  rintro ⟨r, hr, he⟩
  cases h with
  | single h =>
    simp only [List.mem_cons, Prod.mk.injEq, List.not_mem_nil, or_false] at h
    rcases h with ⟨rfl, _⟩ | ⟨rfl, _⟩ | ⟨rfl, _⟩ | ⟨rfl, _⟩ | ⟨rfl, _⟩ | ⟨rfl, _⟩ <;> simp [chars] at hr
  | @hex a b x h =>
    obtain ⟨v, hv⟩ := hexNumber_hex _ _ _ h b (by simp)
    simp [chars] at hr
    exact (hex_ne b v hv).2.2.1 hr.1
  | @unicode a b c d x h =>
    obtain ⟨v, hv⟩ := hexNumber_hex _ _ _ h d (by simp)
    simp [chars] at hr
    exact (hex_ne d v hv).2.2.1 hr.1
  | codePoint => simp [chars] at hr
  | @char c h1 h2 =>
    simp [chars] at hr
    obtain ⟨rfl, rfl⟩ := hr
    simp [bsS] at he
  | newline h =>
    simp only [List.mem_cons, List.not_mem_nil, or_false] at h
    rcases h with rfl | rfl | rfl <;> simp [chars] at hr
  | crlf => simp [chars] at hr

/-! ## Concatenation -/

theorem begins_append {P : Char → Prop} {s b : List (Sym H)} (h : Begins P (s ++ b)) : Begins P s ∨ (s = [] ∧ Begins P b) := by
  cases s with
  | nil => exact .inr ⟨rfl, h⟩
  | cons x s =>
    obtain ⟨c, t, he, hp⟩ := h
    simp only [List.cons_append, List.cons.injEq] at he
    exact .inl ⟨c, s, by rw [he.1], hp⟩

/-- Nothing at the end of `a` changes its meaning because of what `b` begins with. -/
structure Joins (a b : List (Sym H)) : Prop where
  dollar : EndsDollar a → ¬ Begins (· = '{') b
  null : EndsNull a → ¬ Begins (fun c => isDigit c = true) b
  cr : EndsCR a → ¬ Begins (· = '\n') b

theorem Joins.tail {x s b : List (Sym H)} (hx : bsS x.reverse % 2 = 0) (h : Joins (x ++ s) b) : Joins s b :=
  ⟨fun hs => h.dollar (endsDollar_append x s hx hs), fun hs => h.null (endsNull_append x s hs), fun hs => h.cr (endsCR_append x s hs)⟩

theorem reads_append {a b : List (Sym H)} {u v : List Val} (ha : Reads ev p a u) (hb : Reads ev p b v) (hj : Joins a b) :
    Reads ev p (a ++ b) (u ++ v) := by
  induction ha with
  | nil => simpa using hb
  | @plain c s w hc hs ih =>
    have hbs : c ≠ '\\' := by
      cases p with
      | template => rintro rfl; simp [Plain] at hc
      | str q => rintro rfl; simp [Plain] at hc
    have := ih (hj.tail (x := [.ch c]) (by simp [bsS, hbs]))
    rw [List.append_assoc]
    exact .plain hc this
  | @esc e u' s w he hs ih =>
    have := ih (hj.tail (x := .ch '\\' :: chars e) (s := s) (esc_even he))
    rw [List.append_assoc]
    have h2 := Reads.esc he this
    simpa using h2
  | @null s w hd hs ih =>
    have := ih (hj.tail (x := [.ch '\\', .ch '0']) (by simp [bsS]))
    refine .null ?_ this
    intro hbg
    rcases begins_append hbg with h | ⟨rfl, h⟩
    · exact hd h
    · exact hj.null ⟨[], rfl⟩ h
  | @carriage s w hd hs ih =>
    have := ih (hj.tail (x := [.ch '\\', .ch '\r']) (by simp [bsS]))
    refine .carriage ?_ this
    intro hbg
    rcases begins_append hbg with h | ⟨rfl, h⟩
    · exact hd h
    · exact hj.cr ⟨_, rfl⟩ h
  | @dollar s w hp hd hs ih =>
    have := ih (hj.tail (x := [.ch '$']) (by simp [bsS]))
    refine .dollar hp ?_ this
    intro hbg
    rcases begins_append hbg with h | ⟨rfl, h⟩
    · exact hd h
    · exact hj.dollar ⟨[], rfl, rfl⟩ h
  | @crlf s w hp hs ih =>
    have := ih (hj.tail (x := [.ch '\r', .ch '\n']) (by simp [bsS]))
    exact .crlf hp this
  | @cr s w hp hd hs ih =>
    have := ih (hj.tail (x := [.ch '\r']) (by simp [bsS]))
    refine .cr hp ?_ this
    intro hbg
    rcases begins_append hbg with h | ⟨rfl, h⟩
    · exact hd h
    · exact hj.cr ⟨_, rfl⟩ h
  | @hole h w s v' hp he hs ih =>
    have := ih (hj.tail (x := [.hole h]) (by simp [bsS]))
    rw [List.append_assoc]
    exact .hole hp he this

/-! ## Escaping the last dollar sign -/

theorem begins_dropLast {P : Char → Prop} (hP : ¬ P '\\') {s : List (Sym H)} (h : Begins P (s.dropLast ++ [.ch '\\', .ch '$'])) : Begins P s := by
  obtain ⟨c, t, he, hp⟩ := h
  match s, he with
  | [], he => simp at he; rw [← he.1] at hp; exact absurd hp hP
  | [x], he => simp at he; rw [← he.1] at hp; exact absurd hp hP
  | x :: y :: s, he =>
    simp only [List.dropLast_cons₂, List.cons_append, List.cons.injEq] at he
    exact ⟨c, y :: s, by rw [he.1], hp⟩

theorem reads_escape_dollar {a : List (Sym H)} {u : List Val} (ha : Reads ev .template a u) (hd : EndsDollar a) :
    Reads ev .template (a.dropLast ++ [.ch '\\', .ch '$']) u := by
  have last : ∀ (x s : List (Sym H)), bsS x.reverse % 2 = 0 → ¬ EndsDollar x → EndsDollar (x ++ s) → s ≠ [] ∧ EndsDollar s := by
    intro x s hx hn h
    have hs : s ≠ [] := by rintro rfl; rw [List.append_nil] at h; exact hn h
    exact ⟨hs, endsDollar_of_append x s hx hs h⟩
  generalize hp : Place.template = p at ha
  induction ha with
  | nil => obtain ⟨r, hr, _⟩ := hd; simp at hr
  | @plain c s w hc hs ih =>
    subst hp
    have hne : c ≠ '\\' ∧ c ≠ '$' := by constructor <;> (rintro rfl; simp [Plain] at hc)
    obtain ⟨h1, h2⟩ := last [.ch c] s (by simp [bsS, hne.1]) (by rintro ⟨r, hr, _⟩; simp at hr; exact hne.2 hr.1) hd
    rw [List.dropLast_cons_of_ne_nil h1]
    exact .plain hc (ih h2)
  | @esc e u' s w he hs ih =>
    subst hp
    obtain ⟨h1, h2⟩ := last (.ch '\\' :: chars e) s (esc_even he) (esc_not_dollar he) hd
    have := Reads.esc he (ih h2)
    rw [← List.cons_append, List.dropLast_append_of_ne_nil h1]
    simpa using this
  | @null s w hb hs ih =>
    subst hp
    obtain ⟨h1, h2⟩ := last [.ch '\\', .ch '0'] s (by simp [bsS]) (by rintro ⟨r, hr, _⟩; simp at hr) hd
    have := Reads.null (ev := ev) (fun h => hb (begins_dropLast (by decide) h)) (ih h2)
    rw [List.dropLast_cons_of_ne_nil (by simp), List.dropLast_cons_of_ne_nil h1]
    exact this
  | @carriage s w hb hs ih =>
    subst hp
    obtain ⟨h1, h2⟩ := last [.ch '\\', .ch '\r'] s (by simp [bsS]) (by rintro ⟨r, hr, _⟩; simp at hr) hd
    have := Reads.carriage (ev := ev) (fun h => hb (begins_dropLast (by decide) h)) (ih h2)
    rw [List.dropLast_cons_of_ne_nil (by simp), List.dropLast_cons_of_ne_nil h1]
    exact this
  | @dollar s w _ hb hs ih =>
    subst hp
    cases s with
    | nil =>
      have hs' := hs
      cases hs'
      have := Reads.esc (ev := ev) (p := .template) (Esc.char (c := '$') (by decide) (by decide)) hs
      exact this
    | cons x s =>
      have h2 := endsDollar_of_append [.ch '$'] (x :: s) (by simp [bsS]) (by simp) hd
      rw [List.dropLast_cons_of_ne_nil (by simp)]
      exact .dollar rfl (fun h => hb (begins_dropLast (by decide) h)) (ih h2)
  | @crlf s w _ hs ih =>
    subst hp
    obtain ⟨h1, h2⟩ := last [.ch '\r', .ch '\n'] s (by simp [bsS]) (by rintro ⟨r, hr, _⟩; simp at hr) hd
    rw [List.dropLast_cons_of_ne_nil (by simp), List.dropLast_cons_of_ne_nil h1]
    exact .crlf rfl (ih h2)
  | @cr s w _ hb hs ih =>
    subst hp
    obtain ⟨h1, h2⟩ := last [.ch '\r'] s (by simp [bsS]) (by rintro ⟨r, hr, _⟩; simp at hr) hd
    rw [List.dropLast_cons_of_ne_nil h1]
    exact .cr rfl (fun h => hb (begins_dropLast (by decide) h)) (ih h2)
  | @hole h w s v' _ he hs ih =>
    subst hp
    obtain ⟨h1, h2⟩ := last [.hole h] s (by simp [bsS]) (by rintro ⟨r, hr, _⟩; simp at hr) hd
    rw [List.dropLast_cons_of_ne_nil h1]
    exact .hole rfl he (ih h2)

theorem not_endsDollar_escaped {a : List (Sym H)} (hd : EndsDollar a) : ¬ EndsDollar (a.dropLast ++ [.ch '\\', .ch '$']) := by
  obtain ⟨r, hr, he⟩ := hd
  rintro ⟨r', hr', he'⟩
  have : a = r.reverse ++ [.ch '$'] := by rw [← List.reverse_reverse a, hr]; simp
  subst this
  simp at hr'
  subst hr'
  simp only [bsS, if_true] at he'
  omega

/-! ## escapeTemplateRawText -/

theorem escapeGo_cons (b : Text) (c : Char) (s : Text) (h : (c ≠ '`' ∧ (c = '$' → s.head? ≠ some '{')) ∨ backslashes b % 2 = 1) :
    escapeGo b (c :: s) = c :: escapeGo (c :: b) s := by
  simp only [escapeGo]
  rw [if_neg]
  · simp
  · simp only [Bool.and_eq_true, Bool.or_eq_true, decide_eq_true_eq, beq_iff_eq]
    rintro ⟨h1, h2⟩
    rcases h with ⟨h3, h4⟩ | h3
    · rcases h1 with h1 | ⟨h1, h5⟩
      · exact h3 h1
      · exact h4 h1 h5
    · omega

theorem escapeGo_escape (b : Text) (c : Char) (s : Text) (h : c = '`' ∨ (c = '$' ∧ s.head? = some '{')) (hb : backslashes b % 2 = 0) :
    escapeGo b (c :: s) = '\\' :: c :: escapeGo (c :: b) s := by
  simp only [escapeGo]
  rw [if_pos]
  · simp
  · simp [hb]; exact h

theorem begins_escapeGo {P : Char → Prop} (hP : ¬ P '\\') (b s : Text) (h : Begins P (chars (H := H) (escapeGo b s))) :
    Begins P (chars (H := H) s) := by
  cases s with
  | nil => exact h
  | cons c s =>
    obtain ⟨d, t, he, hp⟩ := h
    simp only [escapeGo] at he
    split at he
    · simp [chars] at he
      rw [← he.1] at hp
      exact absurd hp hP
    · simp [chars] at he
      exact ⟨c, chars s, rfl, by rw [he.1]; exact hp⟩

theorem escapeGo_hexes (ds : Text) (hd : ∀ c ∈ ds, c ≠ '`' ∧ c ≠ '$') (b s : Text) :
    escapeGo b (ds ++ s) = ds ++ escapeGo (ds.reverse ++ b) s := by
  induction ds generalizing b with
  | nil => rfl
  | cons c ds ih =>
    obtain ⟨h1, h2⟩ := hd c (by simp)
    rw [List.cons_append, escapeGo_cons b c _ (.inl ⟨h1, fun h => absurd h h2⟩), ih (fun c hc => hd c (by simp [hc]))]
    simp

/-- Escapes are copied. -/
theorem escapeGo_esc {e : Text} {u : List Nat} (h : Esc e u) (b s : Text) (hb : backslashes b % 2 = 0) :
    escapeGo b ('\\' :: (e ++ s)) = '\\' :: (e ++ escapeGo ((e.reverse ++ ['\\']) ++ b) s) := by
  rw [escapeGo_cons b '\\' _ (.inl ⟨by decide, fun h => absurd h (by decide)⟩)]
  have easy : (∀ c ∈ e, c ≠ '`' ∧ c ≠ '$') → escapeGo ('\\' :: b) (e ++ s) = e ++ escapeGo ((e.reverse ++ ['\\']) ++ b) s := by
    intro h
    rw [escapeGo_hexes e h]
    simp
  congr 1
  cases h with
  | single h =>
    apply easy
    simp only [List.mem_cons, Prod.mk.injEq, List.not_mem_nil, or_false] at h
    rcases h with ⟨rfl, _⟩ | ⟨rfl, _⟩ | ⟨rfl, _⟩ | ⟨rfl, _⟩ | ⟨rfl, _⟩ | ⟨rfl, _⟩ <;> decide
  | @hex a c x h =>
    apply easy
    have := hexNumber_hex _ _ _ h
    intro d hd
    rcases List.mem_cons.1 hd with rfl | hd
    · decide
    · obtain ⟨v, hv⟩ := this d hd; exact ⟨(hex_ne d v hv).2.1, (hex_ne d v hv).2.2.1⟩
  | @unicode a c d' d x h =>
    apply easy
    have := hexNumber_hex _ _ _ h
    intro d hd
    rcases List.mem_cons.1 hd with rfl | hd
    · decide
    · obtain ⟨v, hv⟩ := this d hd; exact ⟨(hex_ne d v hv).2.1, (hex_ne d v hv).2.2.1⟩
  | @codePoint ds x h0 h hx =>
    apply easy
    have := hexNumber_hex _ _ _ h
    intro d hd
    simp only [List.mem_cons, List.mem_append, List.not_mem_nil, or_false] at hd
    rcases hd with rfl | rfl | hd | rfl
    · decide
    · decide
    · obtain ⟨v, hv⟩ := this d hd; exact ⟨(hex_ne d v hv).2.1, (hex_ne d v hv).2.2.1⟩
    · decide
  | @char c h1 h2 =>
    rw [List.singleton_append, escapeGo_cons ('\\' :: b) c s (.inr (by rw [bs_cons]; simp; omega))]
    simp
  | newline h =>
    apply easy
    simp only [List.mem_cons, List.not_mem_nil, or_false] at h
    rcases h with rfl | rfl | rfl <;> decide
  | crlf => apply easy; decide

theorem esc_backslashes {e : Text} {u : List Nat} (h : Esc e u) (b : Text) (hb : backslashes b % 2 = 0) :
    backslashes ((e.reverse ++ ['\\']) ++ b) % 2 = 0 := by
  have h1 := esc_even (H := Empty) h
  have e1 : (Sym.ch (H := Empty) '\\' :: chars e).reverse = chars (e.reverse ++ ['\\']) := by simp [chars]
  rw [e1] at h1
  have h2 := bsS_chars (H := Empty) ((e.reverse ++ ['\\']) ++ b) [] rfl
  have h3 := bsS_chars (H := Empty) b [] rfl
  rw [← h2, List.append_nil]
  rw [List.append_nil] at h3
  have e2 : chars (H := Empty) ((e.reverse ++ ['\\']) ++ b) = chars (e.reverse ++ ['\\']) ++ chars b := by simp [chars]
  rw [e2, bsS_append _ _ (by rw [h3]; exact hb)]
  exact h1

theorem chars_cons {c : Char} {s : List (Sym H)} {raw : Text} (h : Sym.ch c :: s = chars raw) : ∃ t, raw = c :: t ∧ s = chars t := by
  cases raw with
  | nil => simp [chars] at h
  | cons d t => simp [chars] at h; exact ⟨t, by rw [h.1], h.2⟩

theorem chars_append {e : Text} {s : List (Sym H)} {raw : Text} (h : chars e ++ s = chars raw) : ∃ t, raw = e ++ t ∧ s = chars t := by
  induction e generalizing raw with
  | nil => exact ⟨raw, rfl, h⟩
  | cons c e ih =>
    obtain ⟨t, rfl, ht⟩ := chars_cons (show Sym.ch c :: (chars e ++ s) = chars raw from h)
    obtain ⟨t', rfl, hs⟩ := ih ht
    exact ⟨t', rfl, hs⟩

/-- The text of a string literal, escaped, denotes the same in a template. -/
theorem reads_escaped {q : Char} {raw : Text} {v : List Val} (h : Reads noHoles (.str q) (chars raw) v) :
    ∀ b, backslashes b % 2 = 0 → Reads ev .template (chars (escapeGo b raw)) v := by
  generalize hs : chars raw = s at h
  generalize hp : Place.str q = p at h
  induction h generalizing raw with
  | nil =>
    intro b _
    cases raw with
    | nil => exact .nil
    | cons => simp [chars] at hs
  | @plain c s w hc hr ih =>
    subst hp
    obtain ⟨t, rfl, ht⟩ := chars_cons hs.symm
    intro b hb
    simp only [Plain, List.mem_cons, List.not_mem_nil, or_false, not_or] at hc
    have hnext : backslashes (c :: b) % 2 = 0 := by rw [bs_cons]; simp [hc.2.1]
    have ih := ih ht.symm (c :: b) hnext
    by_cases h1 : c = '`'
    · subst h1
      rw [escapeGo_escape b '`' t (.inl rfl) hb]
      have := Reads.esc (ev := ev) (p := .template) (Esc.char (c := '`') (by decide) (by decide)) ih
      exact this
    · by_cases h2 : c = '$'
      · subst h2
        by_cases h3 : t.head? = some '{'
        · rw [escapeGo_escape b '$' t (.inr ⟨rfl, h3⟩) hb]
          have := Reads.esc (ev := ev) (p := .template) (Esc.char (c := '$') (by decide) (by decide)) ih
          exact this
        · rw [escapeGo_cons b '$' t (.inl ⟨by decide, fun _ => h3⟩)]
          refine .dollar rfl ?_ ih
          intro hb'
          obtain ⟨d, t', he, hd⟩ := begins_escapeGo (H := H) (by decide) _ _ hb'
          apply h3
          cases t with
          | nil => simp [chars] at he
          | cons x t => simp [chars] at he; simp [he.1, hd]
      · rw [escapeGo_cons b c t (.inl ⟨h1, fun h => absurd h h2⟩)]
        refine .plain ?_ ih
        simp only [Plain, List.mem_cons, List.not_mem_nil, or_false, not_or]
        exact ⟨h1, hc.2.1, h2, hc.2.2.2⟩
  | @esc e u s w he hr ih =>
    obtain ⟨t, rfl, ht⟩ := chars_cons hs.symm
    obtain ⟨t', rfl, ht'⟩ := chars_append ht
    intro b hb
    rw [escapeGo_esc he b t' hb]
    have := Reads.esc (ev := ev) (p := .template) he (ih ht'.symm _ (esc_backslashes he b hb))
    simpa [chars] using this
  | @null s w hn hr ih =>
    obtain ⟨t, rfl, ht⟩ := chars_cons hs.symm
    obtain ⟨t', rfl, ht'⟩ := chars_cons ht
    intro b hb
    rw [escapeGo_cons b '\\' _ (.inl ⟨by decide, fun h => absurd h (by decide)⟩), escapeGo_cons _ '0' _ (.inl ⟨by decide, fun h => absurd h (by decide)⟩)]
    refine .null (ev := ev) (p := .template) ?_ (ih ht'.symm _ (by rw [bs_cons]; simp))
    intro hbg
    have := begins_escapeGo (H := H) (by decide) _ _ hbg
    apply hn
    rw [ht']
    obtain ⟨c, s', he, hc⟩ := this
    cases t' with
    | nil => simp [chars] at he
    | cons x t => simp [chars] at he; exact ⟨x, chars t, rfl, by rw [he.1]; exact hc⟩
  | @carriage s w hn hr ih =>
    obtain ⟨t, rfl, ht⟩ := chars_cons hs.symm
    obtain ⟨t', rfl, ht'⟩ := chars_cons ht
    intro b hb
    rw [escapeGo_cons b '\\' _ (.inl ⟨by decide, fun h => absurd h (by decide)⟩), escapeGo_cons _ '\r' _ (.inl ⟨by decide, fun h => absurd h (by decide)⟩)]
    refine .carriage (ev := ev) (p := .template) ?_ (ih ht'.symm _ (by rw [bs_cons]; simp))
    intro hbg
    have := begins_escapeGo (H := H) (by decide) _ _ hbg
    apply hn
    rw [ht']
    obtain ⟨c, s', he, hc⟩ := this
    cases t' with
    | nil => simp [chars] at he
    | cons x t => simp [chars] at he; exact ⟨x, chars t, rfl, by rw [he.1]; exact hc⟩
  | dollar h => subst hp; cases h
  | crlf h => subst hp; cases h
  | cr h => subst hp; cases h
  | hole h => subst hp; cases h

/-- The text of a template is left as it is. -/
theorem escape_template {raw : Text} {v : List Val} (h : Reads noHoles .template (chars raw) v) :
    ∀ b, backslashes b % 2 = 0 → escapeGo b raw = raw := by
  generalize hs : chars raw = s at h
  generalize hp : Place.template = p at h
  induction h generalizing raw with
  | nil =>
    intro b _
    cases raw with
    | nil => rfl
    | cons => simp [chars] at hs
  | @plain c s w hc hr ih =>
    subst hp
    obtain ⟨t, rfl, ht⟩ := chars_cons hs.symm
    intro b hb
    simp only [Plain, List.mem_cons, List.not_mem_nil, or_false, not_or] at hc
    rw [escapeGo_cons b c t (.inl ⟨hc.1, fun h => absurd h hc.2.2.1⟩), ih ht.symm _ (by rw [bs_cons]; simp [hc.2.1])]
  | @esc e u s w he hr ih =>
    obtain ⟨t, rfl, ht⟩ := chars_cons hs.symm
    obtain ⟨t', rfl, ht'⟩ := chars_append ht
    intro b hb
    rw [escapeGo_esc he b t' hb, ih ht'.symm _ (esc_backslashes he b hb)]
  | @null s w hn hr ih =>
    obtain ⟨t, rfl, ht⟩ := chars_cons hs.symm
    obtain ⟨t', rfl, ht'⟩ := chars_cons ht
    intro b hb
    rw [escapeGo_cons b '\\' _ (.inl ⟨by decide, fun h => absurd h (by decide)⟩), escapeGo_cons _ '0' _ (.inl ⟨by decide, fun h => absurd h (by decide)⟩),
      ih ht'.symm _ (by rw [bs_cons]; simp)]
  | @carriage s w hn hr ih =>
    obtain ⟨t, rfl, ht⟩ := chars_cons hs.symm
    obtain ⟨t', rfl, ht'⟩ := chars_cons ht
    intro b hb
    rw [escapeGo_cons b '\\' _ (.inl ⟨by decide, fun h => absurd h (by decide)⟩), escapeGo_cons _ '\r' _ (.inl ⟨by decide, fun h => absurd h (by decide)⟩),
      ih ht'.symm _ (by rw [bs_cons]; simp)]
  | @dollar s w _ hn hr ih =>
    obtain ⟨t, rfl, ht⟩ := chars_cons hs.symm
    intro b hb
    rw [escapeGo_cons b '$' t (.inl ⟨by decide, fun _ hx => ?_⟩), ih ht.symm _ (by rw [bs_cons]; simp)]
    apply hn
    rw [ht]
    cases t with
    | nil => simp at hx
    | cons x t => simp at hx; subst hx; exact ⟨'{', chars t, rfl, rfl⟩
  | @crlf s w _ hr ih =>
    obtain ⟨t, rfl, ht⟩ := chars_cons hs.symm
    obtain ⟨t', rfl, ht'⟩ := chars_cons ht
    intro b hb
    rw [escapeGo_cons b '\r' _ (.inl ⟨by decide, fun h => absurd h (by decide)⟩), escapeGo_cons _ '\n' _ (.inl ⟨by decide, fun h => absurd h (by decide)⟩),
      ih ht'.symm _ (by rw [bs_cons]; simp)]
  | @cr s w _ hn hr ih =>
    obtain ⟨t, rfl, ht⟩ := chars_cons hs.symm
    intro b hb
    rw [escapeGo_cons b '\r' _ (.inl ⟨by decide, fun h => absurd h (by decide)⟩), ih ht.symm _ (by rw [bs_cons]; simp)]
  | @hole h => exact h.elim

/-! ## Changing what is in the substitutions -/

def Sym.map {H H' : Type} (f : H → H') : Sym H → Sym H'
  | .ch c => .ch c
  | .hole h => .hole (f h)

theorem map_chars {H H' : Type} (f : H → H') (t : Text) : (chars (H := H) t).map (Sym.map f) = chars t := by
  simp [chars, Sym.map, Function.comp_def]

theorem begins_map {H H' : Type} {P : Char → Prop} (f : H → H') (s : List (Sym H)) (h : Begins P (s.map (Sym.map f))) : Begins P s := by
  obtain ⟨c, t, he, hp⟩ := h
  cases s with
  | nil => simp at he
  | cons x s =>
    cases x with
    | ch d => simp [Sym.map] at he; exact ⟨d, s, rfl, by rw [he.1]; exact hp⟩
    | hole d => simp [Sym.map] at he

theorem reads_map {H H' : Type} {ev : H → List Val → Prop} {ev' : H' → List Val → Prop} {p : Place} (f : H → H')
    (hf : ∀ h w, ev h w → ev' (f h) w) {s : List (Sym H)} {v : List Val} (h : Reads ev p s v) : Reads ev' p (s.map (Sym.map f)) v := by
  induction h with
  | nil => exact .nil
  | plain hc _ ih => exact .plain hc ih
  | esc he _ ih =>
    have := Reads.esc he ih
    simpa [Sym.map, map_chars] using this
  | null hb _ ih => exact .null (fun h => hb (begins_map f _ h)) ih
  | carriage hb _ ih => exact .carriage (fun h => hb (begins_map f _ h)) ih
  | dollar hp hb _ ih => exact .dollar hp (fun h => hb (begins_map f _ h)) ih
  | crlf hp _ ih => exact .crlf hp ih
  | cr hp hb _ ih => exact .cr hp (fun h => hb (begins_map f _ h)) ih
  | hole hp he _ ih => exact .hole hp (hf _ _ he) ih

theorem reads_chars_any {H : Type} {ev : H → List Val → Prop} {p : Place} {t : Text} {v : List Val} (h : Reads noHoles p (chars t) v) :
    Reads ev p (chars t) v := by
  have := reads_map (ev' := ev) (fun e : Empty => e.elim) (fun h => h.elim) h
  rwa [map_chars] at this

theorem map_nested {H : Type} (f : Nat → H) (raw : Text) (spans : List (Nat × Text)) :
    (nestedText id raw spans).map (Sym.map f) = nestedText f raw spans := by
  induction spans generalizing raw with
  | nil => simp [nestedText, map_chars]
  | cons x spans ih =>
    obtain ⟨h, r⟩ := x
    simp [nestedText, map_chars, ih, Sym.map]

/-! ## Splitting at a substitution -/

theorem chars_split {e a : Text} {h : H} {s s' : List (Sym H)} (he : chars e ++ s' = chars a ++ .hole h :: s) :
    ∃ a', a = e ++ a' ∧ s' = chars a' ++ .hole h :: s := by
  induction e generalizing a with
  | nil => exact ⟨a, rfl, he⟩
  | cons c e ih =>
    cases a with
    | nil => simp [chars] at he
    | cons d a =>
      simp only [chars, List.map_cons, List.cons_append, List.cons.injEq, Sym.ch.injEq] at he
      obtain ⟨a', rfl, hs⟩ := ih he.2
      exact ⟨a', by rw [he.1]; rfl, hs⟩

theorem begins_mono {P : Char → Prop} (s b : List (Sym H)) (h : Begins P s) : Begins P (s ++ b) := by
  obtain ⟨c, t, rfl, hp⟩ := h; exact ⟨c, t ++ b, rfl, hp⟩

theorem reads_split {a : Text} {h : H} {s : List (Sym H)} {v : List Val} (hr : Reads ev .template (chars a ++ .hole h :: s) v) :
    ∃ va w vs, v = va ++ (w ++ vs) ∧ Reads ev .template (chars a) va ∧ ev h w ∧ Reads ev .template s vs := by
  generalize hx : chars a ++ Sym.hole h :: s = x at hr
  induction hr generalizing a with
  | nil => cases a <;> simp [chars] at hx
  | @plain c t w hc hr ih =>
    obtain ⟨a', rfl, ht⟩ := chars_split (e := [c]) (s' := t) hx.symm
    obtain ⟨va, w, vs, rfl, h1, h2, h3⟩ := ih ht.symm
    exact ⟨_, w, vs, by rw [List.append_assoc], .plain hc h1, h2, h3⟩
  | @esc e u t w he hr ih =>
    obtain ⟨a', rfl, ht⟩ := chars_split (e := '\\' :: e) (s' := t) hx.symm
    obtain ⟨va, w, vs, rfl, h1, h2, h3⟩ := ih ht.symm
    refine ⟨_, w, vs, by rw [List.append_assoc], ?_, h2, h3⟩
    have := Reads.esc he h1
    simpa [chars] using this
  | @null t w hn hr ih =>
    obtain ⟨a', rfl, ht⟩ := chars_split (e := ['\\', '0']) (s' := t) hx.symm
    obtain ⟨va, w, vs, rfl, h1, h2, h3⟩ := ih ht.symm
    exact ⟨.unit 0 :: va, w, vs, rfl, .null (fun h => hn (by rw [ht]; exact begins_mono _ _ h)) h1, h2, h3⟩
  | @carriage t w hn hr ih =>
    obtain ⟨a', rfl, ht⟩ := chars_split (e := ['\\', '\r']) (s' := t) hx.symm
    obtain ⟨va, w, vs, rfl, h1, h2, h3⟩ := ih ht.symm
    exact ⟨va, w, vs, rfl, .carriage (fun h => hn (by rw [ht]; exact begins_mono _ _ h)) h1, h2, h3⟩
  | @dollar t w hp hn hr ih =>
    obtain ⟨a', rfl, ht⟩ := chars_split (e := ['$']) (s' := t) hx.symm
    obtain ⟨va, w, vs, rfl, h1, h2, h3⟩ := ih ht.symm
    exact ⟨.unit 36 :: va, w, vs, rfl, .dollar rfl (fun h => hn (by rw [ht]; exact begins_mono _ _ h)) h1, h2, h3⟩
  | @crlf t w hp hr ih =>
    obtain ⟨a', rfl, ht⟩ := chars_split (e := ['\r', '\n']) (s' := t) hx.symm
    obtain ⟨va, w, vs, rfl, h1, h2, h3⟩ := ih ht.symm
    exact ⟨.unit 10 :: va, w, vs, rfl, .crlf rfl h1, h2, h3⟩
  | @cr t w hp hn hr ih =>
    obtain ⟨a', rfl, ht⟩ := chars_split (e := ['\r']) (s' := t) hx.symm
    obtain ⟨va, w, vs, rfl, h1, h2, h3⟩ := ih ht.symm
    exact ⟨.unit 10 :: va, w, vs, rfl, .cr rfl (fun h => hn (by rw [ht]; exact begins_mono _ _ h)) h1, h2, h3⟩
  | @hole h' w t w' hp he hr ih =>
    cases a with
    | nil =>
      simp only [chars, List.map_nil, List.nil_append, List.cons.injEq, Sym.hole.injEq] at hx
      obtain ⟨rfl, rfl⟩ := hx
      exact ⟨[], w, w', rfl, .nil, he, hr⟩
    | cons => simp [chars] at hx

/-! ## Words, numbers and regular expressions -/

theorem reads_plain {t : Text} (h : ∀ c ∈ t, Plain p c) : Reads ev p (chars t) (units (t.flatMap utf16)) := by
  induction t with
  | nil => exact .nil
  | cons c t ih =>
    have := Reads.plain (h c (by simp)) (ih fun d hd => h d (by simp [hd]))
    simpa [chars, units] using this

theorem reads_regex {t : Text} (h : ∀ c ∈ t, c ∉ ['\r', '\n']) :
    Reads ev (.str '\n') (chars (literalText (.regex t))) (units (t.flatMap utf16)) := by
  induction t with
  | nil => exact .nil
  | cons c t ih =>
    have ih := ih fun d hd => h d (by simp [hd])
    have hc := h c (by simp)
    by_cases hb : c = '\\'
    · subst hb
      have := Reads.esc (Esc.char (c := '\\') (by decide) (by decide)) ih
      simpa [chars, units, literalText] using this
    · have : Plain (.str '\n') c := by
        simp only [List.mem_cons, List.not_mem_nil, or_false, not_or] at hc
        simp [Plain, hb, hc.1, hc.2]
      have := Reads.plain this ih
      simpa [chars, units, literalText, hb] using this

/-! ## How texts end -/

theorem endsNull_chars (t : Text) : EndsNull (chars (H := H) t) ↔ ['\\', '0'] <:+ t := by
  rw [← List.reverse_prefix]
  unfold EndsNull
  have hrev : (chars (H := H) t).reverse = chars t.reverse := by simp [chars]
  rw [hrev]
  constructor
  · rintro ⟨r, hr⟩
    obtain ⟨t1, h1, h2⟩ := chars_cons hr.symm
    obtain ⟨t2, h3, _⟩ := chars_cons h2
    exact ⟨t2, by rw [h1, h3]; rfl⟩
  · rintro ⟨r, hr⟩
    exact ⟨chars r, by rw [← hr]; rfl⟩

theorem endsCR_chars (t : Text) : EndsCR (chars (H := H) t) ↔ ['\r'] <:+ t := by
  rw [← List.reverse_prefix]
  unfold EndsCR
  have hrev : (chars (H := H) t).reverse = chars t.reverse := by simp [chars]
  rw [hrev]
  constructor
  · rintro ⟨r, hr⟩
    obtain ⟨t1, h1, h2⟩ := chars_cons hr.symm
    exact ⟨t1, by rw [h1]; rfl⟩
  · rintro ⟨r, hr⟩
    exact ⟨chars r, by rw [← hr]; rfl⟩

/-- Escaping adds backslashes before characters, so the end is kept. -/
theorem escapeGo_suffix_cr (b t : Text) (h : ['\r'] <:+ escapeGo b t) : ['\r'] <:+ t := by
  induction t generalizing b with
  | nil => simpa [escapeGo] using h
  | cons c t ih =>
    have key : ['\r'] <:+ c :: escapeGo (c :: b) t := by
      simp only [escapeGo] at h
      split at h
      · rw [List.singleton_append, List.suffix_cons_iff] at h
        rcases h with h | h
        · simp at h
        · exact h
      · exact h
    rw [List.suffix_cons_iff] at key ⊢
    rcases key with key | key
    · left
      simp only [List.cons.injEq] at key ⊢
      refine ⟨key.1, ?_⟩
      cases t with
      | nil => rfl
      | cons d t => simp [escapeGo] at key
    · exact .inr (ih _ key)

theorem escapeGo_suffix_null (b t : Text) (h : ['\\', '0'] <:+ escapeGo b t) : ['\\', '0'] <:+ t := by
  induction t generalizing b with
  | nil => simpa [escapeGo] using h
  | cons c t ih =>
    have key : ['\\', '0'] <:+ c :: escapeGo (c :: b) t := by
      simp only [escapeGo] at h
      split at h
      · rename_i hc
        rw [List.singleton_append, List.suffix_cons_iff] at h
        rcases h with h | h
        · simp only [List.cons.injEq, true_and] at h
          rw [← h.1] at hc
          simp at hc
        · exact h
      · exact h
    rw [List.suffix_cons_iff] at key ⊢
    rcases key with key | key
    · left
      simp only [List.cons.injEq] at key ⊢
      refine ⟨key.1, ?_⟩
      have h2 := key.2
      cases t with
      | nil => simp [escapeGo] at h2
      | cons d t =>
        simp only [escapeGo] at h2
        split at h2
        · simp at h2
        · simp only [List.nil_append, List.cons.injEq] at h2
          rw [← h2.1]
          cases t with
          | nil => rfl
          | cons e t => simp [escapeGo] at h2
    · exact .inr (ih _ key)

theorem closed_escape {t : Text} (h : Closed t) : Closed (escapeTemplateRawText t) :=
  ⟨fun hs => h.1 (escapeGo_suffix_null [] t hs), fun hs => h.2 (escapeGo_suffix_cr [] t hs)⟩

theorem nested_split {H : Type} (f : Nat → H) (raw : Text) (spans : List (Nat × Text)) :
    ∃ pre, nestedText f raw spans = pre ++ chars (lastRaw raw spans) ∧
      nestedEscaped f raw spans = pre ++ chars ((lastRaw raw spans).dropLast ++ '\\' :: (lastRaw raw spans).drop ((lastRaw raw spans).length - 1)) ∧
      (pre = [] ∧ spans = [] ∨ ∃ h r, pre.reverse = .hole h :: r) := by
  induction spans generalizing raw with
  | nil => exact ⟨[], rfl, rfl, .inl ⟨rfl, rfl⟩⟩
  | cons x spans ih =>
    obtain ⟨h, r⟩ := x
    obtain ⟨pre, h1, h2, h3⟩ := ih r
    refine ⟨chars raw ++ .hole (f h) :: pre, ?_, ?_, .inr ?_⟩
    · simp [nestedText, lastRaw, h1]
    · simp [nestedEscaped, lastRaw, h2]
    · rcases h3 with ⟨rfl, _⟩ | ⟨h', r', h3⟩
      · exact ⟨f h, (chars raw).reverse, by simp⟩
      · exact ⟨h', r' ++ .hole (f h) :: (chars raw).reverse, by simp [h3]⟩

theorem ends_of_pre {pre : List (Sym H)} {l : Text} (hpre : pre = [] ∨ ∃ h r, pre.reverse = .hole h :: r) :
    (EndsDollar (pre ++ chars l) ↔ EndsDollar (chars (H := H) l)) ∧ (EndsNull (pre ++ chars l) → EndsNull (chars (H := H) l)) ∧
      (EndsCR (pre ++ chars l) → EndsCR (chars (H := H) l)) := by
  rcases hpre with rfl | ⟨h, r, hr⟩
  · simp
  · have hx : bsS pre.reverse % 2 = 0 := by rw [hr]; rfl
    refine ⟨⟨fun he => ?_, fun he => endsDollar_append _ _ hx he⟩, fun he => ?_, fun he => ?_⟩
    · cases hl : l with
      | nil =>
        rw [hl] at he
        obtain ⟨r', hr', _⟩ := he
        rw [chars, List.map_nil, List.append_nil, hr] at hr'
        simp at hr'
      | cons c l' =>
        rw [hl] at he
        exact endsDollar_of_append _ _ hx (by simp [chars]) he
    · obtain ⟨r', hr'⟩ := he
      rw [List.reverse_append, hr] at hr'
      match hc : (chars (H := H) l).reverse, hr' with
      | [], hr' => simp at hr'
      | [x], hr' => simp at hr'
      | x :: y :: z, hr' =>
        simp only [List.cons_append, List.cons.injEq] at hr'
        exact ⟨z, by rw [hc, hr'.1, hr'.2.1]⟩
    · obtain ⟨r', hr'⟩ := he
      rw [List.reverse_append, hr] at hr'
      match hc : (chars (H := H) l).reverse, hr' with
      | [], hr' => simp at hr'
      | x :: z, hr' =>
        simp only [List.cons_append, List.cons.injEq] at hr'
        exact ⟨z, by rw [hc, hr'.1]⟩

theorem dollar_shape {t : Text} (h : endsWithUnescapedDollarSign t = true) : ∃ a, t = a ++ ['$'] := by
  unfold endsWithUnescapedDollarSign at h
  cases hr : t.reverse with
  | nil => simp [hr] at h
  | cons c b =>
    simp [hr] at h
    exact ⟨b.reverse, by rw [← List.reverse_reverse t, hr, h.1]; simp⟩

theorem nestedEscaped_eq (f : Nat → H) (raw : Text) (spans : List (Nat × Text)) (h : endsWithUnescapedDollarSign (lastRaw raw spans) = true) :
    nestedEscaped f raw spans = (nestedText f raw spans).dropLast ++ [.ch '\\', .ch '$'] := by
  obtain ⟨pre, h1, h2, _⟩ := nested_split f raw spans
  obtain ⟨a, ha⟩ := dollar_shape h
  rw [h1, h2, ha]
  simp [chars, ← List.append_assoc]

end Tsgolint.Template
