import Verif.Proof.Template
namespace Tsgolint.Template
open Tsgolint.StringLiteral (utf16 hexValue)
variable {H : Type} {ev : H → List Val → Prop} {p : Place}

/-- The first character after the backslash of an escape. -/
theorem esc_head {e : Text} {u : List Nat} (h : Esc e u) : ∃ c t, e = c :: t ∧ c ≠ '0' ∧ (c = '\r' → t = ['\n']) := by
  cases h with
  | @single c n h =>
    refine ⟨c, [], rfl, ?_, ?_⟩ <;> (rintro rfl; simp at h)
  | hex => exact ⟨_, _, rfl, by decide, fun h => absurd h (by decide)⟩
  | unicode => exact ⟨_, _, rfl, by decide, fun h => absurd h (by decide)⟩
  | codePoint => exact ⟨_, _, rfl, by decide, fun h => absurd h (by decide)⟩
  | @char c h1 h2 =>
    refine ⟨c, [], rfl, ?_, ?_⟩
    · rintro rfl; revert h2; decide
    · rintro rfl; revert h1; decide
  | @newline c h =>
    refine ⟨c, [], rfl, ?_, ?_⟩ <;> (rintro rfl; revert h; decide)
  | crlf => exact ⟨_, _, rfl, by decide, fun _ => rfl⟩

theorem hexes_unique {ds ds' : Text} {s s' : List (Sym H)} (h : ∀ c ∈ ds, ∃ v, hexValue c = some v) (h' : ∀ c ∈ ds', ∃ v, hexValue c = some v)
    (he : chars ds ++ .ch '}' :: s = chars ds' ++ .ch '}' :: s') : ds = ds' := by
  induction ds generalizing ds' with
  | nil =>
    cases ds' with
    | nil => rfl
    | cons c t =>
      simp only [chars, List.map_nil, List.nil_append, List.map_cons, List.cons_append, List.cons.injEq, Sym.ch.injEq] at he
      obtain ⟨v, hv⟩ := h' c (by simp)
      rw [← he.1] at hv
      simp [hexValue] at hv
  | cons d ds ih =>
    cases ds' with
    | nil =>
      simp only [chars, List.map_nil, List.nil_append, List.map_cons, List.cons_append, List.cons.injEq, Sym.ch.injEq] at he
      obtain ⟨v, hv⟩ := h d (by simp)
      rw [he.1] at hv
      simp [hexValue] at hv
    | cons c t =>
      simp only [chars, List.map_cons, List.cons_append, List.cons.injEq, Sym.ch.injEq] at he
      rw [he.1, ih (fun c hc => h c (by simp [hc])) (fun c hc => h' c (by simp [hc])) he.2]

/-- Whether an escape is of a kind is seen from its first characters. -/
theorem esc_unique {e e' : Text} {u u' : List Nat} {s s' : List (Sym H)} (h : Esc e u) (h' : Esc e' u') (he : chars e ++ s = chars e' ++ s') :
    e = e' ∧ u = u' := by
  have brace : ∀ v, hexValue '{' ≠ some v := by intro v; simp [hexValue]
  cases h with
  | @single c n hm =>
    cases h' with
    | @single c' n' hm' =>
      simp [chars] at he
      obtain ⟨rfl, _⟩ := he
      refine ⟨rfl, ?_⟩
      simp only [List.mem_cons, Prod.mk.injEq, List.not_mem_nil, or_false] at hm hm'
      rcases hm with ⟨rfl, rfl⟩ | ⟨rfl, rfl⟩ | ⟨rfl, rfl⟩ | ⟨rfl, rfl⟩ | ⟨rfl, rfl⟩ | ⟨rfl, rfl⟩ <;> (simp at hm'; rw [hm'])
    | hex => simp [chars] at he; rw [he.1] at hm; simp at hm
    | unicode => simp [chars] at he; rw [he.1] at hm; simp at hm
    | codePoint => simp [chars] at he; rw [he.1] at hm; simp at hm
    | char h1 => simp [chars] at he; rw [← he.1] at h1; revert hm h1; simp; grind
    | newline h1 => simp [chars] at he; rw [← he.1] at h1; revert hm h1; simp; grind
    | crlf => simp [chars] at he; rw [he.1] at hm; simp at hm
  | @hex a b x hx =>
    cases h' with
    | single hm => simp [chars] at he; rw [← he.1] at hm; simp at hm
    | hex hx' =>
      simp [chars] at he
      obtain ⟨rfl, rfl, _⟩ := he
      rw [hx] at hx'
      exact ⟨rfl, by simpa using hx'⟩
    | unicode => simp [chars] at he
    | codePoint => simp [chars] at he
    | char h1 => simp [chars] at he; rw [← he.1] at h1; simp at h1
    | newline h1 => simp [chars] at he; rw [← he.1] at h1; simp at h1
    | crlf => simp [chars] at he
  | @unicode a b c d x hx =>
    cases h' with
    | single hm => simp [chars] at he; rw [← he.1] at hm; simp at hm
    | hex hx' => simp [chars] at he
    | unicode hx' =>
      simp [chars] at he
      obtain ⟨rfl, rfl, rfl, rfl, _⟩ := he
      rw [hx] at hx'
      exact ⟨rfl, by simpa using hx'⟩
    | codePoint =>
      simp [chars] at he
      obtain ⟨v, hv⟩ := hexNumber_hex _ _ _ hx a (by simp)
      rw [he.1] at hv
      exact absurd hv (brace v)
    | char h1 => simp [chars] at he; rw [← he.1] at h1; simp at h1
    | newline h1 => simp [chars] at he; rw [← he.1] at h1; simp at h1
    | crlf => simp [chars] at he
  | @codePoint ds x h0 hx hle =>
    cases h' with
    | single hm => simp [chars] at he; rw [← he.1] at hm; simp at hm
    | hex hx' => simp [chars] at he
    | unicode hx' =>
      simp [chars] at he
      obtain ⟨v, hv⟩ := hexNumber_hex _ _ _ hx' _ (List.mem_cons_self)
      rw [← he.1] at hv
      exact absurd hv (brace v)
    | codePoint h0' hx' hle' =>
      simp [chars] at he
      have := hexes_unique (hexNumber_hex _ _ _ hx) (hexNumber_hex _ _ _ hx') he
      subst this
      rw [hx] at hx'
      simp only [Option.some.injEq] at hx'
      subst hx'
      exact ⟨rfl, rfl⟩
    | char h1 => simp [chars] at he; rw [← he.1] at h1; simp at h1
    | newline h1 => simp [chars] at he; rw [← he.1] at h1; simp at h1
    | crlf => simp [chars] at he
  | @char c h1 h2 =>
    cases h' with
    | single hm => simp [chars] at he; rw [← he.1] at hm; revert hm h1; simp; grind
    | hex hx' => simp [chars] at he; rw [he.1] at h1; simp at h1
    | unicode hx' => simp [chars] at he; rw [he.1] at h1; simp at h1
    | codePoint => simp [chars] at he; rw [he.1] at h1; simp at h1
    | char h1' h2' => simp [chars] at he; rw [he.1]; exact ⟨rfl, rfl⟩
    | newline h1' => simp [chars] at he; rw [← he.1] at h1'; revert h1' h1; simp; grind
    | crlf => simp [chars] at he; rw [he.1] at h1; simp at h1
  | @newline c h1 =>
    cases h' with
    | single hm => simp [chars] at he; rw [← he.1] at hm; revert hm h1; simp; grind
    | hex hx' => simp [chars] at he; rw [he.1] at h1; simp at h1
    | unicode hx' => simp [chars] at he; rw [he.1] at h1; simp at h1
    | codePoint => simp [chars] at he; rw [he.1] at h1; simp at h1
    | char h1' h2' => simp [chars] at he; rw [← he.1] at h1'; revert h1' h1; simp; grind
    | newline h1' => simp [chars] at he; rw [he.1]; exact ⟨rfl, rfl⟩
    | crlf => simp [chars] at he; rw [he.1] at h1; simp at h1
  | crlf =>
    cases h' with
    | single hm => simp [chars] at he; rw [← he.1] at hm; simp at hm
    | hex hx' => simp [chars] at he
    | unicode hx' => simp [chars] at he
    | codePoint => simp [chars] at he
    | char h1' h2' => simp [chars] at he; rw [← he.1] at h1'; simp at h1'
    | newline h1' => simp [chars] at he; rw [← he.1] at h1'; simp at h1'
    | crlf => exact ⟨rfl, rfl⟩

theorem plain_ne (p : Place) (c : Char) (h : Plain p c) : c ≠ '\\' ∧ (p = .template → c ≠ '$' ∧ c ≠ '\r') := by
  cases p with
  | template => simp only [Plain, List.mem_cons, List.not_mem_nil, or_false, not_or] at h; exact ⟨h.2.1, fun _ => ⟨h.2.2.1, h.2.2.2⟩⟩
  | str q => simp only [Plain, List.mem_cons, List.not_mem_nil, or_false, not_or] at h; exact ⟨h.2.1, fun h => by cases h⟩

/-- A text has at most one value. -/
theorem reads_unique (hev : ∀ h w w', ev h w → ev h w' → w = w') {s : List (Sym H)} {v v' : List Val} (h : Reads ev p s v)
    (h' : Reads ev p s v') : v = v' := by
  induction h generalizing v' with
  | nil => cases h'; rfl
  | @plain c s w hc hs ih =>
    have hne := plain_ne p c hc
    generalize hx : Sym.ch c :: s = x at h'
    cases h' with
    | nil => cases hx
    | plain _ hs' => simp at hx; obtain ⟨rfl, rfl⟩ := hx; rw [ih hs']
    | esc => simp at hx; exact absurd hx.1 hne.1
    | null => simp at hx; exact absurd hx.1 hne.1
    | carriage => simp at hx; exact absurd hx.1 hne.1
    | dollar hp => simp at hx; exact absurd hx.1 (hne.2 hp).1
    | crlf hp => simp at hx; exact absurd hx.1 (hne.2 hp).2
    | cr hp => simp at hx; exact absurd hx.1 (hne.2 hp).2
    | hole => simp at hx
  | @esc e u s w he hs ih =>
    generalize hx : Sym.ch '\\' :: (chars e ++ s) = x at h'
    obtain ⟨c, t, rfl, hc0, hcr⟩ := esc_head he
    cases h' with
    | nil => cases hx
    | plain hc => simp at hx; exact absurd hx.1.symm (plain_ne p _ hc).1
    | esc he' hs' =>
      simp at hx
      obtain ⟨h1, rfl⟩ := esc_unique he he' hx
      rw [← h1] at hx
      simp at hx
      subst hx
      rw [ih hs']
    | null => simp [chars] at hx; exact absurd hx.1 hc0
    | carriage hn =>
      simp [chars] at hx
      rw [hcr hx.1] at hx
      exact absurd ⟨'\n', s, hx.2.symm, rfl⟩ hn
    | dollar => simp at hx
    | crlf => simp at hx
    | cr => simp at hx
    | hole => simp at hx
  | @null s w hb hs ih =>
    generalize hx : Sym.ch '\\' :: .ch '0' :: s = x at h'
    cases h' with
    | nil => cases hx
    | plain hc => simp at hx; exact absurd hx.1.symm (plain_ne p _ hc).1
    | esc he' hs' =>
      obtain ⟨c, t, rfl, hc0, hcr⟩ := esc_head he'
      simp [chars] at hx; exact absurd hx.1.symm hc0
    | null _ hs' => simp at hx; subst hx; rw [ih hs']
    | carriage => simp at hx
    | dollar => simp at hx
    | crlf => simp at hx
    | cr => simp at hx
    | hole => simp at hx
  | @carriage s w hb hs ih =>
    generalize hx : Sym.ch '\\' :: .ch '\r' :: s = x at h'
    cases h' with
    | nil => cases hx
    | plain hc => simp at hx; exact absurd hx.1.symm (plain_ne p _ hc).1
    | esc he' hs' =>
      obtain ⟨c, t, rfl, hc0, hcr⟩ := esc_head he'
      simp [chars] at hx
      rw [hcr hx.1.symm] at hx
      exact absurd ⟨'\n', _, hx.2, rfl⟩ hb
    | null => simp at hx
    | carriage _ hs' => simp at hx; subst hx; exact ih hs'
    | dollar => simp at hx
    | crlf => simp at hx
    | cr => simp at hx
    | hole => simp at hx
  | @dollar s w hp hb hs ih =>
    generalize hx : Sym.ch '$' :: s = x at h'
    cases h' with
    | nil => cases hx
    | plain hc => simp at hx; exact absurd hx.1.symm ((plain_ne p _ hc).2 hp).1
    | esc => simp at hx
    | null => simp at hx
    | carriage => simp at hx
    | dollar _ _ hs' => simp at hx; subst hx; rw [ih hs']
    | crlf => simp at hx
    | cr => simp at hx
    | hole => simp at hx
  | @crlf s w hp hs ih =>
    generalize hx : Sym.ch '\r' :: .ch '\n' :: s = x at h'
    cases h' with
    | nil => cases hx
    | plain hc => simp at hx; exact absurd hx.1.symm ((plain_ne p _ hc).2 hp).2
    | esc => simp at hx
    | null => simp at hx
    | carriage => simp at hx
    | dollar => simp at hx
    | crlf _ hs' => simp at hx; subst hx; rw [ih hs']
    | cr _ hb => simp at hx; exact absurd ⟨'\n', s, hx.symm, rfl⟩ hb
    | hole => simp at hx
  | @cr s w hp hb hs ih =>
    generalize hx : Sym.ch '\r' :: s = x at h'
    cases h' with
    | nil => cases hx
    | plain hc => simp at hx; exact absurd hx.1.symm ((plain_ne p _ hc).2 hp).2
    | esc => simp at hx
    | null => simp at hx
    | carriage => simp at hx
    | dollar => simp at hx
    | crlf => simp at hx; exact absurd ⟨'\n', _, hx, rfl⟩ hb
    | cr _ _ hs' => simp at hx; subst hx; rw [ih hs']
    | hole => simp at hx
  | @hole h w s v hp he hs ih =>
    cases h' with
    | hole _ he' hs' => rw [hev _ _ _ he he', ih hs']

theorem denotes_unique (e : Interp) (w w' : List Val) (h : Denotes e w) (h' : Denotes e w') : w = w' := by
  cases h with
  | keep => cases h'; rfl
  | word => cases h'; rfl
  | str h => cases h' with | str h' => exact reads_unique (fun h => h.elim) h h'
  | template h => cases h' with | template h' => exact reads_unique (fun h => h.elim) h h'
  | number => cases h'; rfl
  | regex => cases h'; rfl
  | nested h => cases h' with | nested h' => exact reads_unique (fun _ _ _ h h' => by rw [show _ = _ from h, show _ = _ from h']) h h'
end Tsgolint.Template
