import Verif.Spec.Expression

/-! # What is written by the grammar is read again -/

namespace Tsgolint.Expression

/-- what the parser makes of the tokens, given enough steps -/
def Res (m : Mode) (ts : List Tok) (R : Option (Expr × List Tok)) : Prop := ∃ n, ∀ k, n ≤ k → parse k m ts = R

/-- the weakest operator that goes on with the last operand of an expression that binds like this -/
def absorb (l : Nat) : Nat := if 17 ≤ l then 19 else if l = 14 then 14 else if l ≤ 1 then 1 else l + 1

theorem lvl_le (e : Expr) : lvl e ≤ 18 := by
  induction e <;> simp [lvl, prec] <;> omega

theorem le_absorb {l : Nat} (h : l ≤ 18) : l ≤ absorb l := by
  unfold absorb
  split
  · omega
  · split
    · omega
    · split <;> omega

theorem absorb_pos (l : Nat) : 1 ≤ absorb l := by
  unfold absorb
  split
  · omega
  · split
    · omega
    · split <;> omega

/-- the next token does not go on with the last operand -/
def Free (l : Nat) (rest : List Tok) : Prop := ∀ t r k, rest = t :: r → lbp t = some k → k < absorb l

theorem stops {min : Nat} {e : Expr} {rest : List Tok} (h : ∀ t r k, rest = t :: r → lbp t = some k → k < min) : Res (.loop min e) rest (e, rest) := by
  refine ⟨1, fun k hk => ?_⟩
  obtain ⟨k, rfl⟩ : ∃ j, k = j + 1 := ⟨k - 1, by omega⟩
  cases rest with
  | nil => rfl
  | cons t r =>
    have : goesOn min t = false := by
      unfold goesOn
      cases hl : lbp t with
      | none => rfl
      | some b =>
        have := h t r b rfl hl
        simp; omega
    unfold parse
    rw [if_pos this]

theorem Free.stop {l min : Nat} {rest : List Tok} {e : Expr} (h : Free l rest) (hm : absorb l ≤ min) : Res (.loop min e) rest (e, rest) :=
  stops (fun t r k h1 h2 => Nat.lt_of_lt_of_le (h t r k h1 h2) hm)

theorem free_none {l : Nat} {t : Tok} {r : List Tok} (h : lbp t = none) : Free l (t :: r) := by
  intro t' r' k h1 h2
  obtain ⟨rfl, _⟩ := List.cons.inj h1
  rw [h] at h2; exact nomatch h2

theorem free_lt {l b : Nat} {t : Tok} {r : List Tok} (h : lbp t = some b) (hb : b < absorb l) : Free l (t :: r) := by
  intro t' r' k h1 h2
  obtain ⟨rfl, _⟩ := List.cons.inj h1
  rw [h] at h2
  obtain rfl := Option.some.inj h2
  exact hb

theorem Free.mono {l l' : Nat} {rest : List Tok} (h : Free l rest) (hl : absorb l ≤ absorb l') : Free l' rest :=
  fun t r k h1 h2 => Nat.lt_of_lt_of_le (h t r k h1 h2) hl

theorem stops_none {min : Nat} {e : Expr} {t : Tok} {r : List Tok} (h : lbp t = none) : Res (.loop min e) (t :: r) (e, t :: r) :=
  stops (fun t' r' k h1 h2 => by
    obtain ⟨rfl, _⟩ := List.cons.inj h1
    rw [h] at h2; exact nomatch h2)

/-- a step of the parser with one result of another step -/
theorem Res.step {m : Mode} {ts : List Tok} {R : Option (Expr × List Tok)} {m' : Mode} {ts' : List Tok} (h : Res m' ts' R)
    (hs : ∀ k, parse (k + 1) m ts = parse k m' ts') : Res m ts R := by
  obtain ⟨n, hn⟩ := h
  refine ⟨n + 1, fun k hk => ?_⟩
  obtain ⟨k, rfl⟩ : ∃ j, k = j + 1 := ⟨k - 1, by omega⟩
  rw [hs]
  exact hn k (by omega)

theorem Res.step₁ {m : Mode} {ts : List Tok} {R : Option (Expr × List Tok)} {m' m₁ : Mode} {ts' ts₁ : List Tok} {R₁ : Option (Expr × List Tok)} (h₁ : Res m₁ ts₁ R₁) (h : Res m' ts' R)
    (hs : ∀ k, parse k m₁ ts₁ = R₁ → parse (k + 1) m ts = parse k m' ts') : Res m ts R := by
  obtain ⟨n, hn⟩ := h
  obtain ⟨n₁, hn₁⟩ := h₁
  refine ⟨max n n₁ + 1, fun k hk => ?_⟩
  obtain ⟨k, rfl⟩ : ∃ j, k = j + 1 := ⟨k - 1, by omega⟩
  rw [hs k (hn₁ k (by omega))]
  exact hn k (by omega)

theorem Res.step₂ {m : Mode} {ts : List Tok} {R : Option (Expr × List Tok)} {m' m₁ m₂ : Mode} {ts' ts₁ ts₂ : List Tok} {R₁ R₂ : Option (Expr × List Tok)} (h₁ : Res m₁ ts₁ R₁) (h₂ : Res m₂ ts₂ R₂)
    (h : Res m' ts' R) (hs : ∀ k, parse k m₁ ts₁ = R₁ → parse k m₂ ts₂ = R₂ → parse (k + 1) m ts = parse k m' ts') : Res m ts R := by
  obtain ⟨n, hn⟩ := h
  obtain ⟨n₁, hn₁⟩ := h₁
  obtain ⟨n₂, hn₂⟩ := h₂
  refine ⟨max n (max n₁ n₂) + 1, fun k hk => ?_⟩
  obtain ⟨k, rfl⟩ : ∃ j, k = j + 1 := ⟨k - 1, by omega⟩
  rw [hs k (hn₁ k (by omega)) (hn₂ k (by omega))]
  exact hn k (by omega)

theorem goesOn_some {t : Tok} (min b : Nat) (h : lbp t = some b) (hb : min ≤ b) : (goesOn min t = false) = False := by
  unfold goesOn; rw [h]; simp [hb]

/-- what is read after an expression goes on as if the expression had been read -/
theorem reads (e : Expr) : ∀ (min : Nat) (rest : List Tok) (R : Option (Expr × List Tok)), WF e → min ≤ lvl e → Free (lvl e) rest → Res (.loop min e) rest R →
    Res (.expr min) (toks e ++ rest) R := by
  induction e with
  | atom a n =>
    intro min rest R _ _ _ h
    exact h.step (fun k => by simp only [toks, List.cons_append, List.nil_append, parse])
  | paren e ih =>
    intro min rest R hw _ _ h
    have h1 := ih 0 (.rp :: rest) (e, .rp :: rest) hw (Nat.zero_le _) (free_none rfl) (stops_none rfl)
    exact h1.step₁ h (fun k hk => by simp [toks, parse, hk])
  | dot e n ih =>
    intro min rest R hw hm hf h
    obtain ⟨hw, hl⟩ := hw
    have hle := lvl_le e
    rw [show toks (.dot e n) ++ rest = toks e ++ .dot n :: rest by simp [toks]]
    refine ih min _ R hw hm (free_lt (b := 18) rfl (by rw [absorb, if_pos hl]; omega)) ?_
    refine h.step (fun k => ?_)
    simp only [lvl] at hm
    simp only [parse, goesOn_some (t := .dot n) min (18) rfl (by omega), if_false, if_pos hl]
  | index e i ih ihi =>
    intro min rest R hw hm hf h
    obtain ⟨hw, hwi, hl⟩ := hw
    have hle := lvl_le e
    rw [show toks (.index e i) ++ rest = toks e ++ .lb :: (toks i ++ .rb :: rest) by simp [toks]]
    refine ih min _ R hw hm (free_lt (b := 18) rfl (by rw [absorb, if_pos hl]; omega)) ?_
    have h1 := ihi 0 (.rb :: rest) (i, .rb :: rest) hwi (Nat.zero_le _) (free_none rfl) (stops_none rfl)
    refine h1.step₁ h (fun k hk => ?_)
    simp only [lvl] at hm
    simp only [parse, goesOn_some (t := .lb) min (18) rfl (by omega), if_false, if_pos hl, hk]
  | call e a ih iha =>
    intro min rest R hw hm hf h
    obtain ⟨hw, hwa, hl, hla⟩ := hw
    have hle := lvl_le e
    rw [show toks (.call e a) ++ rest = toks e ++ .lp :: (toks a ++ .rp :: rest) by simp [toks]]
    simp only [lvl] at hm
    refine ih min _ R hw (by omega) (free_lt (b := 17) rfl (by rw [absorb, if_pos hl]; omega)) ?_
    have h1 := iha 1 (.rp :: rest) (a, .rp :: rest) hwa hla (free_none rfl) (stops_none rfl)
    refine h1.step₁ h (fun k hk => ?_)
    simp only [parse, goesOn_some (t := .lp) min (17) rfl (by omega), if_false, if_pos hl, hk]
  | tag e ih =>
    intro min rest R hw hm hf h
    obtain ⟨hw, hl⟩ := hw
    have hle := lvl_le e
    rw [show toks (.tag e) ++ rest = toks e ++ .tpl :: rest by simp [toks]]
    refine ih min _ R hw hm (free_lt (b := 18) rfl (by rw [absorb, if_pos hl]; omega)) ?_
    refine h.step (fun k => ?_)
    simp only [lvl] at hm
    simp only [parse, goesOn_some (t := .tpl) min (18) rfl (by omega), if_false, if_pos hl]
  | nonNull e ih =>
    intro min rest R hw hm hf h
    obtain ⟨hw, hl⟩ := hw
    have hle := lvl_le e
    rw [show toks (.nonNull e) ++ rest = toks e ++ .bang :: rest by simp [toks]]
    refine ih min _ R hw hm (free_lt (b := 18) rfl (by rw [absorb, if_pos hl]; omega)) ?_
    refine h.step (fun k => ?_)
    simp only [lvl] at hm
    simp only [parse, goesOn_some (t := .bang) min (18) rfl (by omega), if_false, if_pos hl]
  | newArgs c a ihc iha =>
    intro min rest R hw hm hf h
    obtain ⟨hw, hwa, hl, hla⟩ := hw
    rw [show toks (.newArgs c a) ++ rest = .new :: (toks c ++ .lp :: (toks a ++ .rp :: rest)) by simp [toks]]
    have h1 := ihc 18 (.lp :: (toks a ++ .rp :: rest)) (some (c, _)) hw hl (free_lt (b := 17) rfl (by rw [absorb, if_pos (by omega)]; omega))
      (stops (fun t r k h1 h2 => by obtain ⟨rfl, _⟩ := List.cons.inj h1; obtain rfl := Option.some.inj h2; omega))
    have h2 := iha 1 (.rp :: rest) (a, .rp :: rest) hwa hla (free_none rfl) (stops_none rfl)
    exact h1.step₂ h2 h (fun k hk hk' => by simp only [parse, hk, hk'])
  | newBare c ihc =>
    intro min rest R hw hm hf h
    obtain ⟨hw, hl⟩ := hw
    rw [show toks (.newBare c) ++ rest = .new :: (toks c ++ rest) by simp [toks]]
    have hf' : ∀ t r k, rest = t :: r → lbp t = some k → k < 17 := hf
    have h1 := ihc 18 rest (c, rest) hw hl (fun t r k h1 h2 => by
      have := hf' t r k h1 h2
      rw [absorb, if_pos (by omega)]; omega)
      (stops (fun t r k h1 h2 => by have := hf' t r k h1 h2; omega))
    refine h1.step₁ h (fun k hk => ?_)
    simp only [parse, hk]
    cases rest with
    | nil => rfl
    | cons t r =>
      cases t <;> try rfl
      have := hf' .lp r 17 rfl rfl
      omega
  | pre op e ih =>
    intro min rest R hw hm hf h
    obtain ⟨hw, hl⟩ := hw
    rw [show toks (.pre op e) ++ rest = .pre op :: (toks e ++ rest) by simp [toks]]
    have hf' : ∀ t r k, rest = t :: r → lbp t = some k → k < 14 := hf
    have h1 := ih 14 rest (e, rest) hw hl (fun t r k h1 h2 => by
      have := hf' t r k h1 h2
      have := le_absorb (lvl_le e)
      omega) (stops hf')
    refine h1.step₁ h (fun k hk => ?_)
    simp only [lvl] at hm
    simp only [parse, hk, if_pos hm]
  | post e ih =>
    intro min rest R hw hm hf h
    obtain ⟨hw, hl⟩ := hw
    rw [show toks (.post e) ++ rest = toks e ++ .post :: rest by simp [toks]]
    simp only [lvl] at hm
    have := le_absorb (lvl_le e)
    refine ih min _ R hw (by omega) (free_lt (b := 15) rfl (by omega)) ?_
    refine h.step (fun k => ?_)
    simp only [parse, goesOn_some (t := .post) min (15) rfl (by omega), if_false, if_pos hl]
  | bin op l r ihl ihr =>
    intro min rest R hw hm hf h
    obtain ⟨hwl, hwr, hl, hr⟩ := hw
    rw [show toks (.bin op l r) ++ rest = toks l ++ .op op :: (toks r ++ rest) by simp [toks]]
    simp only [lvl] at hm hf
    have hp : 4 ≤ prec op ∧ prec op ≤ 13 := by unfold prec; omega
    have hab : absorb (prec op) = prec op + 1 := by unfold absorb; rw [if_neg (by omega), if_neg (by omega), if_neg (by omega)]
    refine ihl min _ R hwl (by omega) (free_lt (b := prec op) rfl ?_) ?_
    · by_cases he : lvl l = prec op
      · rw [he, hab]; omega
      · have := le_absorb (lvl_le l); omega
    have hf' : ∀ t r' k, rest = t :: r' → lbp t = some k → k < prec op + 1 := by rw [← hab]; exact hf
    have h1 := ihr (prec op + 1) rest (r, rest) hwr hr (fun t r' k h1 h2 => by
      have := hf' t r' k h1 h2
      have := le_absorb (lvl_le r)
      omega) (stops hf')
    refine h1.step₁ h (fun k hk => ?_)
    simp only [parse, goesOn_some (t := .op op) min (prec op) rfl (by omega), if_false, hk]
  | sat e ih =>
    intro min rest R hw hm hf h
    obtain ⟨hw, hl⟩ := hw
    rw [show toks (.sat e) ++ rest = toks e ++ .sat :: rest by simp [toks]]
    simp only [lvl] at hm
    refine ih min _ R hw (by omega) (free_lt (b := 10) rfl ?_) ?_
    · by_cases he : lvl e = 10
      · rw [he]; decide
      · have := le_absorb (lvl_le e); omega
    refine h.step (fun k => ?_)
    simp only [parse, goesOn_some (t := .sat) min (10) rfl (by omega), if_false]
  | cond a b c iha ihb ihc =>
    intro min rest R hw hm hf h
    obtain ⟨hwa, hwb, hwc, ha, hb, hc⟩ := hw
    rw [show toks (.cond a b c) ++ rest = toks a ++ .quest :: (toks b ++ .colon :: (toks c ++ rest)) by simp [toks]]
    simp only [lvl] at hm
    have := le_absorb (lvl_le a)
    refine iha min _ R hwa (by omega) (free_lt (b := 2) rfl (by omega)) ?_
    have h1 := ihb 1 (.colon :: (toks c ++ rest)) (some (b, _)) hwb hb (free_none rfl) (stops_none rfl)
    have hf' : ∀ t r' k, rest = t :: r' → lbp t = some k → k < 1 := hf
    have h2 := ihc 1 rest (c, rest) hwc hc (fun t r' k h1 h2 => by
      have := hf' t r' k h1 h2
      have := absorb_pos (lvl c)
      omega) (stops hf')
    refine h1.step₂ h2 h (fun k hk hk' => ?_)
    simp only [parse, goesOn_some (t := .quest) min (2) rfl (by omega), if_false, hk, hk']
  | assign l r ihl ihr =>
    intro min rest R hw hm hf h
    obtain ⟨hwl, hwr, hl, hr⟩ := hw
    rw [show toks (.assign l r) ++ rest = toks l ++ .asg :: (toks r ++ rest) by simp [toks]]
    simp only [lvl] at hm
    have := le_absorb (lvl_le l)
    refine ihl min _ R hwl (by omega) (free_lt (b := 1) rfl (by omega)) ?_
    have hf' : ∀ t r' k, rest = t :: r' → lbp t = some k → k < 1 := hf
    have h1 := ihr 1 rest (r, rest) hwr hr (fun t r' k h1 h2 => by
      have := hf' t r' k h1 h2
      have := absorb_pos (lvl r)
      omega) (stops hf')
    refine h1.step₁ h (fun k hk => ?_)
    simp only [parse, goesOn_some (t := .asg) min (1) rfl (by omega), if_false, if_pos hl, hk]
  | arrow e ih =>
    intro min rest R hw hm hf h
    obtain ⟨hw, hl⟩ := hw
    rw [show toks (.arrow e) ++ rest = .arrow :: (toks e ++ rest) by simp [toks]]
    have hf' : ∀ t r k, rest = t :: r → lbp t = some k → k < 1 := hf
    have h1 := ih 1 rest (e, rest) hw hl (fun t r k h1 h2 => by
      have := hf' t r k h1 h2
      have := absorb_pos (lvl e)
      omega) (stops hf')
    refine h1.step₁ h (fun k hk => ?_)
    simp only [lvl] at hm
    simp only [parse, hk, if_pos hm]
  | comma l r ihl ihr =>
    intro min rest R hw hm hf h
    obtain ⟨hwl, hwr, hr⟩ := hw
    rw [show toks (.comma l r) ++ rest = toks l ++ .com :: (toks r ++ rest) by simp [toks]]
    simp only [lvl] at hm
    have := absorb_pos (lvl l)
    refine ihl min _ R hwl (by omega) (free_lt (b := 0) rfl (by omega)) ?_
    have hf' : ∀ t r' k, rest = t :: r' → lbp t = some k → k < 1 := hf
    have h1 := ihr 1 rest (r, rest) hwr hr (fun t r' k h1 h2 => by
      have := hf' t r' k h1 h2
      have := absorb_pos (lvl r)
      omega) (stops hf')
    refine h1.step₁ h (fun k hk => ?_)
    simp only [parse, goesOn_some (t := .com) min (0) rfl (by omega), if_false, hk]

theorem readsAs (e : Expr) (h : WF e) : ReadsAs (toks e) e := by
  have := reads e 0 [] (some (e, [])) h (Nat.zero_le _) (fun _ _ _ h => nomatch h) (stops (fun _ _ _ h => nomatch h))
  rw [List.append_nil] at this
  exact this

theorem ReadsAs.unique {text : List Tok} {e e' : Expr} (h : ReadsAs text e) (h' : ReadsAs text e') : e = e' := by
  obtain ⟨n, hn⟩ := h
  obtain ⟨n', hn'⟩ := h'
  have := (hn (max n n') (by omega)).symm.trans (hn' (max n n') (by omega))
  exact congrArg Prod.fst (Option.some.inj this)

end Tsgolint.Expression
