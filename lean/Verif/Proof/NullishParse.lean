import Verif.Spec.NullishFix
/-! # The grammar is not ambiguous -/
namespace Tsgolint.NullishFix

/-! A parser (with fuel) that finds whatever is derived -/

mutual
def pOperand : Nat → List Tok → Option (Ast × List Tok)
  | 0, _ => none
  | n + 1, .bang :: ts => (pOperand n ts).map fun p => (.not p.1, p.2)
  | n + 1, .lparen :: ts => (pShort n ts).bind fun p => match p.2 with
    | .rparen :: rest => some (.paren p.1, rest)
    | _ => none
  | _ + 1, .atom i :: ts => some (.atom i, ts)
  | _ + 1, _ => none
def pAnd : Nat → Ast → List Tok → Option (Ast × List Tok)
  | 0, _, _ => none
  | n + 1, a, .op .and :: ts => (pOperand n ts).bind fun p => pAnd n (.bin .and a p.1) p.2
  | _ + 1, a, ts => some (a, ts)
def pOr : Nat → Ast → List Tok → Option (Ast × List Tok)
  | 0, _, _ => none
  | n + 1, a, .op .or :: ts => (pOperand n ts).bind fun p => (pAnd n p.1 p.2).bind fun q => pOr n (.bin .or a q.1) q.2
  | _ + 1, a, ts => some (a, ts)
def pCoalesce : Nat → Ast → List Tok → Option (Ast × List Tok)
  | 0, _, _ => none
  | n + 1, a, .op .coalesce :: ts => (pOperand n ts).bind fun p => pCoalesce n (.bin .coalesce a p.1) p.2
  | _ + 1, a, ts => some (a, ts)
def pShort : Nat → List Tok → Option (Ast × List Tok)
  | 0, _ => none
  | n + 1, ts => (pOperand n ts).bind fun p => match p.2 with
    | .op .coalesce :: _ => pCoalesce n p.1 p.2
    | _ => (pAnd n p.1 p.2).bind fun q => pOr n q.1 q.2
end

/-- The first token is not this operator. -/
def Stops (o : LOp) (ts : List Tok) : Prop := ∀ rest, ts ≠ .op o :: rest

theorem pAnd_stop {n : Nat} {a : Ast} {ts : List Tok} (h : Stops .and ts) : pAnd (n + 1) a ts = some (a, ts) := by
  rw [pAnd]
  intro rest hr; exact h rest hr

theorem pOr_stop {n : Nat} {a : Ast} {ts : List Tok} (h : Stops .or ts) : pOr (n + 1) a ts = some (a, ts) := by
  rw [pOr]
  intro rest hr; exact h rest hr

theorem pCoalesce_stop {n : Nat} {a : Ast} {ts : List Tok} (h : Stops .coalesce ts) : pCoalesce (n + 1) a ts = some (a, ts) := by
  rw [pCoalesce]
  intro rest hr; exact h rest hr

/-- What is found, by symbol -/
def Finds : Symbol → List Tok → Ast → Prop
  | .operand, ts, a => ∀ rest, ∃ N, ∀ n, N ≤ n → pOperand n (ts ++ rest) = some (a, rest)
  | .and, ts, a => ∀ rest, ∃ N k, ∀ n, N ≤ n → ((pOperand (n + k) (ts ++ rest)).bind fun p => pAnd (n + k) p.1 p.2) = pAnd n a rest
  | .or, ts, a => ∀ rest, Stops .and rest → ∃ N k, ∀ n, N ≤ n →
      ((pOperand (n + k) (ts ++ rest)).bind fun p => (pAnd (n + k) p.1 p.2).bind fun q => pOr (n + k) q.1 q.2) = pOr n a rest
  | .coalesce, ts, a => ∀ rest, ∃ N k, ∀ n, N ≤ n → ((pOperand (n + k) (ts ++ rest)).bind fun p => pCoalesce (n + k) p.1 p.2) = pCoalesce n a rest
  | .short, ts, a => ∀ rest, (∀ o, Stops o rest) → ∃ N, ∀ n, N ≤ n → pShort n (ts ++ rest) = some (a, rest)

/-- What follows the first operand -/
def Second : Symbol → List Tok → Prop
  | .or, ts => ∀ rest, Stops .coalesce rest → ∃ a r, (∃ N, ∀ n, N ≤ n → pOperand n (ts ++ rest) = some (a, r)) ∧ Stops .coalesce r
  | .and, ts => ∀ rest, Stops .coalesce rest → ∃ a r, (∃ N, ∀ n, N ≤ n → pOperand n (ts ++ rest) = some (a, r)) ∧ Stops .coalesce r
  | .coalesce, ts => ∀ rest, ∃ a r, (∃ N, ∀ n, N ≤ n → pOperand n (ts ++ rest) = some (a, r)) ∧ ∃ r', r = .op .coalesce :: r'
  | _, _ => True

theorem stops_ne {o o' : LOp} (h : o' ≠ o) (ts : List Tok) : Stops o (.op o' :: ts) := fun _ hr => h (by cases hr; rfl)

theorem pShort_or {n : Nat} {ts : List Tok} {a : Ast} {r : List Tok} (h : pOperand n ts = some (a, r)) (hr : Stops .coalesce r) :
    pShort (n + 1) ts = (pOperand n ts).bind fun p => (pAnd n p.1 p.2).bind fun q => pOr n q.1 q.2 := by
  rw [pShort, h]
  simp only [Option.bind_some]
  split
  · exact absurd rfl (hr _)
  · rfl

theorem finds {s : Symbol} {ts : List Tok} {a : Ast} (h : Derives s ts a) : Finds s ts a ∧ Second s ts := by
  induction h with
  | atom =>
    refine ⟨fun rest => ⟨1, fun n hn => ?_⟩, trivial⟩
    obtain ⟨m, rfl⟩ : ∃ m, n = m + 1 := ⟨n - 1, by omega⟩
    rw [List.cons_append, pOperand]; rfl
  | not _ ih =>
    refine ⟨fun rest => ?_, trivial⟩
    obtain ⟨N, hN⟩ := ih.1 rest
    refine ⟨N + 1, fun n hn => ?_⟩
    obtain ⟨m, rfl⟩ : ∃ m, n = m + 1 := ⟨n - 1, by omega⟩
    rw [List.cons_append, pOperand, hN m (by omega)]; rfl
  | @paren ts a _ ih =>
    refine ⟨fun rest => ?_, trivial⟩
    obtain ⟨N, hN⟩ := ih.1 (.rparen :: rest) (fun o r h => by cases h)
    refine ⟨N + 1, fun n hn => ?_⟩
    obtain ⟨m, rfl⟩ : ∃ m, n = m + 1 := ⟨n - 1, by omega⟩
    have e : Tok.lparen :: ts ++ [.rparen] ++ rest = .lparen :: (ts ++ .rparen :: rest) := by simp
    rw [e, pOperand, hN m (by omega)]; rfl
  | @and1 ts a _ ih =>
    refine ⟨fun rest => ?_, fun rest hr => ?_⟩
    · obtain ⟨N, hN⟩ := ih.1 rest
      refine ⟨N, 0, fun n hn => ?_⟩
      rw [Nat.add_zero, hN n hn]; rfl
    · exact ⟨a, rest, ih.1 rest, hr⟩
  | @and ts us a b _ _ ih1 ih2 =>
    refine ⟨fun rest => ?_, fun rest hr => ?_⟩
    · obtain ⟨N1, k1, h1⟩ := ih1.1 (.op .and :: (us ++ rest))
      obtain ⟨N2, h2⟩ := ih2.1 rest
      refine ⟨N1 + N2, k1 + 1, fun n hn => ?_⟩
      have := h1 (n + 1) (by omega)
      rw [pAnd, h2 n (by omega)] at this
      rw [List.append_assoc, List.cons_append, show n + (k1 + 1) = n + 1 + k1 by omega, this]; rfl
    · obtain ⟨a', r, h, h'⟩ := ih1.2 (.op .and :: (us ++ rest)) (stops_ne (by decide) _)
      exact ⟨a', r, by rw [List.append_assoc]; exact h, h'⟩
  | @or1 ts a _ ih =>
    refine ⟨fun rest hr => ?_, ih.2⟩
    obtain ⟨N, k, hN⟩ := ih.1 rest
    refine ⟨N + k + 1, 0, fun n hn => ?_⟩
    obtain ⟨m, rfl⟩ : ∃ m, n = m + 1 + k := ⟨n - k - 1, by omega⟩
    have := hN (m + 1) (by omega)
    rw [Nat.add_zero, ← Option.bind_assoc, this, pAnd_stop hr]; rfl
  | @or ts us a b _ _ ih1 ih2 =>
    refine ⟨fun rest hr => ?_, fun rest hr => ?_⟩
    · obtain ⟨N1, k1, h1⟩ := ih1.1 (.op .or :: (us ++ rest)) (stops_ne (by decide) _)
      obtain ⟨N2, k2, h2⟩ := ih2.1 rest
      refine ⟨N1 + N2 + k2 + 1, k1 + 1, fun n hn => ?_⟩
      have := h1 (n + 1) (by omega)
      obtain ⟨m, rfl⟩ : ∃ m, n = m + 1 + k2 := ⟨n - k2 - 1, by omega⟩
      have h2 := h2 (m + 1) (by omega)
      have e : ((pOperand (m + 1 + k2) (us ++ rest)).bind fun p => (pAnd (m + 1 + k2) p.1 p.2).bind fun q => pOr (m + 1 + k2) (.bin .or a q.1) q.2) =
          pOr (m + 1 + k2) (.bin .or a b) rest := by
        rw [← Option.bind_assoc, h2, pAnd_stop hr]; rfl
      rw [pOr, e] at this
      rw [List.append_assoc, List.cons_append, show m + 1 + k2 + (k1 + 1) = m + 1 + k2 + 1 + k1 by omega, this]
    · obtain ⟨a', r, h, h'⟩ := ih1.2 (.op .or :: (us ++ rest)) (stops_ne (by decide) _)
      exact ⟨a', r, by rw [List.append_assoc]; exact h, h'⟩
  | @coalesce1 ts us a b _ _ ih1 ih2 =>
    refine ⟨fun rest => ?_, fun rest => ?_⟩
    · obtain ⟨N1, h1⟩ := ih1.1 (.op .coalesce :: (us ++ rest))
      obtain ⟨N2, h2⟩ := ih2.1 rest
      refine ⟨N1 + N2, 1, fun n hn => ?_⟩
      rw [List.append_assoc, List.cons_append, h1 (n + 1) (by omega)]
      simp only [Option.bind_some]
      rw [pCoalesce, h2 n (by omega)]; rfl
    · exact ⟨a, .op .coalesce :: (us ++ rest), by rw [List.append_assoc]; exact ih1.1 _, _, rfl⟩
  | @coalesce ts us a b _ _ ih1 ih2 =>
    refine ⟨fun rest => ?_, fun rest => ?_⟩
    · obtain ⟨N1, k1, h1⟩ := ih1.1 (.op .coalesce :: (us ++ rest))
      obtain ⟨N2, h2⟩ := ih2.1 rest
      refine ⟨N1 + N2, k1 + 1, fun n hn => ?_⟩
      have := h1 (n + 1) (by omega)
      rw [pCoalesce, h2 n (by omega)] at this
      rw [List.append_assoc, List.cons_append, show n + (k1 + 1) = n + 1 + k1 by omega, this]; rfl
    · obtain ⟨a', r, h, h'⟩ := ih1.2 (.op .coalesce :: (us ++ rest))
      exact ⟨a', r, by rw [List.append_assoc]; exact h, h'⟩
  | @shortOr ts a _ ih =>
    refine ⟨fun rest hr => ?_, trivial⟩
    obtain ⟨N, k, hN⟩ := ih.1 rest (hr _)
    obtain ⟨a', r, ⟨N', h'⟩, hs⟩ := ih.2 rest (hr _)
    refine ⟨N + k + N' + 2, fun n hn => ?_⟩
    obtain ⟨m, rfl⟩ : ∃ m, n = m + 1 + k + 1 := ⟨n - k - 2, by omega⟩
    rw [pShort_or (h' _ (by omega)) hs, hN (m + 1) (by omega), pOr_stop (hr _)]
  | @shortCoalesce ts a _ ih =>
    refine ⟨fun rest hr => ?_, trivial⟩
    obtain ⟨N, k, hN⟩ := ih.1 rest
    obtain ⟨a', r, ⟨N', h'⟩, r', rfl⟩ := ih.2 rest
    refine ⟨N + k + N' + 2, fun n hn => ?_⟩
    obtain ⟨m, rfl⟩ : ∃ m, n = m + 1 + k + 1 := ⟨n - k - 2, by omega⟩
    have := hN (m + 1) (by omega)
    rw [h' _ (by omega), pCoalesce_stop (hr _)] at this
    rw [pShort, h' _ (by omega)]
    exact this

theorem parsed_short {ts : List Tok} {a : Ast} (h : Derives .short ts a) : ∃ N, ∀ n, N ≤ n → pShort n ts = some (a, []) := by
  have := (finds h).1 [] (fun o r h => by cases h)
  simpa using this

/-- The grammar is not ambiguous: a text is parsed in one way. -/
theorem unambiguous {ts : List Tok} {a b : Ast} (ha : Derives .short ts a) (hb : Derives .short ts b) : a = b := by
  obtain ⟨N, hN⟩ := parsed_short ha
  obtain ⟨M, hM⟩ := parsed_short hb
  have := (hN (N + M) (by omega)).symm.trans (hM (N + M) (by omega))
  cases this; rfl

end Tsgolint.NullishFix
