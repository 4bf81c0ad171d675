import Verif.Proof.BaseToString
/-! # C62: no-base-to-string and its memo -/
namespace Tsgolint.BaseToString

/-- Answers that satisfy the equations at all types that do not contain themselves exist. -/
theorem C62_answers_exist (e : Env) : ∃ f, ∀ q, e.NotRecursive q → Answers e f q := by
  classical
  let F : (q : Query) → e.NotRecursive q → Usefulness := fun q h =>
    Acc.recOn (motive := fun _ _ => Usefulness) h (fun q _ ih =>
      value (fun r => if hr : e.Child r q then ih r hr else .always) (e.shape q))
  have hF : ∀ q (h : e.NotRecursive q), F q h = value (fun r => if hr : e.Child r q then F r (h.inv hr) else .always) (e.shape q) := by
    intro q h
    cases h with
    | intro _ h => rfl
  let f : Query → Usefulness := fun q => if h : e.NotRecursive q then F q h else .always
  have congr : ∀ (sh : Shape) (g h : Query → Usefulness), (∀ q ∈ sh.children, g q = h q) → value g sh = value h sh := by
    intro sh g h hc
    cases sh with
    | const u => rfl
    | ask b q => exact hc q (by simp [Shape.children])
    | union qs => simp only [value]; rw [List.map_congr_left (l := qs) hc]
    | intersection qs => simp only [value]; rw [List.map_congr_left (l := qs) hc]
    | tuple b qs => simp only [value]; rw [List.map_congr_left (l := qs) hc]
  refine ⟨f, fun q hq => (answers_iff e f q).2 ?_⟩
  have h1 : f q = F q hq := by simp [f, hq]
  rw [h1, hF]
  refine congr _ _ _ fun r hr => ?_
  have hr' : e.Child r q := hr
  have h2 : e.NotRecursive r := hq.inv hr'
  simp [f, hr', h2]

/-- and there is only one answer for each. -/
theorem C62_answers_unique (e : Env) (f g : Query → Usefulness) (hf : ∀ q, e.NotRecursive q → Answers e f q)
    (hg : ∀ q, e.NotRecursive q → Answers e g q) (q : Query) (hq : e.NotRecursive q) : f q = g q := by
  induction hq with
  | intro q h ih =>
    rw [(answers_iff e f q).1 (hf q ⟨q, h⟩), (answers_iff e g q).1 (hg q ⟨q, h⟩)]
    cases hs : e.shape q with
    | const u => rfl
    | ask b r => exact ih r (by simp [Env.Child, hs, Shape.children])
    | union qs => simp only [value]; rw [List.map_congr_left fun r hr => ih r (by simpa [Env.Child, hs, Shape.children] using hr)]
    | intersection qs => simp only [value]; rw [List.map_congr_left fun r hr => ih r (by simpa [Env.Child, hs, Shape.children] using hr)]
    | tuple b qs => simp only [value]; rw [List.map_congr_left fun r hr => ih r (by simpa [Env.Child, hs, Shape.children] using hr)]

theorem runChecks_good {e : Env} {f : Query → Usefulness} (hf : ∀ q, e.NotRecursive q → Answers e f q) (fuel : Nat) (cs : List (Query × Nat)) :
    ∀ m rs m', runChecks e fuel m cs = some (rs, m') → Inv e f m → (∀ r, m.resolving r = false) →
      Inv e f m' ∧ (∀ r, m'.resolving r = false) ∧
      ((∀ c ∈ cs, e.NotRecursive c.1) → rs = (cs.filter (fun c => decide (f c.1 ≠ .always))).map (fun c => (c.1.mode, c.2, f c.1))) := by
  induction cs with
  | nil => intro m rs m' h hi hr; simp [runChecks] at h; obtain ⟨rfl, rfl⟩ := h; exact ⟨hi, hr, fun _ => rfl⟩
  | cons c cs ih =>
    obtain ⟨q, node⟩ := c
    intro m rs m' h hi hr
    simp only [runChecks, Option.bind_eq_bind, Option.bind_eq_some_iff] at h
    obtain ⟨⟨u, m1⟩, h1, ⟨rs', m2⟩, h2, h3⟩ := h
    simp only [Option.some.injEq] at h3
    obtain ⟨i1, r1, e1⟩ := eval_good (fun q hq => (answers_iff e f q).1 (hf q hq)) fuel m [] q u m1 h1 hi
      (fun r hr' => by rw [hr r] at hr'; cases hr') (fun t ht => by simp at ht)
    obtain ⟨i2, r2, e2⟩ := ih m1 rs' m2 h2 i1 (fun r => by rw [r1]; exact hr r)
    have hm : m' = m2 := by split at h3 <;> cases h3 <;> rfl
    subst hm
    refine ⟨i2, r2, fun hn => ?_⟩
    have hq := e1 (hn _ (List.mem_cons_self ..))
    have hrs := e2 (fun c hc => hn c (List.mem_cons_of_mem _ hc))
    simp only [List.filter_cons]
    by_cases hu : u = .always
    · rw [if_pos hu] at h3; cases h3
      have : f q = .always := by rw [← hq]; exact hu
      simp [this, hrs]
    · rw [if_neg hu] at h3; cases h3
      have : ¬ f q = .always := by rw [← hq]; exact hu
      simp [this, hrs, hq]

/-- One question, after any file so far (also one with recursive types): for a type that does not contain itself the answer is that of the
equations. So it does not depend on what was asked before. -/
theorem C62_history (e : Env) (f : Query → Usefulness) (hf : ∀ q, e.NotRecursive q → Answers e f q) (fuel fuel' : Nat)
    (before : List (Query × Nat)) (rs : List Report) (m : Memo) (hb : runChecks e fuel {} before = some (rs, m))
    (q : Query) (u : Usefulness) (m' : Memo) (h : eval e fuel' m [] q = some (u, m')) (hq : e.NotRecursive q) : u = f q := by
  obtain ⟨hi, hr, -⟩ := runChecks_good hf fuel before {} rs m hb ⟨by simp⟩ (fun _ => rfl)
  exact (eval_good (fun q hq => (answers_iff e f q).1 (hf q hq)) fuel' m [] q u m' h hi
    (fun r hr' => by rw [hr r] at hr'; cases hr') (fun t ht => by simp at ht)).2.2 hq

/-- A file all of whose types do not contain themselves: reported are exactly the expressions the equations give anything but `always`. -/
theorem C62_reports (e : Env) (f : Query → Usefulness) (hf : ∀ q, e.NotRecursive q → Answers e f q) (fuel : Nat) (evs : List Event)
    (rs : List Report) (m : Memo) (h : run e fuel evs = some (rs, m)) (hn : ∀ c ∈ evs.flatMap checks, e.NotRecursive c.1) :
    rs = ((evs.flatMap checks).filter (fun c => decide (f c.1 ≠ .always))).map (fun c => (c.1.mode, c.2, f c.1)) :=
  (runChecks_good hf fuel _ {} rs m h ⟨by simp⟩ (fun _ => rfl)).2.2 hn

/-- What is asked. -/
theorem C62_checks (ev : Event) (q : Query) (node : Nat) : (q, node) ∈ checks ev ↔
    (∃ l r, ev = .binary true l r ∧ ∃ x, q = ⟨.toString, x.type⟩ ∧ node = x.node ∧ x.isLiteral = false ∧
      ((x = r ∧ l.typeName = "string") ∨ (x = l ∧ l.typeName ≠ "string" ∧ r.typeName = "string" ∧ l.isPrivateName = false))) ∨
    (∃ x mem, ev = .call true false (some x) mem ∧ q = ⟨.toString, x.type⟩ ∧ node = x.node ∧ x.isLiteral = false) ∨
    (∃ b s first name x, ev = .call b s first (some (name, x)) ∧ ¬ (b = true ∧ s = false ∧ first ≠ none) ∧ node = x.node ∧
      ((name = "join" ∧ q = ⟨.join, x.type⟩) ∨ ((name = "toString" ∨ name = "toLocaleString") ∧ q = ⟨.toString, x.type⟩ ∧ x.isLiteral = false))) ∨
    (∃ spans x, ev = .template false spans ∧ x ∈ spans ∧ q = ⟨.toString, x.type⟩ ∧ node = x.node ∧ x.isLiteral = false) := by
  have hce : ∀ x : Expr, (q, node) ∈ checkExpression x ↔ q = ⟨.toString, x.type⟩ ∧ node = x.node ∧ x.isLiteral = false := by
    intro x; rw [checkExpression]; cases x.isLiteral <;> simp
  cases ev with
  | binary plus l r =>
    rw [checks]
    cases plus
    · simp
    · by_cases hl : l.typeName = "string"
      · simp only [hl, Bool.not_true, Bool.false_eq_true, if_false, if_true, hce]
        constructor
        · rintro ⟨h1, h2, h3⟩; exact .inl ⟨l, r, rfl, r, h1, h2, h3, .inl ⟨rfl, hl⟩⟩
        · rintro (⟨l', r', h, x, h1, h2, h3, ⟨rfl, -⟩ | ⟨rfl, h4, -⟩⟩ | ⟨_, _, h, _⟩ | ⟨_, _, _, _, _, h, _⟩ | ⟨_, _, h, _⟩)
          · cases h; exact ⟨h1, h2, h3⟩
          · cases h; exact absurd hl h4
          all_goals cases h
      · by_cases hr : (r.typeName = "string" && !l.isPrivateName) = true
        · simp only [hl, Bool.not_true, Bool.false_eq_true, if_false, hr, if_true, hce]
          simp only [Bool.and_eq_true, decide_eq_true_eq, Bool.not_eq_true'] at hr
          constructor
          · rintro ⟨h1, h2, h3⟩; exact .inl ⟨l, r, rfl, l, h1, h2, h3, .inr ⟨rfl, hl, hr.1, hr.2⟩⟩
          · rintro (⟨l', r', h, x, h1, h2, h3, ⟨rfl, h4⟩ | ⟨rfl, h4, -⟩⟩ | ⟨_, _, h, _⟩ | ⟨_, _, _, _, _, h, _⟩ | ⟨_, _, h, _⟩)
            · cases h; exact absurd h4 hl
            · cases h; exact ⟨h1, h2, h3⟩
            all_goals cases h
        · simp only [hl, Bool.not_true, Bool.false_eq_true, if_false, hr, List.not_mem_nil, false_iff]
          rintro (⟨l', r', h, x, h1, h2, h3, ⟨rfl, h4⟩ | ⟨rfl, h4, h5, h6⟩⟩ | ⟨_, _, h, _⟩ | ⟨_, _, _, _, _, h, _⟩ | ⟨_, _, h, _⟩)
          · cases h; exact hl h4
          · cases h; exact hr (by simp [h5, h6])
          all_goals cases h
  | call b s first mem =>
    by_cases hc : b = true ∧ s = false ∧ first ≠ none
    · obtain ⟨rfl, rfl, hf⟩ := hc
      obtain ⟨x, rfl⟩ := Option.ne_none_iff_exists'.1 hf
      simp only [checks, Bool.not_false, Bool.and_self, hce]
      constructor
      · rintro ⟨h1, h2, h3⟩; exact .inr (.inl ⟨x, mem, rfl, h1, h2, h3⟩)
      · rintro (⟨_, _, h, _⟩ | ⟨x', mem', h, h1, h2, h3⟩ | ⟨_, _, _, _, _, h, h', _⟩ | ⟨_, _, h, _⟩)
        · cases h
        · cases h; exact ⟨h1, h2, h3⟩
        · cases h; exact absurd ⟨rfl, rfl, by simp⟩ h'
        · cases h
    · have hstep : checks (.call b s first mem) = match mem with
          | none => []
          | some (name, x) => if name = "join" then [(⟨.join, x.type⟩, x.node)]
            else if name = "toLocaleString" ∨ name = "toString" then checkExpression x else [] := by
        cases b <;> cases s <;> cases first <;> first | rfl | exact absurd ⟨rfl, rfl, by simp⟩ hc
      rw [hstep]
      have hno : ¬ ∃ x mem', Event.call b s first mem = .call true false (some x) mem' ∧ q = ⟨.toString, x.type⟩ ∧ node = x.node ∧ x.isLiteral = false := by
        rintro ⟨x, mem', h, -⟩; cases h; exact hc ⟨rfl, rfl, by simp⟩
      cases mem with
      | none =>
        simp only [List.not_mem_nil, false_iff]
        rintro (⟨_, _, h, _⟩ | h | ⟨_, _, _, _, _, h, _⟩ | ⟨_, _, h, _⟩)
        · cases h
        · exact hno h
        · cases h
        · cases h
      | some p =>
        obtain ⟨name, x⟩ := p
        have : ((q, node) ∈ (if name = "join" then [((⟨.join, x.type⟩ : Query), x.node)]
            else if name = "toLocaleString" ∨ name = "toString" then checkExpression x else [])) ↔
            node = x.node ∧ ((name = "join" ∧ q = ⟨.join, x.type⟩) ∨ ((name = "toString" ∨ name = "toLocaleString") ∧ q = ⟨.toString, x.type⟩ ∧ x.isLiteral = false)) := by
          by_cases h1 : name = "join"
          · subst h1; simp [and_comm]
          · by_cases h2 : name = "toLocaleString" ∨ name = "toString"
            · rw [if_neg h1, if_pos h2, hce]
              simp only [h1, false_and, false_or]
              constructor
              · rintro ⟨a, b, c⟩; exact ⟨b, h2.symm, a, c⟩
              · rintro ⟨b, -, a, c⟩; exact ⟨a, b, c⟩
            · rw [if_neg h1, if_neg h2]
              simp only [List.not_mem_nil, h1, false_and, false_or, false_iff]
              rintro ⟨-, h, -⟩; exact h2 h.symm
        simp only [this]
        constructor
        · rintro ⟨h1, h2⟩; exact .inr (.inr (.inl ⟨b, s, first, name, x, rfl, hc, h1, h2⟩))
        · rintro (⟨_, _, h, _⟩ | h | ⟨_, _, _, _, _, h, _, h1, h2⟩ | ⟨_, _, h, _⟩)
          · cases h
          · exact absurd h hno
          · cases h; exact ⟨h1, h2⟩
          · cases h
  | template tagged spans =>
    rw [checks]
    cases tagged
    · simp only [Bool.false_eq_true, if_false, List.mem_flatMap, hce]
      constructor
      · rintro ⟨x, hx, h1, h2, h3⟩; exact .inr (.inr (.inr ⟨spans, x, rfl, hx, h1, h2, h3⟩))
      · rintro (⟨_, _, h, _⟩ | ⟨_, _, h, _⟩ | ⟨_, _, _, _, _, h, _⟩ | ⟨_, x, h, hx, h1, h2, h3⟩)
        · cases h
        · cases h
        · cases h
        · cases h; exact ⟨x, hx, h1, h2, h3⟩
    · simp only [if_true, List.not_mem_nil, false_iff]
      rintro (⟨_, _, h, _⟩ | ⟨_, _, h, _⟩ | ⟨_, _, _, _, _, h, _⟩ | ⟨_, x, h, -⟩) <;> cases h

/-! ## Termination -/

def Keeps (ev : Eval) : Prop := ∀ m v q u m', ev m v q = some (u, m') → m'.resolving = m.resolving

/-- With enough fuel for a set closed under what its questions lead to, the evaluator answers. -/
def Total (all : List Query) (n : Nat) (ev : Eval) : Prop :=
  ∀ m v q, q ∈ all → (all.filter (fun r => !m.resolving r)).length < n → ∃ u m', ev m v q = some (u, m') ∧ m'.resolving = m.resolving

theorem evalAll_total {all n ev} (h : Total all n ev) (qs : List Query) (hq : ∀ q ∈ qs, q ∈ all) : ∀ m v,
    (all.filter (fun r => !m.resolving r)).length < n → ∃ us m', evalAll ev v m qs = some (us, m') ∧ m'.resolving = m.resolving := by
  induction qs with
  | nil => intro m v _; exact ⟨[], m, rfl, rfl⟩
  | cons q qs ih =>
    intro m v hl
    obtain ⟨u, m1, h1, r1⟩ := h m v q (hq q (List.mem_cons_self ..)) hl
    obtain ⟨us, m2, h2, r2⟩ := ih (fun q' h' => hq q' (List.mem_cons_of_mem _ h')) m1 v (by rw [r1]; exact hl)
    exact ⟨u :: us, m2, by simp [evalAll, h1, h2], r2.trans r1⟩

theorem evalSome_total {all n ev} (h : Total all n ev) (qs : List Query) (hq : ∀ q ∈ qs, q ∈ all) : ∀ m v,
    (all.filter (fun r => !m.resolving r)).length < n → ∃ us m', evalSome ev v m qs = some (us, m') ∧ m'.resolving = m.resolving := by
  induction qs with
  | nil => intro m v _; exact ⟨false, m, rfl, rfl⟩
  | cons q qs ih =>
    intro m v hl
    obtain ⟨u, m1, h1, r1⟩ := h m v q (hq q (List.mem_cons_self ..)) hl
    obtain ⟨b, m2, h2, r2⟩ := ih (fun q' h' => hq q' (List.mem_cons_of_mem _ h')) m1 v (by rw [r1]; exact hl)
    by_cases hu : u = .always
    · exact ⟨true, m1, by simp [evalSome, h1, hu], r1⟩
    · exact ⟨b, m2, by simp [evalSome, h1, h2, hu], r2.trans r1⟩

theorem compute_total {all n ev} (h : Total all n ev) (sh : Shape) (hq : ∀ q ∈ sh.children, q ∈ all) (m : Memo) (v : List Nat) (t : Nat)
    (hl : (all.filter (fun r => !m.resolving r)).length < n) : ∃ u m', compute ev v t m sh = some (u, m') ∧ m'.resolving = m.resolving := by
  cases sh with
  | const u => exact ⟨u, m, rfl, rfl⟩
  | ask b q => exact h m _ q (hq q (by simp [Shape.children])) hl
  | union qs =>
    obtain ⟨us, m', h1, h2⟩ := evalAll_total h qs hq m v hl
    exact ⟨_, m', by simp [compute, h1]; rfl, h2⟩
  | intersection qs =>
    obtain ⟨us, m', h1, h2⟩ := evalSome_total h qs hq m v hl
    exact ⟨_, m', by simp [compute, h1]; rfl, h2⟩
  | tuple b qs =>
    obtain ⟨us, m', h1, h2⟩ := evalAll_total h qs hq m (if b then v ++ [t] else v) hl
    exact ⟨_, m', by simp [compute, h1]; rfl, h2⟩

theorem filter_length_lt (all : List Query) (m : Memo) (q : Query) (hq : q ∈ all) (hr : m.resolving q = false) :
    (all.filter (fun r => !(if r = q then true else m.resolving r))).length < (all.filter (fun r => !m.resolving r)).length := by
  induction all with
  | nil => simp at hq
  | cons a all ih =>
    have le : ∀ l : List Query, (l.filter (fun r => !(if r = q then true else m.resolving r))).length ≤ (l.filter (fun r => !m.resolving r)).length := by
      intro l
      induction l with
      | nil => simp
      | cons b l ih =>
        simp only [List.filter_cons]
        by_cases hb : b = q
        · subst hb; simp [hr] at ih ⊢; omega
        · simp only [hb, if_false]
          cases m.resolving b <;> simp at ih ⊢ <;> omega
    by_cases ha : a = q
    · subst ha
      have := le all
      simp [List.filter_cons, hr]
      simp at this
      omega
    · have hq' : q ∈ all := by
        rcases List.mem_cons.1 hq with h | h
        · exact absurd h.symm ha
        · exact h
      have := ih hq'
      simp only [List.filter_cons, ha, if_false]
      cases m.resolving a <;> simp at this ⊢ <;> omega

theorem eval_total (e : Env) (all : List Query) (hc : ∀ q ∈ all, ∀ r ∈ (e.shape q).children, r ∈ all) (n : Nat) : Total all n (eval e n) := by
  induction n with
  | zero => intro m v q _ h; omega
  | succ n ih =>
    intro m v q hq hl
    rw [eval]
    split
    · exact ⟨_, m, rfl, rfl⟩
    · cases hv : m.values q with
      | some u => exact ⟨u, m, rfl, rfl⟩
      | none =>
        simp only
        cases hr : m.resolving q with
        | true => exact ⟨.always, m, rfl, rfl⟩
        | false =>
          have := filter_length_lt all m q hq hr
          obtain ⟨u, m', h1, h2⟩ := compute_total ih (e.shape q) (hc q hq)
            { m with resolving := fun r => if r = q then true else m.resolving r } v q.type (by simp only; omega)
          refine ⟨u, _, by simp only [Bool.false_eq_true, if_false, h1, Option.bind_eq_bind, Option.bind_some]; rfl, ?_⟩
          funext r
          simp only [h2]
          by_cases hrq : r = q
          · subst hrq; simp [hr]
          · simp [hrq]

/-- The rule ends on every finite set of types, recursive or not, after whatever was asked before: the depth of the recursion is at most the number of types
(times two). -/
theorem C62_terminates (e : Env) (all : List Query) (hc : ∀ q ∈ all, ∀ r ∈ (e.shape q).children, r ∈ all) (evs : List Event)
    (hq : ∀ c ∈ evs.flatMap checks, c.1 ∈ all) : (run e (all.length + 1) evs).isSome = true := by
  have gen : ∀ cs : List (Query × Nat), (∀ c ∈ cs, c.1 ∈ all) → ∀ m : Memo, (∀ r, m.resolving r = false) →
      (runChecks e (all.length + 1) m cs).isSome = true := by
    intro cs
    induction cs with
    | nil => intro _ m _; rfl
    | cons c cs ih =>
      intro hcs m hm
      obtain ⟨u, m1, h1, r1⟩ := eval_total e all hc (all.length + 1) m [] c.1 (hcs c (List.mem_cons_self ..))
        (by have := List.length_filter_le (fun r => !m.resolving r) all; omega)
      have h2 := ih (fun c' h' => hcs c' (List.mem_cons_of_mem _ h')) m1 (fun r => by rw [r1]; exact hm r)
      obtain ⟨⟨rs, m2⟩, h3⟩ := Option.isSome_iff_exists.1 h2
      simp [runChecks, h1, h3]
  exact gen _ hq {} (fun _ => rfl)

/-! ## Cases -/

/-- Types: 0 = `{}`, 1 = `string`, 2 = `A = [B, {}]`, 3 = `B = [A]`, 4 = `{} | string`, 5 = `{}[]`. -/
def sampleEnv : Env where
  checkUnknown := false
  info
    | 0 => { toString := some [true], toLocaleString := some [true], valueOf := some [true] }
    | 1 => { toString := some [false] }
    | 2 => { tuple := some [3, 0] }
    | 3 => { tuple := some [2] }
    | 4 => { union := some [0, 1] }
    | 5 => { array := some 0 }
    | _ => {}

def ts (n : Nat) : Query := ⟨.toString, n⟩

theorem sample_leaf (n : Nat) (h : n = 0 ∨ n = 1) : sampleEnv.NotRecursive (ts n) := by
  refine ⟨_, fun r hr => ?_⟩
  rcases h with rfl | rfl <;> simp [Env.Child, ts, Env.shape, toStringShape, sampleEnv, propertyLoop, Shape.children] at hr

/-- The hypotheses are met by `{} | string`, and it is reported as `may`. -/
example : sampleEnv.NotRecursive (ts 4) := by
  refine ⟨_, fun r hr => ?_⟩
  have : r = ts 0 ∨ r = ts 1 := by simpa [Env.Child, ts, Env.shape, toStringShape, sampleEnv, Shape.children] using hr
  rcases this with rfl | rfl
  · exact sample_leaf 0 (.inl rfl)
  · exact sample_leaf 1 (.inr rfl)
example : (run sampleEnv 20 [.template false [{ node := 7, type := 4 }, { node := 8, type := 1 }], .call false false none (some ("join", { node := 9, type := 5 }))]).map (·.1) =
    some [(.toString, 7, .sometimes), (.join, 9, .never)] := by decide

/-- For types that contain themselves the answer does depend on what was asked before. With `type A = [B, {}]; type B = [A]`, the
expression of type `B` alone is reported; after one of type `A` it is not, because the answer for `B` found while that for `A` was not yet
known was kept. -/
theorem C62_hazard_order :
    (run sampleEnv 20 [.template false [{ node := 1, type := 3 }]]).map (·.1) = some [(.toString, 1, .never)] ∧
    (run sampleEnv 20 [.template false [{ node := 0, type := 2 }], .template false [{ node := 1, type := 3 }]]).map (·.1) = some [(.toString, 0, .never)] := by
  constructor <;> decide

/-- An intersection of a union that may be `[object Object]` with other such types is reported as certain. -/
theorem C62_hazard_intersection :
    (eval { checkUnknown := false, info := fun | 0 => { toString := some [true] } | 1 => { toString := some [false] } | 2 => { union := some [0, 1] }
                                               | 3 => { intersection := some [2, 0] } | _ => {} } 20 {} [] (ts 3)).map (·.1) = some .never := by decide

end Tsgolint.BaseToString
