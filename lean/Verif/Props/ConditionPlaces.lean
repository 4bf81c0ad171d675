import Verif.Spec.ConditionPlaces
/-!
# C134: no-unnecessary-condition judges every tested expression exactly once
-/
namespace Tsgolint.ConditionPlaces

/-! ## Places -/

theorem occurs_unique {t n m : Node} {p : Path} (h1 : Occurs t p n) (h2 : Occurs t p m) : n = m := by
  induction h1 with
  | here => cases h2; rfl
  | inside hc _ ih =>
    cases h2 with
    | inside hc' ho =>
      rw [hc] at hc'; cases hc'
      exact ih ho

theorem occurs_child {t n c : Node} {p : Path} {i : Nat} (h : Occurs t p n) (hc : n.children[i]? = some c) : Occurs t (p ++ [i]) c := by
  induction h with
  | here n => cases n with
    | mk k cs => exact .inside hc (.here c)
  | inside h1 _ ih => exact .inside h1 (ih hc)

theorem occurs_parent {t c : Node} {q : Path} (h : Occurs t q c) : ∀ {p : Path} {i : Nat}, q = p ++ [i] → ∃ n, Occurs t p n ∧ n.children[i]? = some c := by
  induction h with
  | here => intro p i e; simp at e
  | @inside k cs j d r m h1 h2 ih =>
    intro p i e
    cases p with
    | nil =>
      simp only [List.nil_append, List.cons.injEq] at e
      obtain ⟨rfl, rfl⟩ := e
      cases h2
      exact ⟨_, .here _, h1⟩
    | cons a p =>
      simp only [List.cons_append, List.cons.injEq] at e
      obtain ⟨rfl, e⟩ := e
      obtain ⟨n, hn, hc⟩ := ih e
      exact ⟨n, .inside h1 hn, hc⟩

mutual
theorem visits_mem : ∀ (t : Node) (p : Path) (n : Node), (p, n) ∈ visits t ↔ Occurs t p n
  | .mk k cs, p, n => by
    rw [show visits (.mk k cs) = ([], .mk k cs) :: visitsFrom 0 cs from rfl, List.mem_cons, visitsFrom_mem cs 0 p n]
    constructor
    · rintro (h | ⟨i, c, q, rfl, hc, ho⟩)
      · cases h; exact .here _
      · exact .inside (by simpa using hc) ho
    · intro h
      cases h with
      | here => exact .inl rfl
      | @inside _ _ i c q _ hc ho => exact .inr ⟨i, c, q, by simp, hc, ho⟩
theorem visitsFrom_mem : ∀ (cs : List Node) (k : Nat) (p : Path) (n : Node),
    (p, n) ∈ visitsFrom k cs ↔ ∃ i c q, p = (k + i) :: q ∧ cs[i]? = some c ∧ Occurs c q n
  | [], k, p, n => by simp [visitsFrom]
  | c :: cs, k, p, n => by
    rw [show visitsFrom k (c :: cs) = (visits c).map (fun x => (k :: x.1, x.2)) ++ visitsFrom (k + 1) cs from rfl, List.mem_append, List.mem_map,
      visitsFrom_mem cs (k + 1) p n]
    constructor
    · rintro (⟨⟨q, m⟩, h, e⟩ | ⟨i, d, q, rfl, hc, ho⟩)
      · cases e
        exact ⟨0, c, q, rfl, rfl, (visits_mem c q _).1 h⟩
      · exact ⟨i + 1, d, q, by rw [Nat.add_assoc, Nat.add_comm 1], by simpa using hc, ho⟩
    · rintro ⟨i, d, q, rfl, hc, ho⟩
      cases i with
      | zero =>
        simp at hc; subst hc
        exact .inl ⟨(q, n), (visits_mem c q n).2 ho, rfl⟩
      | succ i => exact .inr ⟨i, d, q, by rw [Nat.add_assoc, Nat.add_comm 1], by simpa using hc, ho⟩
end

mutual
theorem visits_distinct : ∀ t : Node, (visits t).Pairwise fun a b => a.1 ≠ b.1
  | .mk k cs => by
    rw [show visits (.mk k cs) = ([], .mk k cs) :: visitsFrom 0 cs from rfl, List.pairwise_cons]
    refine ⟨?_, visitsFrom_distinct cs 0⟩
    rintro ⟨p, n⟩ h
    obtain ⟨i, c, q, rfl, -⟩ := (visitsFrom_mem cs 0 p n).1 h
    simp
theorem visitsFrom_distinct : ∀ (cs : List Node) (k : Nat), (visitsFrom k cs).Pairwise fun a b => a.1 ≠ b.1
  | [], k => by simp [visitsFrom]
  | c :: cs, k => by
    rw [show visitsFrom k (c :: cs) = (visits c).map (fun x => (k :: x.1, x.2)) ++ visitsFrom (k + 1) cs from rfl, List.pairwise_append]
    refine ⟨?_, visitsFrom_distinct cs (k + 1), ?_⟩
    · rw [List.pairwise_map]
      exact (visits_distinct c).imp (by intro a b h e; exact h (List.cons.inj e).2)
    · rintro ⟨p, n⟩ h ⟨q, m⟩ h' e
      obtain ⟨⟨r, x⟩, -, e1⟩ := List.mem_map.1 h
      cases e1
      obtain ⟨i, d, s, rfl, -⟩ := (visitsFrom_mem cs (k + 1) q m).1 h'
      have := (List.cons.inj e).1
      omega
end

theorem is_unique {t : Node} {p : Path} {k l : Kind} (h1 : Is t p k) (h2 : Is t p l) : k = l := by
  obtain ⟨_, h1⟩ := h1
  obtain ⟨_, h2⟩ := h2
  cases occurs_unique h1 h2; rfl

/-! ## The way down -/

/-- The kinds passed, and the child gone to. -/
inductive Step : Kind → Nat → Prop
  | parens : Step .parens 0
  | not : Step .not 0
  | and : Step .and 1
  | or : Step .or 1

inductive From (t : Node) (s : Path) : Path → Prop
  | start : From t s s
  | step {p k i} : From t s p → Is t p k → Step k i → From t s (p ++ [i])

theorem descend_from {t n : Node} {here report : Path} {negated : Bool} {j : Judged} {s : Path} (ho : Occurs t here n) (hs : From t s here)
    (h : descend n here report negated = some j) : From t s j.place := by
  fun_induction descend n here report negated with
  | case1 here report negated c cs ih => exact ih (occurs_child ho rfl) (.step hs ⟨_, ho⟩ .parens) h
  | case2 here report negated c cs ih => exact ih (occurs_child ho rfl) (.step hs ⟨_, ho⟩ .not) h
  | case3 here _ _ l r cs ih => exact ih (occurs_child ho rfl) (.step hs ⟨_, ho⟩ .and) h
  | case4 here _ _ l r cs ih => exact ih (occurs_child ho rfl) (.step hs ⟨_, ho⟩ .or) h
  | case9 => cases h; exact hs
  | _ => cases h

theorem descend_tested {exempt : Path → Bool} {t n : Node} {here report : Path} {negated : Bool} {j : Judged} (ho : Occurs t here n)
    (hs : Tested exempt t here report negated) (h : descend n here report negated = some j) :
    Tested exempt t j.place j.report j.negated ∧ Simple t j.place := by
  fun_induction descend n here report negated with
  | case1 here report negated c cs ih => exact ih (occurs_child ho rfl) (.parens hs ⟨_, ho⟩) h
  | case2 here report negated c cs ih => exact ih (occurs_child ho rfl) (.not hs ⟨_, ho⟩) h
  | case3 here _ _ l r cs ih => exact ih (occurs_child ho rfl) (.and hs ⟨_, ho⟩) h
  | case4 here _ _ l r cs ih => exact ih (occurs_child ho rfl) (.or hs ⟨_, ho⟩) h
  | case9 k cs here report negated h1 h2 h3 h4 h5 h6 h7 h8 =>
    cases h
    refine ⟨hs, ⟨_, ho⟩, ?_, ?_, ?_, ?_⟩
    all_goals
      intro hi
      have := is_unique ⟨_, ho⟩ hi
      subst this
      cases cs <;> simp_all
  | _ => cases h

theorem descend_simple {t n : Node} {p report : Path} {negated : Bool} (ho : Occurs t p n) (hs : Simple t p) :
    descend n p report negated = some ⟨p, report, negated⟩ := by
  obtain ⟨-, h1, h2, h3, h4⟩ := hs
  cases n with
  | mk k cs => cases k with
    | parens => exact absurd ⟨_, ho⟩ h1
    | not => exact absurd ⟨_, ho⟩ h2
    | and => exact absurd ⟨_, ho⟩ h3
    | or => exact absurd ⟨_, ho⟩ h4
    | _ => rfl

theorem head_of {cs : List Node} {c : Node} (h : cs[0]? = some c) : ∃ ds, cs = c :: ds := by
  cases cs with
  | nil => cases h
  | cons d ds => simp at h; subst h; exact ⟨ds, rfl⟩

theorem second_of {cs : List Node} {c : Node} (h : cs[1]? = some c) : ∃ l ds, cs = l :: c :: ds := by
  cases cs with
  | nil => cases h
  | cons l cs => cases cs with
    | nil => cases h
    | cons d ds => simp at h; subst h; exact ⟨l, ds, rfl⟩

theorem tested_from {exempt : Path → Bool} {t : Node} {p report : Path} {negated : Bool} (h : Tested exempt t p report negated) :
    ∀ {n}, Occurs t p n → ∃ s c, Condition exempt t s ∧ Occurs t s c ∧ descend c s s false = descend n p report negated := by
  induction h with
  | condition hc => intro n ho; exact ⟨_, n, hc, ho, rfl⟩
  | parens _ hi ih =>
    intro n ho
    obtain ⟨cs, hi⟩ := hi
    obtain ⟨m, hm, hc⟩ := occurs_parent ho rfl
    cases occurs_unique hm hi
    obtain ⟨ds, rfl⟩ := head_of hc
    obtain ⟨s, c, h1, h2, h3⟩ := ih hi
    exact ⟨s, c, h1, h2, by rw [h3]; simp [descend]⟩
  | not _ hi ih =>
    intro n ho
    obtain ⟨cs, hi⟩ := hi
    obtain ⟨m, hm, hc⟩ := occurs_parent ho rfl
    cases occurs_unique hm hi
    obtain ⟨ds, rfl⟩ := head_of hc
    obtain ⟨s, c, h1, h2, h3⟩ := ih hi
    exact ⟨s, c, h1, h2, by rw [h3]; simp [descend]⟩
  | and _ hi ih =>
    intro n ho
    obtain ⟨cs, hi⟩ := hi
    obtain ⟨m, hm, hc⟩ := occurs_parent ho rfl
    cases occurs_unique hm hi
    obtain ⟨l, ds, rfl⟩ := second_of hc
    obtain ⟨s, c, h1, h2, h3⟩ := ih hi
    exact ⟨s, c, h1, h2, by rw [h3]; simp [descend]⟩
  | or _ hi ih =>
    intro n ho
    obtain ⟨cs, hi⟩ := hi
    obtain ⟨m, hm, hc⟩ := occurs_parent ho rfl
    cases occurs_unique hm hi
    obtain ⟨l, ds, rfl⟩ := second_of hc
    obtain ⟨s, c, h1, h2, h3⟩ := ih hi
    exact ⟨s, c, h1, h2, by rw [h3]; simp [descend]⟩

/-! ## Conditions -/

theorem condition_iff (exempt : Path → Bool) (t : Node) (s : Path) :
    Condition exempt t s ↔ ∃ p k i loop, s = p ++ [i] ∧ Is t p k ∧ condition k = some (i, loop) ∧ (loop && exempt s) = false := by
  constructor
  · intro h
    cases h with
    | ifStatement h => exact ⟨_, _, _, _, rfl, h, rfl, rfl⟩
    | ternary h => exact ⟨_, _, _, _, rfl, h, rfl, rfl⟩
    | and h => exact ⟨_, _, _, _, rfl, h, rfl, rfl⟩
    | or h => exact ⟨_, _, _, _, rfl, h, rfl, rfl⟩
    | andAssign h => exact ⟨_, _, _, _, rfl, h, rfl, rfl⟩
    | orAssign h => exact ⟨_, _, _, _, rfl, h, rfl, rfl⟩
    | whileLoop h he => exact ⟨_, _, _, _, rfl, h, rfl, by simpa using he⟩
    | doLoop h he => exact ⟨_, _, _, _, rfl, h, rfl, by simpa using he⟩
    | forLoop h he => exact ⟨_, _, _, _, rfl, h, rfl, by simpa using he⟩
    | asserted h => exact ⟨_, _, _, _, rfl, h, rfl, rfl⟩
  · rintro ⟨p, k, i, loop, rfl, hi, hk, he⟩
    cases k with
    | ifStatement => cases hk; exact .ifStatement hi
    | ternary => cases hk; exact .ternary hi
    | and => cases hk; exact .and hi
    | or => cases hk; exact .or hi
    | andAssign => cases hk; exact .andAssign hi
    | orAssign => cases hk; exact .orAssign hi
    | whileLoop => cases hk; exact .whileLoop hi (by simpa using he)
    | doLoop => cases hk; exact .doLoop hi (by simpa using he)
    | forLoop o => cases o with
      | none => cases hk
      | some o => cases hk; exact .forLoop hi (by simpa using he)
    | call o => cases o with
      | none => cases hk
      | some o => cases hk; exact .asserted hi
    | _ => cases hk

theorem judgeNode_iff (exempt : Path → Bool) (here : Path) (n : Node) (j : Judged) :
    j ∈ judgeNode exempt here n ↔ ∃ i loop c, condition n.kind = some (i, loop) ∧ n.children[i]? = some c ∧ (loop && exempt (here ++ [i])) = false ∧
      descend c (here ++ [i]) (here ++ [i]) false = some j := by
  unfold judgeNode
  cases hk : condition n.kind with
  | none => simp
  | some x =>
    obtain ⟨i, loop⟩ := x
    dsimp only
    cases hc : n.children[i]? with
    | none =>
      simp only [List.not_mem_nil, false_iff]
      rintro ⟨i', loop', c, e, h, -⟩
      cases e; rw [hc] at h; cases h
    | some c =>
      dsimp only
      cases he : (loop && exempt (here ++ [i])) with
      | true =>
        simp only [if_true, List.not_mem_nil, false_iff]
        rintro ⟨i', loop', c', e, -, h, -⟩
        cases e; rw [he] at h; cases h
      | false =>
        simp only [Bool.false_eq_true, if_false, Option.mem_toList]
        constructor
        · intro h; exact ⟨i, loop, c, rfl, hc, he, h⟩
        · rintro ⟨i', loop', c', e, h1, -, h2⟩
          cases e; rw [hc] at h1; cases h1; exact h2

theorem judged_mem (exempt : Path → Bool) (t : Node) (j : Judged) :
    j ∈ judged exempt t ↔ ∃ s c, Condition exempt t s ∧ Occurs t s c ∧ descend c s s false = some j := by
  unfold judged
  rw [List.mem_flatMap]
  constructor
  · rintro ⟨⟨p, n⟩, hv, hj⟩
    have ho := (visits_mem t p n).1 hv
    obtain ⟨i, loop, c, hk, hc, he, hd⟩ := (judgeNode_iff exempt p n j).1 hj
    cases n with
    | mk k cs => exact ⟨p ++ [i], c, (condition_iff exempt t _).2 ⟨p, k, i, loop, rfl, ⟨cs, ho⟩, hk, he⟩, occurs_child ho hc, hd⟩
  · rintro ⟨s, c, hcond, ho, hd⟩
    obtain ⟨p, k, i, loop, rfl, ⟨cs, hi⟩, hk, he⟩ := (condition_iff exempt t s).1 hcond
    obtain ⟨m, hm, hc⟩ := occurs_parent ho rfl
    cases occurs_unique hm hi
    exact ⟨(p, .mk k cs), (visits_mem t _ _).2 hi, (judgeNode_iff exempt p _ j).2 ⟨i, loop, c, hk, hc, he, hd⟩⟩

theorem from_unique {exempt : Path → Bool} {t : Node} {s1 s2 q : Path} (c1 : Condition exempt t s1) (c2 : Condition exempt t s2)
    (h1 : From t s1 q) : From t s2 q → s1 = s2 := by
  -- a condition is not reached by a step
  have apart : ∀ {s p k i}, Condition exempt t s → s = p ++ [i] → Is t p k → Step k i → False := by
    intro s p k i hc e hi hs
    obtain ⟨p', k', i', loop, e', hi', hk, -⟩ := (condition_iff exempt t s).1 hc
    rw [e] at e'
    obtain ⟨e1, e2⟩ := List.append_inj' e' rfl
    subst e1
    obtain ⟨rfl, -⟩ := List.cons.inj e2
    cases is_unique hi hi'
    cases hs <;> cases hk
  induction h1 with
  | start =>
    intro h2
    cases h2 with
    | start => rfl
    | step _ hi hs => exact (apart c1 rfl hi hs).elim
  | @step p k i hf hi hs ih =>
    intro h2
    generalize hq : p ++ [i] = q at h2
    cases h2 with
    | start => exact (apart c2 hq.symm hi hs).elim
    | step hf' _ _ =>
      obtain ⟨rfl, -⟩ := List.append_inj' hq rfl
      exact ih hf'

/-- C134.  What is judged as a condition are exactly the tested expressions that are not made of tested parts, each with the expression it is reported at and the
direction of the verdict that its surroundings give; and none is judged twice. -/
theorem C134_judged (exempt : Path → Bool) (file : Node) :
    (∀ j, j ∈ judged exempt file ↔ Tested exempt file j.place j.report j.negated ∧ Simple file j.place) ∧
    ((judged exempt file).map Judged.place).Nodup := by
  refine ⟨fun j => ?_, ?_⟩
  · rw [judged_mem]
    constructor
    · rintro ⟨s, c, hc, ho, hd⟩
      exact descend_tested ho (.condition hc) hd
    · rintro ⟨ht, hs⟩
      obtain ⟨n, ho⟩ := hs.1
      obtain ⟨s, c, h1, h2, h3⟩ := tested_from ht ho
      exact ⟨s, c, h1, h2, by rw [h3, descend_simple ho hs]⟩
  · unfold List.Nodup
    rw [List.pairwise_map]
    unfold judged
    rw [List.pairwise_flatMap]
    constructor
    · rintro ⟨p, n⟩ -
      unfold judgeNode
      cases condition n.kind with
      | none => exact .nil
      | some x =>
        obtain ⟨i, loop⟩ := x
        dsimp only
        cases n.children[i]? with
        | none => exact .nil
        | some c =>
          dsimp only
          cases (loop && exempt (p ++ [i])) with
          | true => exact .nil
          | false => cases descend c (p ++ [i]) (p ++ [i]) false <;> simp
    · refine (List.pairwise_iff_forall_sublist.2 ?_)
      rintro ⟨p, n⟩ ⟨q, m⟩ hsub x hx y hy e
      have hne : p ≠ q := (List.pairwise_iff_forall_sublist.1 (visits_distinct file)) hsub
      have hp := (visits_mem file p n).1 (hsub.subset (by simp))
      have hq := (visits_mem file q m).1 (hsub.subset (by simp))
      obtain ⟨i, loop, c, hk, hc, he, hd⟩ := (judgeNode_iff exempt p n x).1 hx
      obtain ⟨i', loop', c', hk', hc', he', hd'⟩ := (judgeNode_iff exempt q m y).1 hy
      have k1 : Condition exempt file (p ++ [i]) := (condition_iff exempt file _).2 ⟨p, n.kind, i, loop, rfl, ⟨n.children, by cases n; exact hp⟩, hk, he⟩
      have k2 : Condition exempt file (q ++ [i']) := (condition_iff exempt file _).2 ⟨q, m.kind, i', loop', rfl, ⟨m.children, by cases m; exact hq⟩, hk', he'⟩
      have f1 := descend_from (occurs_child hp hc) .start hd
      have f2 := descend_from (occurs_child hq hc') .start hd'
      rw [← e] at f2
      exact hne (List.append_inj' (from_unique k1 k2 f1 f2) rfl).1

/-- C134.  What is judged as being nullish are exactly the left sides of `??` and `??=`, each once. -/
theorem C134_nullish (file : Node) :
    (∀ p, p ∈ judgedNullish file ↔ ∃ q, p = q ++ [0] ∧ Exists file p ∧ (Is file q .coalesce ∨ Is file q .coalesceAssign)) ∧ (judgedNullish file).Nodup := by
  have key : ∀ q n p, p ∈ nullishNode q n ↔ p = q ++ [0] ∧ (n.kind = .coalesce ∨ n.kind = .coalesceAssign) ∧ ∃ c, n.children[0]? = some c := by
    intro q n p
    unfold nullishNode
    by_cases hk : n.kind = .coalesce ∨ n.kind = .coalesceAssign
    · rw [if_pos (by simpa using hk)]
      cases hc : n.children[0]? with
      | none => simp
      | some c => simp [hk]
    · rw [if_neg (by simpa using hk)]
      simp [hk]
  refine ⟨fun p => ?_, ?_⟩
  · unfold judgedNullish
    rw [List.mem_flatMap]
    constructor
    · rintro ⟨⟨q, n⟩, hv, hp⟩
      have ho := (visits_mem file q n).1 hv
      obtain ⟨rfl, hk, c, hc⟩ := (key q n p).1 hp
      refine ⟨q, rfl, ⟨c, occurs_child ho hc⟩, ?_⟩
      cases n with
      | mk k cs =>
        rcases hk with hk | hk
        · exact .inl ⟨cs, (show k = _ from hk) ▸ ho⟩
        · exact .inr ⟨cs, (show k = _ from hk) ▸ ho⟩
    · rintro ⟨q, rfl, ⟨c, hc⟩, h⟩
      obtain ⟨m, hm, hcm⟩ := occurs_parent hc rfl
      refine ⟨(q, m), (visits_mem file _ _).2 hm, (key q m _).2 ⟨rfl, ?_, c, hcm⟩⟩
      rcases h with ⟨cs, h⟩ | ⟨cs, h⟩ <;> cases occurs_unique hm h <;> simp [Node.kind]
  · unfold judgedNullish List.Nodup
    rw [List.pairwise_flatMap]
    constructor
    · rintro ⟨q, n⟩ -
      unfold nullishNode
      dsimp only
      split
      · cases n.children[0]? <;> simp
      · exact .nil
    · refine (visits_distinct file).imp ?_
      rintro ⟨q, n⟩ ⟨r, m⟩ hne x hx y hy e
      have h1 := ((key q n x).1 hx).1
      have h2 := ((key r m y).1 hy).1
      rw [h1, h2] at e
      exact hne (List.append_inj' e rfl).1

/-! ## Examples -/

/-- A name. -/
def name : Node := .mk .other []

/-- `if (a && !(b || !!c)) x ?? (y && z)` -/
def sample : Node := .mk .ifStatement [.mk .and [name, .mk .not [.mk .parens [.mk .or [name, .mk .not [.mk .not [name]]]]]], .mk .coalesce [name, .mk .parens [.mk .and [name, name]]]]

example : judged (fun _ => false) sample =
    [⟨[0, 1, 0, 0, 1, 0, 0], [0, 1, 0, 0, 1], false⟩, ⟨[0, 0], [0, 0], false⟩, ⟨[0, 1, 0, 0, 0], [0, 1, 0, 0, 0], false⟩, ⟨[1, 1, 0, 0], [1, 1, 0, 0], false⟩] := by decide
example : judgedNullish sample = [[1, 0]] := by decide
example : judged (fun _ => true) (.mk .whileLoop [.mk .not [name], .mk .other [.mk .ternary [.mk .not [name], name, name]]]) = [⟨[1, 0, 0, 0], [1, 0, 0], true⟩] := by decide
example : Tested (fun _ => false) sample [0, 1] [0, 1] false := .and (.condition (.ifStatement ⟨_, .here _⟩)) (p := [0]) ⟨_, .inside rfl (.here _)⟩

end Tsgolint.ConditionPlaces
