import Verif.Props.OptionalOr
import Verif.Props.OptionalEnding
import Verif.Spec.OptionalOrEnding

/-!
# C115: OR chains that end in a truth test
-/

namespace Tsgolint.OptionalChain

open Expr

variable {V : Type}

theorem nullishTest_iff (x : Operand) : nullishCheckOperand x = true ↔ NullishTest x := by
  unfold nullishCheckOperand NullishTest
  cases hk : x.kind with
  | comparison =>
    simp only [binaryParts, List.mem_cons, List.not_mem_nil, or_false, reduceCtorEq, false_or, true_and, or_self]
    cases hs : skip x.node <;> simp
    rename_i l o t r
    constructor
    · intro h; exact ⟨l, o, t, r, ⟨rfl, rfl, rfl, rfl⟩, by simpa [or_assoc] using h⟩
    · rintro ⟨l', o', t', r', ⟨rfl, rfl, rfl, rfl⟩, h⟩; simpa [or_assoc] using h
  | _ => simp

/-- **C115** The truth test at the end is kept as it is in just these chains -/
theorem keepsTest_iff (O : Options) (before : List Operand) (s l : Operand) : keepsPlain O (before ++ [s, l]).reverse = true ↔ KeepsTest O before s l := by
  have hrev : (before ++ [s, l]).reverse = l :: s :: before.reverse := by simp
  rw [hrev]
  unfold KeepsTest
  rcases List.eq_nil_or_concat before with rfl | ⟨i, z, rfl⟩
  · simp [keepsPlain]
  · have : (i.concat z).reverse = z :: i.reverse := by simp
    rw [this]
    unfold keepsPlain
    simp only [Bool.and_eq_true, beq_iff_eq, Bool.not_eq_true', decide_eq_true_eq, nullishTest_iff, flat_length, gt_iff_lt]
    constructor
    · rintro ⟨⟨⟨h1, h2⟩, h3⟩, h4⟩; exact ⟨by simp, h1, h2, h3, h4⟩
    · rintro ⟨_, h1, h2, h3, h4⟩; exact ⟨⟨⟨h1, h2⟩, h3⟩, h4⟩

/-- the code of a chain whose truth test is kept -/
theorem orCode_kept (O : Options) (between : Text) (gs : List Expr) (s l : Expr) (hkeep : KeepsTest O (gs.map (parse false)) (parse false s) (parse false l)) (code : Text)
    (hcode : orCode O between (orParsed (gs ++ [s]) l) = some code) : ∃ L c inner, (∀ g ∈ gs, (parse false g).expr.size ∈ L) ∧
      build (flat false (parse false s).expr) L c true = some inner ∧ code = withOrComparison (parse false s).kind s inner ++ between ++ l.text := by
  have hp : orParsed (gs ++ [s]) l = gs.map (parse false) ++ [parse false s, parse false l] := by simp [orParsed]
  have hk := (keepsTest_iff O _ _ _).2 hkeep
  rw [← hp] at hk
  have hlast : (orParsed (gs ++ [s]) l).getLast? = some (parse false l) := by rw [orParsed_eq]; simp
  have hdrop : (orParsed (gs ++ [s]) l).dropLast = gs.map (parse false) ++ [parse false s] := by
    rw [orParsed_eq]; simp
  obtain ⟨first, rest, hfirst⟩ : ∃ first rest, orParsed (gs ++ [s]) l = first :: rest := by
    cases gs <;> exact ⟨_, _, rfl⟩
  have hsk : (parse false s).kind ≠ .plain ∧ (parse false s).kind.comparisonOrCheck = true := by
    rcases hkeep.2.2.2.1 with h | ⟨h, _⟩
    · simp only [List.mem_cons, List.not_mem_nil, or_false] at h
      rcases h with h | h | h | h | h | h <;> rw [h] <;> exact ⟨nofun, rfl⟩
    · rw [h]; exact ⟨nofun, rfl⟩
  unfold orCode at hcode
  simp only [hk, if_true, hlast, hdrop] at hcode
  have hl2 : (gs.map (parse false) ++ [parse false s]).getLast? = some (parse false s) := by simp
  rw [hl2] at hcode
  generalize hP : orParsed (gs ++ [s]) l = P at hcode hfirst
  subst hfirst
  simp only [Bool.not_true, Bool.and_false, Bool.false_and, Bool.false_eq_true, if_false] at hcode
  obtain ⟨inner, h1, h2⟩ := Option.map_eq_some_iff.1 hcode
  have hsp : ((parse false s).kind == .plain) = false := by simpa using hsk.1
  simp only [hsp, Bool.false_eq_true, if_false, Operand.target] at h1
  refine ⟨_, _, inner, ?_, h1, ?_⟩
  · intro g hg
    refine List.mem_map.2 ⟨parse false g, ?_, flat_length _ _⟩
    exact List.mem_append.2 (.inl (List.mem_map.2 ⟨g, hg, rfl⟩))
  · rw [← h2, hsk.2, if_pos rfl, parse_node, parse_node]

theorem disj_two (W : World V) (s l : Expr) (r : V) : ∀ gs : List Expr, W.disjunction (gs ++ [s, l]) = some r →
    (∃ v, W.disjunction (gs ++ [s]) = some v ∧ W.truthy v = false ∧ W.value l = some r) ∨ (W.disjunction (gs ++ [s]) = some r ∧ W.truthy r = true)
  | [], h => by
    have h : (match W.value s with
      | none => none
      | some v => if W.truthy v = true then some v else W.value l) = some r := h
    cases hs : W.value s with
    | none => rw [hs] at h; cases h
    | some v =>
      rw [hs] at h
      simp only at h
      have hc : W.disjunction ([] ++ [s]) = W.value s := rfl
      rw [hc, hs]
      by_cases ht : W.truthy v = true
      · rw [if_pos ht] at h; cases h; exact .inr ⟨rfl, ht⟩
      · rw [if_neg ht] at h; exact .inl ⟨v, rfl, by simpa using ht, h⟩
  | g :: gs, h => by
    have hcons : ∀ x xs, W.disjunction (g :: gs ++ x :: xs) = match W.value g with
      | none => none
      | some v => if W.truthy v = true then some v else W.disjunction (gs ++ x :: xs) := by
      intro x xs; cases gs <;> rfl
    rw [hcons] at h ⊢
    cases hg : W.value g with
    | none => rw [hg] at h; cases h
    | some v =>
      rw [hg] at h
      simp only at h ⊢
      by_cases ht : W.truthy v = true
      · rw [if_pos ht] at h ⊢; cases h; exact .inr ⟨rfl, ht⟩
      · rw [if_neg ht] at h ⊢; exact disj_two W s l r gs h

/-- **C115** A chain whose truth test at the end is kept: the new expression is the comparison of the optional chain with null or undefined, `||` and the truth test. It
has the same value where the guards let through; where one stopped, both are truthy, if undefined compared with the other side is -/
theorem or_kept_meaning (W : World V) (hW : W.Lawful) (O : Options) (gs : List Expr) (lhs rhs l : Expr) (o : Op) (t : Text) (ho : o.eager)
    (hlink : Linked (orParsed (gs ++ [.binary lhs o t rhs]) l)) (hk : ∀ g ∈ gs, OrGuard (parse false g))
    (hl : (parse false (.binary lhs o t rhs)).kind ∈ [.comparison, .notNull, .notUndef, .notBoth])
    (hkeep : KeepsTest O (gs.map (parse false)) (parse false (.binary lhs o t rhs)) (parse false l))
    (x y : Expr) (hxy : (x, y) = if onRight false lhs o rhs then (rhs, lhs) else (lhs, rhs)) (hx : isParen x = false)
    (hb : BangedName x) (hmarks : ∀ g ∈ gs, KeepsMarks (parse false g).expr x) (hlt : ∀ g ∈ gs, (parse false g).expr.size < x.size)
    (hcalm : Calm W x) (hy : W.value y ≠ none) (hsym : onRight false lhs o rhs = true → ∀ a b, W.op o a b = W.op o b a)
    (hsafe : ∀ b, W.value y = some b → ∃ z, W.op o W.undef b = some z ∧ W.truthy z = true)
    (hplain : ∀ g ∈ gs, (parse false g).kind = .not → ∀ v, W.value (parse false g).expr = some v → W.truthy v = true ∨ W.Nullish v)
    (between code : Text) (hcode : orCode O between (orParsed (gs ++ [.binary lhs o t rhs]) l) = some code) :
    ∃ e', code = (Expr.binary e' .or between l).text ∧ e'.bare = (Expr.binary x o t y).bare ∧ ∀ r, W.disjunction (gs ++ [.binary lhs o t rhs, l]) = some r →
      (W.value (.binary e' .or between l) = some r ∨ (W.truthy r = true ∧ ∃ z, W.truthy z = true ∧ W.value (.binary e' .or between l) = some z)) := by
  obtain ⟨L, c, inner, hL, hbuild, hc⟩ := orCode_kept O between gs _ l hkeep code hcode
  have hlink' : Linked (orParsed gs (.binary lhs o t rhs)) := by
    intro a p q b hc
    refine hlink a p q (b ++ [parse false l]) ?_
    have : orParsed (gs ++ [.binary lhs o t rhs]) l = orParsed gs (.binary lhs o t rhs) ++ [parse false l] := by simp [orParsed]
    rw [this, hc]; simp
  obtain ⟨e', h1, h2, h3⟩ := or_compared W hW gs lhs rhs o t ho hlink' hk hl x y hxy hx hb hmarks hlt hcalm hy hsym hsafe hplain L c inner hL hbuild
  refine ⟨e', by rw [hc, h1, text_binary], h2, fun r hr => ?_⟩
  rw [value_or]
  rcases disj_two W _ l r gs hr with ⟨v, hd, ht, hl⟩ | ⟨hd, ht⟩
  · rcases h3 v hd with h | ⟨h, _⟩
    · left; rw [h]; simp [ht, hl]
    · rw [ht] at h; cases h
  · rcases h3 r hd with h | ⟨_, z, hz, h⟩
    · left; rw [h]; simp [ht]
    · right; exact ⟨ht, z, hz, by rw [h]; simp [hz]⟩

/-- **C115** A truth test at the end that is not kept: the question marks are those of the operands in front of it; the last operand does not count -/
theorem or_plain_code (O : Options) (between : Text) (gs : List Expr) (l : Expr) (hne : gs ≠ []) (hl : (parse false l).kind = .plain)
    (hkeep : keepsPlain O (orParsed gs l).reverse = false) (hb : BangedName l) (code : Text) (hcode : orCode O between (orParsed gs l) = some code) :
    ∃ co : Bool, (co = true ↔ EndsInCall l ∧ ∃ g ∈ gs, g.size + 1 = l.size) ∧
      code = (assemble (if rootBang false l && firstOpt (withMarks (gs.map fun g => (parse false g).expr.size) co 1 (links false l)) then (rootOf false l).unbanged else rootOf false l)
        (unbang (longest (gs.map fun g => (parse false g).expr.size)) 1 (withMarks (gs.map fun g => (parse false g).expr.size) co 1 (links false l)))).text := by
  have hlast : (orParsed gs l).getLast? = some (parse false l) := by rw [orParsed_eq]; simp
  have hdrop : (orParsed gs l).dropLast = gs.map (parse false) := by rw [orParsed_eq]; simp
  obtain ⟨first, rest, hfirst⟩ : ∃ first rest, orParsed gs l = first :: rest := by
    cases gs <;> exact ⟨_, _, rfl⟩
  unfold orCode at hcode
  simp only [hkeep, Bool.false_eq_true, if_false, hlast] at hcode
  generalize hP : orParsed gs l = P at hcode hfirst
  subst hfirst
  simp only at hcode
  split at hcode
  · cases hcode
  · obtain ⟨inner, h1, h2⟩ := Option.map_eq_some_iff.1 hcode
    have hp : ((parse false l).kind == .plain) = true := by simpa using hl
    have ht : (parse false l).target = l := by unfold Operand.target; rw [if_pos hp, parse_node]
    rw [← hP] at h1
    rw [ht, hp, if_pos rfl, hdrop, rebuild_or l _ _ hb] at h1
    have hLs : ((gs.map (parse false)).map fun x => (flat false x.expr).length) = gs.map fun g => (parse false g).expr.size := by
      rw [List.map_map]; exact List.map_congr_left fun g _ => flat_length _ _
    rw [hLs] at h1
    have hpos : decide (0 < longest (gs.map fun g => (parse false g).expr.size)) = true := by
      obtain ⟨m, hm⟩ := longest_pos (gs.map fun g => (parse false g).expr.size) (by simpa using hne) (by
        intro n hn; obtain ⟨x, _, rfl⟩ := List.mem_map.1 hn; simp [Expr.size])
      rw [hm]; simp
    obtain ⟨p, hp', hpc⟩ := flat_endsInCall l
    simp only [hpos, Bool.and_true, hp'] at h1
    generalize hco : (p.isCall && (gs.map (parse false)).any fun x => (flat false x.node).length == (flat false l).length - 1) = co at h1
    split at h1
    · cases h1
    · simp only [Option.some.injEq] at h1
      refine ⟨co, ?_, ?_⟩
      rotate_left
      · rw [← h2, ← h1, hl]; rfl
      · have hl1 : 1 ≤ l.size := by simp [Expr.size]
        rw [← hco]
        simp only [Bool.and_eq_true, List.any_eq_true, beq_iff_eq, hpc]
        refine and_congr Iff.rfl ⟨?_, ?_⟩
        · rintro ⟨x, hx, h4⟩
          obtain ⟨g, hg, rfl⟩ := List.mem_map.1 hx
          rw [parse_node, flat_length, flat_length] at h4
          exact ⟨g, hg, by omega⟩
        · rintro ⟨g, hg, h4⟩
          exact ⟨parse false g, List.mem_map.2 ⟨g, hg, rfl⟩, by rw [parse_node, flat_length, flat_length]; omega⟩

/-! ### Examples -/

/-- `!x || x.a == null || x.a.b` -/
def sampleOrNull : Expr := .binary (sampleAccess "x" "a") .eq " == ".toList sampleNull
example : KeepsTest {} [parse false (sampleNot (sampleVar "x"))] (parse false sampleOrNull) (parse false sampleLast) := by
  refine ⟨by simp, rfl, rfl, .inr ⟨rfl, _, _, _, _, rfl, .inl rfl⟩, by decide +kernel⟩
example : orCode {} " || ".toList (orParsed ([sampleNot (sampleVar "x")] ++ [sampleOrNull]) sampleLast) = some "x?.a == null || x.a.b".toList := by decide +kernel
example : ∃ z, lawfulWorld.op .eq lawfulWorld.undef lawfulWorld.null = some z ∧ lawfulWorld.truthy z = true := ⟨.tru, rfl, rfl⟩
example : keepsPlain {} (orParsed [sampleNot (sampleVar "x")] (sampleAccess "x" "a")).reverse = false ∧ BangedName (sampleAccess "x" "a") := ⟨by decide +kernel, nofun⟩
example : orCode {} " || ".toList (orParsed [sampleNot (sampleVar "x")] (sampleAccess "x" "a")) = some "x?.a".toList := by decide +kernel

end Tsgolint.OptionalChain
