import Verif.Spec.Switch
import Verif.Proof.TypeGraph
import Verif.Props.StringLiteral
/-! # C45: switch exhaustiveness -/
namespace Tsgolint.Switch
open Tsgolint.TypeGraph (Shape Constituent UnionPart typeRecurser someLoop unionParts)
open Tsgolint.Fixer (Fix Bytes editAll edit)
open Tsgolint.StringLiteral (readLiteral utf16)
variable {T : Type} [DecidableEq T]

/-! ## The missing literals -/

theorem recurse_collect (shape : T → Shape T) (p : T → Bool) (f : T → List T → Option (Bool × List T))
    (hf : ∀ t acc, f t acc = some (false, if p t then acc ++ [t] else acc)) :
    ∀ n t acc b out, typeRecurser shape f n t acc = some (b, out) → b = false ∧ ∃ ls, Leaves shape t ls ∧ out = acc ++ ls.filter p := by
  intro n
  induction n with
  | zero => intro t acc b out h; simp [typeRecurser] at h
  | succ n ih =>
    have loop : ∀ ps acc b out, someLoop (typeRecurser shape f n) ps acc = some (b, out) →
        b = false ∧ ∃ ls, LeavesAll shape ps ls ∧ out = acc ++ ls.filter p := by
      intro ps
      induction ps with
      | nil => intro acc b out h; simp only [someLoop, Option.some.injEq, Prod.mk.injEq] at h; exact ⟨h.1.symm, [], .nil, by simp [h.2]⟩
      | cons q qs ihq =>
        intro acc b out h
        simp only [someLoop] at h
        cases hq : typeRecurser shape f n q acc with
        | none => simp [hq] at h
        | some r =>
          obtain ⟨b', acc'⟩ := r
          obtain ⟨hb', ls, hl, hacc⟩ := ih q acc b' acc' hq
          subst hb'
          simp only [hq] at h
          obtain ⟨hb, ls', hl', hout⟩ := ihq acc' b out h
          exact ⟨hb, ls ++ ls', .cons hl hl', by simp [hout, hacc]⟩
    intro t acc b out h
    simp only [typeRecurser] at h
    cases hs : shape t with
    | union ps => rw [hs] at h; obtain ⟨hb, ls, hl, ho⟩ := loop ps acc b out h; exact ⟨hb, ls, .union hs hl, ho⟩
    | intersection ps => rw [hs] at h; obtain ⟨hb, ls, hl, ho⟩ := loop ps acc b out h; exact ⟨hb, ls, .intersection hs hl, ho⟩
    | _ =>
      rw [hs] at h
      simp only [hf, Option.some.injEq, Prod.mk.injEq] at h
      refine ⟨h.1.symm, [t], .leaf (by simp [hs]) (by simp [hs]), ?_⟩
      rw [← h.2]
      cases hp : p t <;> simp [hp]

mutual
theorem leaves_sound {shape : T → Shape T} {t : T} {ls : List T} : Leaves shape t ls → ∀ c, c ∈ ls → Constituent shape t c
  | .leaf h1 h2, c, hc => by simp only [List.mem_singleton] at hc; subst hc; exact .self h1 h2
  | .union h hl, c, hc => by obtain ⟨p, hp, hc'⟩ := leavesAll_sound hl c hc; exact .union h hp hc'
  | .intersection h hl, c, hc => by obtain ⟨p, hp, hc'⟩ := leavesAll_sound hl c hc; exact .intersection h hp hc'
theorem leavesAll_sound {shape : T → Shape T} {ps ls : List T} : LeavesAll shape ps ls → ∀ c, c ∈ ls → ∃ p ∈ ps, Constituent shape p c
  | .nil, c, hc => by cases hc
  | .cons h1 h2, c, hc => by
    rcases List.mem_append.1 hc with hc | hc
    · exact ⟨_, by simp, leaves_sound h1 c hc⟩
    · obtain ⟨p, hp, h⟩ := leavesAll_sound h2 c hc; exact ⟨p, by simp [hp], h⟩
end

theorem leaves_complete {shape : T → Shape T} {t c : T} (h : Constituent shape t c) : ∀ ls, Leaves shape t ls → c ∈ ls := by
  have all : ∀ c, ∀ ps : List T, ∀ p ∈ ps, (∀ ls, Leaves shape p ls → c ∈ ls) → ∀ ls, LeavesAll shape ps ls → c ∈ ls := by
    intro c ps
    induction ps with
    | nil => intro p hp; cases hp
    | cons q qs ih =>
      intro p hp hc ls hl
      cases hl with
      | cons h1 h2 =>
        rcases List.mem_cons.1 hp with rfl | hp
        · exact List.mem_append.2 (.inl (hc _ h1))
        · exact List.mem_append.2 (.inr (ih p hp hc _ h2))
  induction h with
  | self h1 h2 => intro ls hl; cases hl with
    | leaf => simp
    | union h => exact absurd h (h1 _)
    | intersection h => exact absurd h (h2 _)
  | union h hp _ ih => intro ls hl; cases hl with
    | leaf h1 => exact absurd h (h1 _)
    | union h' hl => rw [h] at h'; cases h'; exact all _ _ _ hp ih _ hl
    | intersection h' => rw [h] at h'; cases h'
  | intersection h hp _ ih => intro ls hl; cases hl with
    | leaf _ h1 => exact absurd h (h1 _)
    | union h' => rw [h] at h'; cases h'
    | intersection h' hl => rw [h] at h'; cases h'; exact all _ _ _ hp ih _ hl

theorem covered_iff (E : Env T) (s : Stmt T) (t : T) :
    ((s.clauses.filterMap (·.test)).contains t = true ∨ ((s.clauses.filterMap (·.test)).any E.isUndefined = true ∧ E.isUndefined t = true)) ↔
      Covered E s t := by
  simp only [Covered, List.contains_iff_mem, List.mem_filterMap, List.any_eq_true]
  constructor
  · rintro (⟨c, hc, h⟩ | ⟨⟨u, ⟨c, hc, h⟩, hu⟩, ht⟩)
    · exact ⟨c, hc, t, h, .inl rfl⟩
    · exact ⟨c, hc, u, h, .inr ⟨hu, ht⟩⟩
  · rintro ⟨c, hc, u, h, rfl | ⟨hu, ht⟩⟩
    · exact .inl ⟨c, hc, h⟩
    · exact .inr ⟨⟨u, ⟨c, hc, h⟩, hu⟩, ht⟩

theorem metadata_missing (E : Env T) (n : Nat) (s : Stmt T) (m : Metadata T) (h : metadata E n s = some m) : MissingList E s m.missing := by
  unfold metadata at h
  simp only at h
  split at h
  · cases h
  · next b missing hr =>
    simp only [Option.some.injEq] at h
    have := recurse_collect E.shape
      (fun t => !((s.clauses.filterMap (·.test)).contains t || !E.literalLike t) && !((s.clauses.filterMap (·.test)).any E.isUndefined && E.isUndefined t))
      (collect E (s.clauses.filterMap (·.test)) ((s.clauses.filterMap (·.test)).any E.isUndefined)) (by
        intro t acc
        simp only [collect]
        cases (s.clauses.filterMap (·.test)).contains t || !E.literalLike t <;>
          cases (s.clauses.filterMap (·.test)).any E.isUndefined && E.isUndefined t <;> simp) n _ _ _ _ hr
    obtain ⟨_, ls, hl, hm⟩ := this
    refine ⟨ls, hl, ?_⟩
    rw [← h]
    simp only [hm, List.nil_append]
    apply List.filter_congr
    intro t _
    have hc := covered_iff E s t
    rw [Bool.eq_iff_iff]
    classical
    refine Iff.trans ?_ decide_eq_true_iff.symm
    rw [← hc]
    cases (s.clauses.filterMap (·.test)).contains t <;> cases E.literalLike t <;>
      cases (s.clauses.filterMap (·.test)).any E.isUndefined <;> cases E.isUndefined t <;> simp

theorem missingList_mem (E : Env T) (s : Stmt T) (ms : List T) (h : MissingList E s ms) (t : T) : t ∈ ms ↔ Missing E s t := by
  obtain ⟨ls, hl, rfl⟩ := h
  simp only [List.mem_filter, decide_eq_true_eq, Missing]
  constructor
  · rintro ⟨h1, h2⟩; exact ⟨leaves_sound hl _ h1, h2⟩
  · rintro ⟨h1, h2⟩; exact ⟨leaves_complete h1 _ hl, h2⟩

mutual
theorem leaves_unique {shape : T → Shape T} {t : T} {ls ls' : List T} : Leaves shape t ls → Leaves shape t ls' → ls = ls'
  | .leaf h1 h2, h => by cases h with
    | leaf => rfl
    | union h => exact absurd h (h1 _)
    | intersection h => exact absurd h (h2 _)
  | .union h hl, h' => by cases h' with
    | leaf h1 => exact absurd h (h1 _)
    | union h' hl' => rw [h] at h'; cases h'; exact leavesAll_unique hl hl'
    | intersection h' => rw [h] at h'; cases h'
  | .intersection h hl, h' => by cases h' with
    | leaf _ h1 => exact absurd h (h1 _)
    | union h' => rw [h] at h'; cases h'
    | intersection h' hl' => rw [h] at h'; cases h'; exact leavesAll_unique hl hl'
theorem leavesAll_unique {shape : T → Shape T} {ps ls ls' : List T} : LeavesAll shape ps ls → LeavesAll shape ps ls' → ls = ls'
  | .nil, h => by cases h; rfl
  | .cons h1 h2, h => by cases h with
    | cons h1' h2' => rw [leaves_unique h1 h1', leavesAll_unique h2 h2']
end

theorem missingList_unique (E : Env T) (s : Stmt T) (ms ms' : List T) (h : MissingList E s ms) (h' : MissingList E s ms') : ms = ms' := by
  obtain ⟨ls, hl, rfl⟩ := h
  obtain ⟨ls', hl', rfl⟩ := h'
  rw [leaves_unique hl hl']

/-! ## Default clause and comment -/

theorem isSuffixOf_append (a b : Text) : b.isSuffixOf (a ++ b) = true := by
  rw [List.isSuffixOf_iff_suffix]; exact ⟨a, rfl⟩

theorem commentBody_eq (c : Comment) (b : Text) (h : HasBody c b) : commentBody c = b := by
  unfold commentBody
  rcases h with ⟨h, ht⟩ | ⟨h1, h2, ht⟩
  · rw [h, ht]; simp [trimPrefix]
  · rw [h1, h2, ht]
    have e : trimPrefix ['/', '*'] ('/' :: '*' :: b ++ ['*', '/']) = b ++ ['*', '/'] := by simp [trimPrefix]
    simp only [Bool.false_eq_true, if_false, if_true, e]
    simp [trimSuffix, isSuffixOf_append]

theorem hasBody_unique (c : Comment) (b b' : Text) (h : HasBody c b) (h' : HasBody c b') : b = b' := by
  rw [← commentBody_eq c b h, commentBody_eq c b' h']

theorem firstMatch_iff (E : Env T) (cs : List Comment) (hw : ∀ c ∈ cs, WellFormed c) (c : Comment) :
    firstMatch E cs = some c ↔ ∃ pre post, cs = pre ++ c :: post ∧ Answers E c (some true) ∧ ∀ x ∈ pre, Answers E x (some false) := by
  induction cs with
  | nil => simp [firstMatch]
  | cons x xs ih =>
    obtain ⟨b, hb⟩ := hw x (by simp)
    have ih := ih fun y hy => hw y (by simp [hy])
    have ha : ∀ r, Answers E x r ↔ E.matchesPattern (E.trimSpace b) = r := by
      intro r
      constructor
      · rintro ⟨b', hb', h⟩; rw [hasBody_unique x b b' hb hb']; exact h
      · intro h; exact ⟨b, hb, h⟩
    rw [firstMatch, commentBody_eq x b hb]
    have key : ∀ r, E.matchesPattern (E.trimSpace b) = r → r ≠ some true → (∃ pre post, x :: xs = pre ++ c :: post ∧ Answers E c (some true) ∧
        ∀ y ∈ pre, Answers E y (some false)) → r = some false ∧ ∃ pre post, xs = pre ++ c :: post ∧ Answers E c (some true) ∧
        ∀ y ∈ pre, Answers E y (some false) := by
      rintro r hr hne ⟨pre, post, he, hc, hp⟩
      cases pre with
      | nil =>
        simp only [List.nil_append, List.cons.injEq] at he
        rw [← he.1, ha, hr] at hc
        exact absurd hc hne
      | cons p pre =>
        simp only [List.cons_append, List.cons.injEq] at he
        have hx := hp p (by simp)
        rw [← he.1, ha, hr] at hx
        exact ⟨hx, pre, post, he.2, hc, fun y hy => hp y (by simp [hy])⟩
    cases hr : E.matchesPattern (E.trimSpace b) with
    | none =>
      simp only [reduceCtorEq, false_iff]
      intro h
      have := (key _ hr (by simp) h).1
      cases this
    | some r =>
      cases r with
      | true =>
        simp only [Option.some.injEq]
        constructor
        · rintro rfl; exact ⟨[], xs, rfl, (ha _).2 hr, by simp⟩
        · rintro ⟨pre, post, he, hc, hp⟩
          cases pre with
          | nil => simp only [List.nil_append, List.cons.injEq] at he; exact he.1
          | cons p pre =>
            simp only [List.cons_append, List.cons.injEq] at he
            have hx := hp p (by simp)
            rw [← he.1, ha, hr] at hx
            cases hx
      | false =>
        simp only
        rw [ih]
        constructor
        · rintro ⟨pre, post, he, hc, hp⟩
          refine ⟨x :: pre, post, by simp [he], hc, ?_⟩
          intro y hy
          rcases List.mem_cons.1 hy with rfl | hy
          · exact (ha _).2 hr
          · exact hp y hy
        · intro h; exact (key _ hr (by simp) h).2

theorem defaultClause_iff (s : Stmt T) (d : Clause T) : s.clauses.find? (fun c => c.test.isNone) = some d ↔ DefaultClause s d := by
  rw [List.find?_eq_some_iff_append]
  simp only [DefaultClause]
  constructor
  · rintro ⟨h, pre, post, he, hp⟩
    refine ⟨pre, post, he, by simpa using h, ?_⟩
    intro c hc hn
    have := hp c hc
    simp [hn] at this
  · rintro ⟨pre, post, he, h, hp⟩
    refine ⟨by simp [h], pre, post, he, ?_⟩
    intro c hc
    have := hp c hc
    cases hh : c.test with
    | none => exact absurd hh this
    | some => simp

theorem noDefault_iff (s : Stmt T) : s.clauses.find? (fun c => c.test.isNone) = none ↔ ∀ c ∈ s.clauses, c.test ≠ none := by
  rw [List.find?_eq_none]
  constructor
  · intro h c hc hn; exact h c hc (by simp [hn])
  · intro h c hc hn; exact h c hc (by simpa using hn)

theorem metadata_fields (E : Env T) (n : Nat) (s : Stmt T) (m : Metadata T) (h : metadata E n s = some m) :
    m.containsNonLiteralType = containsNonLiteral E s.discriminant ∧ m.defaultCase = s.clauses.find? (fun c => c.test.isNone) ∧
    m.defaultCaseComment = (if (s.clauses.find? (fun c => c.test.isNone)).isNone then commentDefaultCase E s else none) ∧
    m.symbolName = (E.symbolName s.discriminant).getD [] := by
  unfold metadata at h
  simp only at h
  split at h
  · cases h
  · simp only [Option.some.injEq] at h
    rw [← h]
    exact ⟨rfl, rfl, rfl, rfl⟩

theorem comment_iff (E : Env T) (n : Nat) (s : Stmt T) (m : Metadata T) (h : metadata E n s = some m) (hw : ∀ c ∈ s.comments, WellFormed c)
    (c : Comment) : m.defaultCaseComment = some c ↔ DefaultComment E s c := by
  obtain ⟨_, _, hc, _⟩ := metadata_fields E n s m h
  rw [hc]
  simp only [DefaultComment, commentDefaultCase]
  cases hf : s.clauses.find? (fun c => c.test.isNone) with
  | some d =>
    obtain ⟨pre, post, he, hd, _⟩ := (defaultClause_iff s d).1 hf
    simp only [Option.isNone_some, Bool.false_eq_true, if_false, reduceCtorEq, false_iff]
    rintro ⟨hn, _⟩
    exact hn d (by simp [he]) hd
  | none =>
    have hn := (noDefault_iff s).1 hf
    simp only [Option.isNone_none, if_true]
    cases hcl : s.clauses with
    | nil => simp
    | cons a as =>
      rw [← hcl]
      have hne : s.clauses ≠ [] := by simp [hcl]
      have he : s.clauses.isEmpty = false := by simp [hcl]
      rw [he]
      simp only [Bool.false_eq_true, if_false]
      rw [firstMatch_iff E s.comments hw]
      exact ⟨fun hx => ⟨hn, hne, hx⟩, fun hx => hx.2.2⟩

theorem clause_iff (E : Env T) (n : Nat) (s : Stmt T) (m : Metadata T) (h : metadata E n s = some m) (d : Clause T) :
    m.defaultCase = some d ↔ DefaultClause s d := by
  obtain ⟨_, hd, _, _⟩ := metadata_fields E n s m h
  rw [hd, defaultClause_iff]

theorem hasDefault_iff (E : Env T) (n : Nat) (s : Stmt T) (m : Metadata T) (h : metadata E n s = some m) (hw : ∀ c ∈ s.comments, WellFormed c) :
    m.hasDefaultCase = true ↔ HasDefault E s := by
  simp only [Metadata.hasDefaultCase, Bool.or_eq_true, Option.isSome_iff_exists, HasDefault, clause_iff E n s m h, comment_iff E n s m h hw]

theorem unionParts_mem (shape : T → Shape T) (t p : T) : p ∈ unionParts shape t ↔ UnionPart shape t p := by
  unfold unionParts UnionPart
  cases hs : shape t <;> simp

theorem intersectionParts_mem (shape : T → Shape T) (t p : T) : p ∈ intersectionParts shape t ↔ IntersectionPart shape t p := by
  unfold intersectionParts IntersectionPart
  cases hs : shape t <;> simp

theorem openEnded_iff (E : Env T) (t : T) : containsNonLiteral E t = true ↔ OpenEnded E t := by
  simp only [containsNonLiteral, List.any_eq_true, unionParts_mem, List.all_eq_true, intersectionParts_mem, OpenEnded, Bool.not_eq_true']

/-! ## The reports -/

/-- C45.  For every switch, the rule reports exactly what it has to: the literals of the discriminant's type no case handles, in order,
unless a default makes up for them; a default that cannot be reached; the lack of a default for a type cases cannot exhaust. -/
theorem C45_exact (E : Env T) (enc : Text → Bytes) (o : Options) (n : Nat) (s : Stmt T) (rs : List (Report T))
    (hw : ∀ c ∈ s.comments, WellFormed c) (h : check E enc o n s = some rs) (v : Verdict T) :
    v ∈ rs.map Report.verdict ↔ Wants E o s v := by
  unfold check at h
  cases hm : metadata E n s with
  | none => simp [hm] at h
  | some m =>
    simp only [hm, Option.map_some, Option.some.injEq] at h
    subst h
    have hml := metadata_missing E n s m hm
    have hmm := missingList_mem E s m.missing hml
    have hd := hasDefault_iff E n s m hm hw
    have ho : m.containsNonLiteralType = true ↔ OpenEnded E s.discriminant := by
      rw [(metadata_fields E n s m hm).1]; exact openEnded_iff E _
    have hempty : m.missing = [] ↔ ∀ t, ¬ Missing E s t := by
      constructor
      · intro he t ht; rw [← hmm, he] at ht; cases ht
      · intro ha
        cases hx : m.missing with
        | nil => rfl
        | cons t ts => exact absurd ((hmm t).1 (by simp [hx])) (ha t)
    have hnc : ∀ c d, m.defaultCaseComment = some c → m.defaultCase = some d → False := by
      intro c d hc hdc
      rw [comment_iff E n s m hm hw] at hc
      rw [clause_iff E n s m hm] at hdc
      obtain ⟨pre, post, he, hx, _⟩ := hdc
      exact hc.1 d (by simp [he]) hx
    rw [List.map_append, List.map_append, List.mem_append, List.mem_append]
    constructor
    · rintro ((h | h) | h)
      · unfold checkExhaustive at h
        split at h
        · cases h
        · next h1 =>
          split at h
          · next h2 =>
            simp only [List.map_cons, List.map_nil, List.mem_singleton, Report.verdict] at h
            subst h
            refine .missing hml (by intro he; simp [he] at h2) ?_
            rintro ⟨a, b⟩
            exact h1 (by simp [a, hd.2 b])
          · cases h
      · unfold checkUnnecessaryDefault at h
        split at h
        · cases h
        · next h1 =>
          split at h
          · next h2 =>
            simp only [Bool.and_eq_true, beq_iff_eq, List.length_eq_zero_iff, Bool.not_eq_true'] at h2
            obtain ⟨⟨he, _⟩, hnl⟩ := h2
            have hno : ¬ OpenEnded E s.discriminant := by rw [← ho, hnl]; simp
            split at h
            · next c hc =>
              simp only [List.map_cons, List.map_nil, List.mem_singleton, Report.verdict] at h
              subst h
              exact .comment (by simpa using h1) (hempty.1 he) hno ((comment_iff E n s m hm hw c).1 hc)
            · next d _ hc =>
              simp only [List.map_cons, List.map_nil, List.mem_singleton, Report.verdict] at h
              subst h
              exact .clause (by simpa using h1) (hempty.1 he) hno ((clause_iff E n s m hm d).1 hc)
            · cases h
          · cases h
      · unfold checkNoUnionDefault at h
        split at h
        · cases h
        · next h1 =>
          split at h
          · next h2 =>
            simp only [List.map_cons, List.map_nil, List.mem_singleton, Report.verdict] at h
            subst h
            simp only [Bool.and_eq_true, Bool.not_eq_true'] at h2
            exact .require (by simpa using h1) (ho.1 h2.1) (by rw [← hd, h2.2]; simp)
          · cases h
    · intro hv
      cases hv with
      | missing hms hne hcd =>
        rw [missingList_unique E s _ _ hms hml] at hne ⊢
        refine .inl (.inl ?_)
        unfold checkExhaustive
        have h1 : ¬ (o.considerDefaultExhaustiveForUnions && m.hasDefaultCase) = true := by
          rw [Bool.and_eq_true, hd]; exact hcd
        rw [if_neg h1, if_pos (List.length_pos_iff.2 hne)]
        simp [Report.verdict, join]
      | comment ha hmi hno hc =>
        refine .inl (.inr ?_)
        have hc' := (comment_iff E n s m hm hw _).2 hc
        have h0 : (m.missing.length == 0 && m.hasDefaultCase && !m.containsNonLiteralType) = true := by
          simp only [Bool.and_eq_true, beq_iff_eq, List.length_eq_zero_iff, Bool.not_eq_true']
          exact ⟨⟨hempty.2 hmi, hd.2 (.inr ⟨_, hc⟩)⟩, by rw [← ho] at hno; simpa using hno⟩
        unfold checkUnnecessaryDefault
        rw [ha, h0, hc']
        simp [Report.verdict]
      | clause ha hmi hno hc =>
        refine .inl (.inr ?_)
        have hc' := (clause_iff E n s m hm _).2 hc
        have h0 : (m.missing.length == 0 && m.hasDefaultCase && !m.containsNonLiteralType) = true := by
          simp only [Bool.and_eq_true, beq_iff_eq, List.length_eq_zero_iff, Bool.not_eq_true']
          exact ⟨⟨hempty.2 hmi, hd.2 (.inl ⟨_, hc⟩)⟩, by rw [← ho] at hno; simpa using hno⟩
        have hcn : m.defaultCaseComment = none := by
          cases hx : m.defaultCaseComment with
          | none => rfl
          | some c => exact (hnc c _ hx hc').elim
        unfold checkUnnecessaryDefault
        rw [ha, h0, hcn, hc']
        simp [Report.verdict]
      | require hr hop hnd =>
        refine .inr ?_
        have h0 : (m.containsNonLiteralType && !m.hasDefaultCase) = true := by
          simp only [Bool.and_eq_true, Bool.not_eq_true']
          exact ⟨ho.2 hop, by rw [← hd] at hnd; simpa using hnd⟩
        unfold checkNoUnionDefault
        rw [hr, h0]
        simp [Report.verdict]

/-- C45 (missing).  The unhandled literals that go into the message are exactly the literals of the discriminant's type without a case. -/
theorem C45_missing (E : Env T) (s : Stmt T) (ms : List T) (h : MissingList E s ms) (t : T) : t ∈ ms ↔ Missing E s t :=
  missingList_mem E s ms h t

/-- C45 (no contradiction).  A default that cannot be reached is never reported together with a missing branch, and there are at most two
reports. -/
theorem C45_exclusive (E : Env T) (enc : Text → Bytes) (o : Options) (n : Nat) (s : Stmt T) (rs : List (Report T))
    (h : check E enc o n s = some rs) :
    rs.length ≤ 2 ∧ ((∃ b f, Report.notExhaustive b f ∈ rs) → ∀ r ∈ rs, ∃ b f, r = .notExhaustive b f) := by
  unfold check at h
  cases hm : metadata E n s with
  | none => simp [hm] at h
  | some m =>
    simp only [hm, Option.map_some, Option.some.injEq] at h
    subst h
    have e1 : (checkExhaustive E enc o s m = [] ∨ (m.missing.length > 0 ∧ ∃ b f, checkExhaustive E enc o s m = [.notExhaustive b f])) := by
      unfold checkExhaustive; split
      · simp
      · split
        · next hx => exact .inr ⟨hx, _, _, rfl⟩
        · simp
    have e2 : (checkUnnecessaryDefault o m = [] ∨ (m.missing.length = 0 ∧ m.containsNonLiteralType = false ∧ ∃ r, checkUnnecessaryDefault o m = [r])) := by
      unfold checkUnnecessaryDefault; split
      · simp
      · split
        · next hx =>
          simp only [Bool.and_eq_true, beq_iff_eq, Bool.not_eq_true'] at hx
          split
          · exact .inr ⟨hx.1.1, hx.2, _, rfl⟩
          · exact .inr ⟨hx.1.1, hx.2, _, rfl⟩
          · simp
        · simp
    have e3 : (checkNoUnionDefault E enc o s m = [] ∨ (m.containsNonLiteralType = true ∧ ∃ b f, checkNoUnionDefault E enc o s m = [.notExhaustive b f])) := by
      unfold checkNoUnionDefault; split
      · simp
      · split
        · next hx => simp only [Bool.and_eq_true] at hx; exact .inr ⟨hx.1, _, _, rfl⟩
        · simp
    rcases e1 with h1 | ⟨hm1, b1, f1, h1⟩ <;> rcases e2 with h2 | ⟨hm2, hc2, r, h2⟩ <;> rcases e3 with h3 | ⟨hc3, b3, f3, h3⟩ <;>
      rw [h1, h2, h3] <;> first
        | omega
        | (rw [hc2] at hc3; cases hc3)
        | (constructor
           · simp
           · rintro ⟨b, f, hbf⟩
             simp_all <;> exact ⟨b, f, hbf.symm⟩)

/-- C45 (progress).  Once every listed type has a case, nothing is missing any more, whatever else was added. -/
theorem C45_complete (E : Env T) (n n' : Nat) (s s' : Stmt T) (m m' : Metadata T) (h : metadata E n s = some m) (h' : metadata E n' s' = some m')
    (hd : s'.discriminant = s.discriminant) (hc : ∀ c ∈ s.clauses, c ∈ s'.clauses) (hm : ∀ t ∈ m.missing, ∃ c ∈ s'.clauses, c.test = some t) :
    m'.missing = [] := by
  have h1 := missingList_mem E s _ (metadata_missing E n s m h)
  have h2 := missingList_mem E s' _ (metadata_missing E n' s' m' h')
  cases hx : m'.missing with
  | nil => rfl
  | cons t ts =>
    obtain ⟨hct, hl, hnc⟩ := (h2 t).1 (by simp [hx])
    exfalso
    apply hnc
    by_cases hcov : Covered E s t
    · obtain ⟨c, hcm, u, hu⟩ := hcov; exact ⟨c, hc c hcm, u, hu⟩
    · obtain ⟨c, hcm, ht⟩ := hm t ((h1 t).2 ⟨hd ▸ hct, hl, hcov⟩)
      exact ⟨c, hcm, t, ht, .inl rfl⟩

/-- C45 (termination).  The check ends on every type without an infinite chain of unions and intersections. -/
theorem C45_terminates (E : Env T) (enc : Text → Bytes) (o : Options) (s : Stmt T)
    (hwf : Acc (fun p t => ∃ ps, p ∈ ps ∧ (E.shape t = .union ps ∨ E.shape t = .intersection ps)) s.discriminant) :
    ∃ n rs, check E enc o n s = some rs := by
  have hf : ∀ t acc, ∃ out, collect E (s.clauses.filterMap (·.test)) ((s.clauses.filterMap (·.test)).any E.isUndefined) t acc = some (false, out) := by
    intro t acc; simp only [collect]; split
    · exact ⟨_, rfl⟩
    · split <;> exact ⟨_, rfl⟩
  generalize hc : collect E (s.clauses.filterMap (·.test)) ((s.clauses.filterMap (·.test)).any E.isUndefined) = f at hf
  have main : ∀ t, Acc (fun p t => ∃ ps, p ∈ ps ∧ (E.shape t = .union ps ∨ E.shape t = .intersection ps)) t →
      ∃ N, ∀ n, N ≤ n → ∀ acc, ∃ out, typeRecurser E.shape f n t acc = some (false, out) := by
    intro t ht
    induction ht with
    | intro t _ ih =>
      have loop : ∀ ps : List T, (∀ p ∈ ps, ∃ N, ∀ n, N ≤ n → ∀ acc, ∃ out, typeRecurser E.shape f n p acc = some (false, out)) →
          ∃ N, ∀ n, N ≤ n → ∀ acc, ∃ out, someLoop (typeRecurser E.shape f n) ps acc = some (false, out) := by
        intro ps
        induction ps with
        | nil => intro _; exact ⟨0, fun n _ acc => ⟨acc, rfl⟩⟩
        | cons p ps ihp =>
          intro hp
          obtain ⟨N1, h1⟩ := hp p (by simp)
          obtain ⟨N2, h2⟩ := ihp fun q hq => hp q (by simp [hq])
          refine ⟨max N1 N2, fun n hn acc => ?_⟩
          obtain ⟨o1, e1⟩ := h1 n (by omega) acc
          obtain ⟨o2, e2⟩ := h2 n (by omega) o1
          exact ⟨o2, by simp [someLoop, e1, e2]⟩
      cases hs : E.shape t with
      | union ps =>
        obtain ⟨N, hN⟩ := loop ps fun p hp => ih p ⟨ps, hp, .inl hs⟩
        refine ⟨N + 1, fun n hn acc => ?_⟩
        obtain ⟨k, rfl⟩ : ∃ k, n = k + 1 := ⟨n - 1, by omega⟩
        simp only [typeRecurser, hs]
        exact hN k (by omega) acc
      | intersection ps =>
        obtain ⟨N, hN⟩ := loop ps fun p hp => ih p ⟨ps, hp, .inr hs⟩
        refine ⟨N + 1, fun n hn acc => ?_⟩
        obtain ⟨k, rfl⟩ : ∃ k, n = k + 1 := ⟨n - 1, by omega⟩
        simp only [typeRecurser, hs]
        exact hN k (by omega) acc
      | _ =>
        refine ⟨1, fun n hn acc => ?_⟩
        obtain ⟨k, rfl⟩ : ∃ k, n = k + 1 := ⟨n - 1, by omega⟩
        simp only [typeRecurser, hs]
        exact hf t acc
  obtain ⟨N, hN⟩ := main _ hwf
  obtain ⟨out, ho⟩ := hN N (Nat.le_refl _) []
  refine ⟨N, ?_⟩
  simp only [check, metadata, hc, ho]
  exact ⟨_, rfl⟩

/-! ## The suggestion -/

theorem edit_one (code : Bytes) (f : Fix) : editAll code [f] = code.take f.pos.toNat ++ f.text ++ code.drop f.stop.toNat := by
  simp [editAll, edit]

theorem suggested (E : Env T) (enc : Text → Bytes) (n : Nat) (s : Stmt T) (m : Metadata T) (h : metadata E n s = some m) (lines : List Text) :
    Suggested enc s lines (applyMissingCases enc s m.defaultCase lines) := by
  intro code
  refine ⟨?_, ?_, ?_⟩
  · intro l hl d hd
    rw [← clause_iff E n s m h] at hd
    simp only [applyMissingCases, hl, hd, edit_one, indent, Int.toNat_natCast, List.append_assoc, List.singleton_append]
  · intro l hl hn
    have hd : m.defaultCase = none := by
      rw [(metadata_fields E n s m h).2.1, noDefault_iff]; exact hn
    simp only [applyMissingCases, hl, hd, edit_one, indent, Int.toNat_natCast, join]
  · intro hc
    have hl : s.clauses.getLast? = none := by simp [hc]
    have hj : ∀ a b c : Text, ['\n'].intercalate [a, b, c] = a ++ '\n' :: (b ++ '\n' :: c) := by
      intro a b c; simp [List.intercalate, List.intersperse]
    simp only [applyMissingCases, hl, edit_one, indent, Int.toNat_natCast, join, hj]
    simp

/-- C45 (suggestion).  The suggestion of a report adds one line for each missing literal, in the order of the message, or the default
line; before the default clause, after the last clause, or as the body of an empty switch. -/
theorem C45_suggestion (E : Env T) (enc : Text → Bytes) (o : Options) (n : Nat) (s : Stmt T) (rs : List (Report T))
    (h : check E enc o n s = some rs) (b : Text) (fixes : List Fix) (hr : Report.notExhaustive b fixes ∈ rs) :
    (∃ ms, MissingList E s ms ∧ ms ≠ [] ∧ b = " | ".toList.intercalate (ms.map (branchName E)) ∧
      Suggested enc s (ms.map fun t => caseLine E (some t) ((E.symbolName s.discriminant).getD [])) fixes) ∨
    (b = "default".toList ∧ Suggested enc s ["default: { throw new Error('default case') }".toList] fixes) := by
  unfold check at h
  cases hm : metadata E n s with
  | none => simp [hm] at h
  | some m =>
    simp only [hm, Option.map_some, Option.some.injEq] at h
    subst h
    have hs := (metadata_fields E n s m hm).2.2.2
    rw [List.mem_append, List.mem_append] at hr
    rcases hr with (hr | hr) | hr
    · unfold checkExhaustive at hr
      split at hr
      · cases hr
      · split at hr
        · next hpos =>
          simp only [List.mem_singleton, Report.notExhaustive.injEq] at hr
          obtain ⟨rfl, rfl⟩ := hr
          refine .inl ⟨m.missing, metadata_missing E n s m hm, List.length_pos_iff.1 hpos, rfl, ?_⟩
          have := suggested E enc n s m hm (m.missing.map fun t => caseLine E (some t) ((E.symbolName s.discriminant).getD []))
          rw [← hs] at this ⊢
          simp only [fixSwitch, List.map_map]
          exact this
        · cases hr
    · unfold checkUnnecessaryDefault at hr
      split at hr
      · cases hr
      · split at hr
        · split at hr <;> simp at hr
        · cases hr
    · unfold checkNoUnionDefault at hr
      split at hr
      · cases hr
      · split at hr
        · simp only [List.mem_singleton, Report.notExhaustive.injEq] at hr
          obtain ⟨rfl, rfl⟩ := hr
          exact .inr ⟨rfl, suggested E enc n s m hm _⟩
        · cases hr

theorem body_escape (t r : Text) (n : Nat) (h : ∀ c ∈ t, c.toNat ≠ 10 ∧ c.toNat ≠ 13) :
    StringLiteral.body (t.length + n) (escapeCase t ++ r) = (StringLiteral.body n r).map fun p => (t.flatMap utf16 ++ p.1, p.2) := by
  have opt : ∀ (u : List Nat) (x : Option (List Nat × List Char)), (match x with | none => none | some (us, r) => some (u ++ us, r)) =
      x.map fun p => (u ++ p.1, p.2) := by intro u x; cases x <;> rfl
  induction t with
  | nil => simp [escapeCase]
  | cons c t ih =>
    have ih := ih fun c hc => h c (by simp [hc])
    obtain ⟨h1, h2⟩ := h c (by simp)
    have e : (c :: t).length + n = (t.length + n) + 1 := by simp; omega
    rw [e]
    simp only [escapeCase, List.flatMap_cons, List.append_assoc]
    rw [show (List.flatMap (fun c => if c = '\\' then ['\\', '\\'] else if c = '\'' then ['\\', '\''] else [c]) t) = escapeCase t from rfl]
    by_cases hb : c = '\\'
    · subst hb
      have : utf16 '\\' = [92] := by decide
      simp only [if_true, List.cons_append, List.nil_append, StringLiteral.body, StringLiteral.escape]
      simp [ih, opt, utf16]
      cases StringLiteral.body n r <;> simp
    · by_cases hq : c = '\''
      · subst hq
        simp only [show ('\'' = '\\') = False by decide, if_false, if_true, List.cons_append, List.nil_append, StringLiteral.body, StringLiteral.escape]
        simp [ih, opt, utf16]
        cases StringLiteral.body n r <;> simp
      · simp only [hb, hq, if_false, List.cons_append, List.nil_append, StringLiteral.body, h1, h2, or_self, ih, opt]
        cases StringLiteral.body n r <;> simp

theorem append_line (A X B C BC Y D F DF : Text) (h1 : B ++ C = BC) (h2 : D ++ F = DF) :
    A ++ X ++ BC ++ Y ++ DF = A ++ X ++ B ++ (C ++ Y ++ D) ++ F := by subst h1; subst h2; simp

/-- C45 (text of a case).  The added line is `case TEST: { throw new Error('…') }` where the string literal denotes
`Not implemented yet: TEST case`, whatever quotes and backslashes the test has in it. -/
theorem C45_line (E : Env T) (t : T) (symbolName rest : Text) (h : ∀ c ∈ caseTest E t symbolName, c.toNat ≠ 10 ∧ c.toNat ≠ 13) :
    ∃ lit, caseLine E (some t) symbolName = "case ".toList ++ caseTest E t symbolName ++ ": { throw new Error(".toList ++ lit ++ ") }".toList ∧
      readLiteral (lit ++ rest) = some (("Not implemented yet: ".toList ++ caseTest E t symbolName ++ " case".toList).flatMap utf16, rest) := by
  refine ⟨"'Not implemented yet: ".toList ++ escapeCase (caseTest E t symbolName) ++ " case'".toList, ?_, ?_⟩
  · have e1 : ": { throw new Error(".toList ++ "'Not implemented yet: ".toList = ": { throw new Error('Not implemented yet: ".toList := by decide
    have e2 : " case'".toList ++ ") }".toList = " case') }".toList := by decide
    exact append_line _ _ _ _ _ _ _ _ _ e1 e2
  · generalize caseTest E t symbolName = x at h
    have e1 : ∀ (p q : Text), escapeCase (p ++ q) = escapeCase p ++ escapeCase q := by intro p q; simp [escapeCase]
    have e2 : "'Not implemented yet: ".toList = '\'' :: escapeCase "Not implemented yet: ".toList := by decide
    have e3 : " case'".toList = escapeCase " case".toList ++ ['\''] := by decide
    rw [e2, e3]
    have hx : ∀ c ∈ "Not implemented yet: ".toList ++ x ++ " case".toList, c.toNat ≠ 10 ∧ c.toNat ≠ 13 := by
      intro c hc
      simp only [List.mem_append] at hc
      rcases hc with (hc | hc) | hc
      · revert c; decide
      · exact h c hc
      · revert c; decide
    have e4 : '\'' :: escapeCase "Not implemented yet: ".toList ++ escapeCase x ++ (escapeCase " case".toList ++ ['\'']) ++ rest =
        '\'' :: (escapeCase ("Not implemented yet: ".toList ++ x ++ " case".toList) ++ '\'' :: rest) := by
      rw [e1, e1]; simp only [List.append_assoc, List.cons_append, List.nil_append]
    rw [e4]
    generalize "Not implemented yet: ".toList ++ x ++ " case".toList = y at hx
    simp only [readLiteral, if_true]
    refine StringLiteral.body_mono _ (y.length + 1) _ ?_ _ ?_
    · have : y.length ≤ (escapeCase y).length := by
        clear hx e4
        induction y with
        | nil => simp
        | cons c t ih =>
          simp only [escapeCase, List.flatMap_cons, List.length_append, List.length_cons] at ih ⊢
          split
          · simp only [List.length_cons, List.length_nil]; omega
          · split <;> simp only [List.length_cons, List.length_nil] <;> omega
      simp; omega
    · rw [body_escape y _ 1 hx]
      simp [StringLiteral.body]

/-- C45 (text of a case test).  A missing enum member whose name is no identifier is written `Enum['name']` with a literal that denotes the
name; a unique symbol is written by its name; anything else as TypeScript prints the type. -/
theorem C45_test (E : Env T) (t : T) (symbolName rest : Text) :
    (symbolName ≠ [] ∧ E.isIdentifier ((E.symbolName t).getD []) = false →
      ∃ lit, caseTest E t symbolName = symbolName ++ ['['] ++ lit ++ [']'] ∧
        readLiteral (lit ++ rest) = some (((E.symbolName t).getD []).flatMap utf16, rest)) ∧
    (¬ (symbolName ≠ [] ∧ E.isIdentifier ((E.symbolName t).getD []) = false) →
      caseTest E t symbolName = if E.isSymbolLike t then (E.symbolName t).getD [] else E.print t) := by
  constructor
  · intro h
    refine ⟨StringLiteral.quote ((E.symbolName t).getD []), ?_, StringLiteral.C34_denotes _ _⟩
    simp only [caseTest]
    rw [if_pos h]
  · intro h
    simp only [caseTest]
    rw [if_neg h]

/-! ## Example: `switch (x) { case "a": …; case undefined: … }` for `x : "a" | "it's" | undefined | (unique & {})` (0: the union, 1: "a",
2: "it's", 3: undefined, 4: another undefined, 5: an intersection of 6, a symbol, and 7, an object) -/

def exampleEnv : Env Nat where
  shape t := match t with
    | 0 => .union [1, 2, 4, 5]
    | 5 => .intersection [6, 7]
    | _ => .other
  literalLike t := t == 1 || t == 2 || t == 3 || t == 4 || t == 6
  isUndefined t := t == 3 || t == 4
  isSymbolLike t := t == 6
  symbolName t := if t = 6 then some "tag".toList else none
  print t := match t with
    | 1 => "\"a\"".toList
    | 2 => "\"it's\"".toList
    | _ => "undefined".toList
  isIdentifier _ := true
  matchesPattern t := some (t == "no default".toList)
  trimSpace t := t.dropWhile (· = ' ')

def exampleStmt (comments : List Comment) : Stmt Nat :=
  ⟨0, [⟨some 1, 14, 23, 2⟩, ⟨some 3, 26, 41, 2⟩], comments, 11, 50, 0⟩

example : (check exampleEnv (fun _ => []) ⟨true, true, true⟩ 3 (exampleStmt [])).map (·.map Report.verdict) =
    some [.notExhaustive "\"it's\" | typeof tag".toList] := by rfl
example : check exampleEnv (fun _ => []) ⟨true, true, true⟩ 3 (exampleStmt [⟨42, true, false, "// no default".toList⟩]) = some [] := by rfl
example : (check exampleEnv (fun _ => []) ⟨false, false, false⟩ 1 { exampleStmt [⟨42, false, true, "/* no default*/".toList⟩] with discriminant := 4 }).map
    (·.map Report.verdict) = some [.dangerousComment ⟨42, false, true, "/* no default*/".toList⟩] := by rfl
example : ∀ c ∈ [(⟨42, true, false, "// no default".toList⟩ : Comment), ⟨42, false, true, "/* no default*/".toList⟩], WellFormed c := by
  intro c hc
  simp only [List.mem_cons, List.not_mem_nil, or_false] at hc
  rcases hc with rfl | rfl
  · exact ⟨" no default".toList, .inl ⟨rfl, rfl⟩⟩
  · exact ⟨" no default".toList, .inr ⟨rfl, rfl, rfl⟩⟩
example : caseLine exampleEnv (some 2) [] = "case \"it's\": { throw new Error('Not implemented yet: \"it\\'s\" case') }".toList := by decide

end Tsgolint.Switch
