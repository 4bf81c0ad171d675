import Verif.Spec.ConsistentReturn
import Verif.Proof.RuleTree
import Verif.Proof.TypeGraph
/-! # C42: consistent-return keeps functions apart -/
namespace Tsgolint.ConsistentReturn
open Tsgolint.RuleTree Tsgolint.TypeGraph

/-- What the rule does with a node of the innermost function. -/
def handle (treatUndefined : Bool) (s : State) : Label → State × List Report
  | .ret r => onReturn treatUndefined s r
  | _ => (s, [])

/-- The scope of a function. -/
def fresh : Label → State
  | .func f => enterFunction f
  | _ => enterFunction ⟨0, false, "", false, false⟩

theorem isScoped (treatUndefined : Bool) :
    Scoped (step treatUndefined) Label.isFunc fresh (handle treatUndefined) (fun s _ => exitFunction s) where
  push := by intro st a h; cases a <;> simp [Label.isFunc] at h; simp [step, fresh]
  pop := by intro s st a h; cases a <;> simp [Label.isFunc] at h; simp [step]
  top := by intro s st a h; cases a <;> simp [Label.isFunc] at h <;> simp [step, handle]
  none := by intro a h; cases a <;> simp [Label.isFunc] at h <;> simp [step]
  out := by intro st a h; cases a <;> simp [Label.isFunc] at h <;> cases st <;> simp [step]

theorem nameWithKind_eq (f : Func) : nameWithKind f = described f := by
  unfold nameWithKind described
  by_cases h : f.name = "" <;> simp [h, String.append_assoc]

theorem returnsValue_iff (treatUndefined : Bool) (r : Ret) : getHasReturnValue treatUndefined r = true ↔ ReturnsValue treatUndefined r := by
  unfold getHasReturnValue ReturnsValue
  cases r.hasExpression <;> cases treatUndefined <;> cases r.typeIsUndefined <;> cases r.isUndefinedLiteral <;> simp

/-- The state after the return statements `rs` that count. -/
def after (treatUndefined : Bool) (f : Func) : List Ret → State × List Report
  | [] => (enterFunction f, [])
  | r :: rs =>
    let v := getHasReturnValue treatUndefined r
    let bad := rs.filter fun r => getHasReturnValue treatUndefined r ≠ v
    (⟨f, true, v, decide (bad ≠ []), if v then "missingReturnValue" else "unexpectedReturnValue"⟩,
     bad.map fun r => if v then .missing r.id (described f) else .unexpected r.id (described f))

theorem counted_append (f : Func) (as bs : List Label) : counted f (as ++ bs) = counted f as ++ counted f bs := by
  induction as with
  | nil => rfl
  | cons a as ih =>
    cases a with
    | ret r => simp only [List.cons_append, counted, ih]; split <;> simp
    | func f => simp [counted, ih]
    | other => simp [counted, ih]

theorem after_node (treatUndefined : Bool) (f : Func) (rs : List Ret) : (after treatUndefined f rs).1.node = f := by
  cases rs <;> rfl

/-- One more return statement. -/
theorem onReturn_after (treatUndefined : Bool) (f : Func) (rs : List Ret) (r : Ret) (h : ¬ (r.hasExpression = false ∧ f.allowsVoid = true)) :
    (onReturn treatUndefined (after treatUndefined f rs).1 r).1 = (after treatUndefined f (rs ++ [r])).1 ∧
    (after treatUndefined f rs).2 ++ (onReturn treatUndefined (after treatUndefined f rs).1 r).2 = (after treatUndefined f (rs ++ [r])).2 := by
  have hc : (!r.hasExpression && (after treatUndefined f rs).1.node.allowsVoid) = false := by
    rw [after_node]
    cases h1 : r.hasExpression <;> cases h2 : f.allowsVoid <;> simp_all
  unfold onReturn
  rw [if_neg (by rw [hc]; simp)]
  cases rs with
  | nil => simp [after, enterFunction]
  | cons q rs =>
    by_cases hv : getHasReturnValue treatUndefined q = getHasReturnValue treatUndefined r
    · simp [after, hv]
    · have hv' : ¬ getHasReturnValue treatUndefined r = getHasReturnValue treatUndefined q := fun h => hv h.symm
      cases hq : getHasReturnValue treatUndefined q <;> simp [after, hv', hq, hv, reportMismatched, nameWithKind_eq] <;> simp_all

theorem within_after (treatUndefined : Bool) (f : Func) (ls pre : List Label) :
    (within (handle treatUndefined) (after treatUndefined f (counted f pre)).1 ls).1 = (after treatUndefined f (counted f (pre ++ ls))).1 ∧
    (after treatUndefined f (counted f pre)).2 ++ (within (handle treatUndefined) (after treatUndefined f (counted f pre)).1 ls).2 =
      (after treatUndefined f (counted f (pre ++ ls))).2 := by
  induction ls generalizing pre with
  | nil => simp [within]
  | cons a ls ih =>
    have ih := ih (pre ++ [a])
    rw [List.append_assoc, List.cons_append, List.nil_append] at ih
    simp only [within]
    by_cases hsame : counted f (pre ++ [a]) = counted f pre ∧ (handle treatUndefined (after treatUndefined f (counted f pre)).1 a) =
        ((after treatUndefined f (counted f pre)).1, [])
    · rw [hsame.1] at ih
      rw [hsame.2]
      simpa using ih
    · cases a with
      | func g => exact absurd ⟨by simp [counted_append, counted], by simp [handle]⟩ hsame
      | other => exact absurd ⟨by simp [counted_append, counted], by simp [handle]⟩ hsame
      | ret r =>
        by_cases h : r.hasExpression = false ∧ f.allowsVoid = true
        · refine absurd ⟨by simp [counted_append, counted, h], ?_⟩ hsame
          simp only [handle, onReturn, after_node]
          rw [if_pos (by simp [h])]
        · have hcnt : counted f (pre ++ [Label.ret r]) = counted f pre ++ [r] := by simp only [counted_append, counted]; rw [if_neg h]
          obtain ⟨h1, h2⟩ := onReturn_after treatUndefined f (counted f pre) r h
          rw [hcnt] at ih
          simp only [handle]
          rw [h1]
          refine ⟨ih.1, ?_⟩
          rw [← List.append_assoc, h2]
          exact ih.2

theorem mem_exitFunction (s : State) (x : Report) : x ∈ exitFunction s ↔
    s.hasMismatch = false ∧ s.hasReturn = true ∧ s.hasReturnValue = true ∧ s.node.implicitReturn = true ∧ s.node.allowsVoid = false ∧
      x = .missing s.node.id (described s.node) := by
  unfold exitFunction
  rw [nameWithKind_eq]
  cases s.hasMismatch <;> cases s.hasReturn <;> cases s.hasReturnValue <;> cases s.node.implicitReturn <;> cases s.node.allowsVoid <;> simp

theorem localReports_eq (treatUndefined : Bool) (f : Func) (ls : List Label) :
    localReports fresh (handle treatUndefined) (fun s _ => exitFunction s) (.func f, ls) =
      (after treatUndefined f (counted f ls)).2 ++ exitFunction (after treatUndefined f (counted f ls)).1 := by
  obtain ⟨h1, h2⟩ := within_after treatUndefined f ls []
  have h0 : (after treatUndefined f (counted f [])).1 = enterFunction f := rfl
  have h0' : (after treatUndefined f (counted f [])).2 = [] := rfl
  rw [h0, h0'] at h2
  rw [h0] at h1
  simp only [List.nil_append] at h1 h2
  simp only [localReports, fresh, h1, h2]

theorem mem_after (treatUndefined : Bool) (f : Func) (rs : List Ret) (x : Report) :
    x ∈ (after treatUndefined f rs).2 ++ exitFunction (after treatUndefined f rs).1 ↔ Wants treatUndefined f rs x := by
  have hne : ∀ r, getHasReturnValue treatUndefined r = false ↔ ¬ ReturnsValue treatUndefined r := by
    intro r; rw [← returnsValue_iff]; simp
  cases rs with
  | nil =>
    simp only [after, enterFunction, exitFunction, Bool.and_false, Bool.false_and, List.nil_append]
    constructor
    · intro h; simp at h
    · intro h
      cases h with
      | missing h => simp at h
      | unexpected h => simp at h
      | fallsThrough h => exact absurd rfl h
  | cons q rs =>
    rw [List.mem_append]
    constructor
    · rintro (h | h)
      · simp only [after, List.mem_map, List.mem_filter, decide_eq_true_eq] at h
        obtain ⟨r, ⟨hr, hv⟩, rfl⟩ := h
        cases hq : getHasReturnValue treatUndefined q with
        | true =>
          rw [hq] at hv
          simp only [if_true]
          exact .missing rfl hr ((returnsValue_iff _ _).1 hq) ((hne _).1 (by simpa using hv))
        | false =>
          rw [hq] at hv
          simp only [Bool.false_eq_true, if_false]
          exact .unexpected rfl hr ((hne _).1 hq) ((returnsValue_iff _ _).1 (by simpa using hv))
      · rw [mem_exitFunction] at h
        simp only [after, decide_eq_false_iff_not, ne_eq, Decidable.not_not, List.filter_eq_nil_iff, decide_eq_true_eq] at h
        obtain ⟨hall, _, hq, hi, ha, rfl⟩ := h
        refine .fallsThrough (by simp) ?_ hi ha
        intro r hr
        rw [← returnsValue_iff]
        rcases List.mem_cons.1 hr with rfl | hr
        · exact hq
        · have := hall r hr; rw [hq] at this; simpa using this
    · intro h
      cases h with
      | missing he hr hq hv =>
        cases he
        refine .inl ?_
        simp only [after, List.mem_map, List.mem_filter, decide_eq_true_eq]
        rw [(returnsValue_iff _ _).2 hq]
        exact ⟨_, ⟨hr, by rw [(hne _).2 hv]; simp⟩, by simp⟩
      | unexpected he hr hq hv =>
        cases he
        refine .inl ?_
        simp only [after, List.mem_map, List.mem_filter, decide_eq_true_eq]
        rw [(hne _).2 hq]
        exact ⟨_, ⟨hr, by rw [(returnsValue_iff _ _).2 hv]; simp⟩, by simp⟩
      | fallsThrough _ hall hi ha =>
        refine .inr ?_
        have hq := (returnsValue_iff _ _).2 (hall q (by simp))
        have hbad : rs.filter (fun r => getHasReturnValue treatUndefined r ≠ getHasReturnValue treatUndefined q) = [] := by
          rw [List.filter_eq_nil_iff]
          intro r hr
          rw [(returnsValue_iff _ _).2 (hall r (by simp [hr])), hq]
          simp
        rw [mem_exitFunction]
        simp only [after]
        rw [hbad]
        simp [hq, hi, ha]

/-- C42.  A report is made for a file exactly if some function of it wants that report, judged by its own return statements alone, those
outside the functions nested in it; return statements outside functions are never reported. -/
theorem C42_exact (treatUndefined : Bool) (file : List (Tree Label)) (x : Report) :
    x ∈ check treatUndefined file ↔
      ∃ tree ∈ file, ∃ f cs, Occurs tree (.node (.func f) cs) ∧ Wants treatUndefined f (counted f (owns Label.isFunc cs)) x := by
  obtain ⟨_, hp⟩ := scoped_trees_top (isScoped treatUndefined) file
  rw [check, hp.mem_iff, List.mem_flatMap]
  constructor
  · rintro ⟨⟨a, ls⟩, hf, hx⟩
    rw [mem_funcss] at hf
    obtain ⟨tree, ht, cs, ho, hfn, hls⟩ := hf
    cases a with
    | ret r => simp [Label.isFunc] at hfn
    | other => simp [Label.isFunc] at hfn
    | func f =>
      rw [localReports_eq] at hx
      simp only at hls
      subst hls
      exact ⟨tree, ht, f, cs, ho, (mem_after _ _ _ _).1 hx⟩
  · rintro ⟨tree, ht, f, cs, ho, hw⟩
    refine ⟨(.func f, owns Label.isFunc cs), ?_, ?_⟩
    · rw [mem_funcss]; exact ⟨tree, ht, cs, ho, rfl, rfl⟩
    · rw [localReports_eq]; exact (mem_after _ _ _ _).2 hw

theorem length_exitFunction (s : State) : (exitFunction s).length =
    if s.hasMismatch = false ∧ s.hasReturn = true ∧ s.hasReturnValue = true ∧ s.node.implicitReturn = true ∧ s.node.allowsVoid = false
      then 1 else 0 := by
  unfold exitFunction
  cases s.hasMismatch <;> cases s.hasReturn <;> cases s.hasReturnValue <;> cases s.node.implicitReturn <;> cases s.node.allowsVoid <;> simp

/-- C42.  Each mismatch is reported once: a function gets as many reports as it has deviating return statements, plus one if it falls
through. -/
theorem C42_count (treatUndefined : Bool) (file : List (Tree Label)) :
    (check treatUndefined file).length = ((funcss Label.isFunc file).map fun g => match g.1 with
      | .func f => wanted treatUndefined f (counted f g.2)
      | _ => 0).sum := by
  obtain ⟨_, hp⟩ := scoped_trees_top (isScoped treatUndefined) file
  rw [check, hp.length_eq, List.length_flatMap]
  congr 1
  apply List.map_congr_left
  rintro ⟨a, ls⟩ hf
  rw [mem_funcss] at hf
  obtain ⟨_, _, _, _, hfn, _⟩ := hf
  have hg : ∀ r, getHasReturnValue treatUndefined r = decide (ReturnsValue treatUndefined r) := by
    intro r
    have := returnsValue_iff treatUndefined r
    cases h : getHasReturnValue treatUndefined r <;> simp_all
  cases a with
  | ret r => simp [Label.isFunc] at hfn
  | other => simp [Label.isFunc] at hfn
  | func f =>
    rw [localReports_eq, List.length_append, length_exitFunction]
    simp only
    cases counted f ls with
    | nil => simp [after, enterFunction, wanted]
    | cons q rs =>
      simp only [after, wanted, List.length_map, List.countP_eq_length_filter, hg, true_and, decide_eq_false_iff_not, ne_eq,
        Decidable.not_not, List.filter_eq_nil_iff, decide_eq_true_eq, decide_eq_decide]
      congr 1
      by_cases hq : ReturnsValue treatUndefined q
      · by_cases hall : ∀ r ∈ rs, ReturnsValue treatUndefined r
        · simp +contextual [hq, hall]
        · rw [if_neg, if_neg]
          · rintro ⟨h, _⟩; exact hall fun r hr => h r (by simp [hr])
          · rintro ⟨h, _⟩; exact hall fun r hr => (h r hr).2 hq
      · rw [if_neg fun h => hq h.2.1, if_neg fun h => hq (h.1 q (by simp))]

/-! ## Void -/

variable {T : Type} [DecidableEq T]

/-- What a call of the worker guarantees. -/
theorem voidWorker_ok (E : VoidEnv T) (n : Nat) : ∀ (t : T) (v : List T) (b : Bool) (v' : List T), voidWorker E n t v = some (b, v') →
    (b = true → ResolvesToVoid E t) ∧
    (b = false → (∀ x ∈ v, x ∈ v') ∧ t ∈ v' ∧ ∀ x ∈ v', x ∈ v ∨ (E.isVoid x = false ∧ ∀ y, VoidStep E x y → y ∈ v')) := by
  have loop : ∀ n, (∀ (t : T) (v : List T) (b : Bool) (v' : List T), voidWorker E n t v = some (b, v') →
      (b = true → ResolvesToVoid E t) ∧
      (b = false → (∀ x ∈ v, x ∈ v') ∧ t ∈ v' ∧ ∀ x ∈ v', x ∈ v ∨ (E.isVoid x = false ∧ ∀ y, VoidStep E x y → y ∈ v'))) →
      ∀ (ps : List T) (v : List T) (b : Bool) (v' : List T), someLoop (voidWorker E n) ps v = some (b, v') →
      (b = true → ∃ p ∈ ps, ResolvesToVoid E p) ∧
      (b = false → (∀ x ∈ v, x ∈ v') ∧ (∀ p ∈ ps, p ∈ v') ∧
        ∀ x ∈ v', x ∈ v ∨ (E.isVoid x = false ∧ ∀ y, VoidStep E x y → y ∈ v')) := by
    intro n ih ps
    induction ps with
    | nil => intro v b v' h; simp [someLoop] at h; obtain ⟨rfl, rfl⟩ := h; simp; exact fun x hx => .inl hx
    | cons p ps ihp =>
      intro v b v' h
      rw [someLoop] at h
      split at h
      · simp at h
      · rename_i s hs
        simp at h; obtain ⟨rfl, rfl⟩ := h
        exact ⟨fun _ => ⟨p, by simp, (ih p v true _ hs).1 rfl⟩, by simp⟩
      · rename_i s hs
        obtain ⟨h1, h2⟩ := ihp s b v' h
        obtain ⟨g1, g2, g3⟩ := (ih p v false s hs).2 rfl
        refine ⟨fun hb => ?_, fun hb => ?_⟩
        · obtain ⟨q, hq, hv⟩ := h1 hb; exact ⟨q, by simp [hq], hv⟩
        · obtain ⟨k1, k2, k3⟩ := h2 hb
          refine ⟨fun x hx => k1 x (g1 x hx), ?_, ?_⟩
          · intro q hq
            rcases List.mem_cons.1 hq with rfl | hq
            · exact k1 _ g2
            · exact k2 q hq
          · intro x hx
            rcases k3 x hx with hx | hx
            · rcases g3 x hx with hx | ⟨hx1, hx2⟩
              · exact .inl hx
              · exact .inr ⟨hx1, fun y hy => k1 y (hx2 y hy)⟩
            · exact .inr hx
  induction n with
  | zero => intro t v b v' h; simp [voidWorker] at h
  | succ n ih =>
    intro t v b v' h
    rw [voidWorker] at h
    split at h
    · rename_i hc
      simp at h; obtain ⟨rfl, rfl⟩ := h
      exact ⟨by simp, fun _ => ⟨fun _ h => h, by simpa using hc, fun x hx => .inl hx⟩⟩
    · simp only at h
      split at h
      · rename_i hv
        simp at h; obtain ⟨rfl, rfl⟩ := h
        exact ⟨fun _ => .void hv, by simp⟩
      · rename_i hv
        have hv : E.isVoid t = false := by simpa using hv
        -- what remains of `v ++ [t]`
        have fin : ∀ v' : List T, (∀ x ∈ v ++ [t], x ∈ v') → (∀ y, VoidStep E t y → y ∈ v') →
            (∀ x ∈ v', x ∈ v ++ [t] ∨ (E.isVoid x = false ∧ ∀ y, VoidStep E x y → y ∈ v')) →
            (∀ x ∈ v, x ∈ v') ∧ t ∈ v' ∧ ∀ x ∈ v', x ∈ v ∨ (E.isVoid x = false ∧ ∀ y, VoidStep E x y → y ∈ v') := by
          intro v' h1 h2 h3
          refine ⟨fun x hx => h1 x (by simp [hx]), h1 t (by simp), fun x hx => ?_⟩
          rcases h3 x hx with hx | hx
          · rw [List.mem_append, List.mem_singleton] at hx
            rcases hx with hx | rfl
            · exact .inl hx
            · exact .inr ⟨hv, h2⟩
          · exact .inr hx
        split at h
        · rename_i ps hs
          obtain ⟨h1, h2⟩ := loop n ih ps _ b v' h
          refine ⟨fun hb => ?_, fun hb => ?_⟩
          · obtain ⟨p, hp, hr⟩ := h1 hb; exact .step (.union hv hs hp) hr
          · obtain ⟨g1, g2, g3⟩ := h2 hb
            refine fin v' g1 ?_ g3
            intro y hy
            cases hy with
            | union _ hs' hp => rw [hs] at hs'; cases hs'; exact g2 y hp
            | intersection _ hs' => rw [hs] at hs'; cases hs'
            | awaited _ hu => exact absurd hs (hu ps)
        · rename_i ps hs
          obtain ⟨h1, h2⟩ := loop n ih ps _ b v' h
          refine ⟨fun hb => ?_, fun hb => ?_⟩
          · obtain ⟨p, hp, hr⟩ := h1 hb; exact .step (.intersection hv hs hp) hr
          · obtain ⟨g1, g2, g3⟩ := h2 hb
            refine fin v' g1 ?_ g3
            intro y hy
            cases hy with
            | union _ hs' => rw [hs] at hs'; cases hs'
            | intersection _ hs' hp => rw [hs] at hs'; cases hs'; exact g2 y hp
            | awaited _ _ hi => exact absurd hs (hi ps)
        · rename_i hu hi
          have hself : ∀ y, VoidStep E t y → E.isThenable t = true ∧ E.awaited t = some y := by
            intro y hy
            cases hy with
            | union _ hs' => exact absurd hs' (hu _)
            | intersection _ hs' => exact absurd hs' (hi _)
            | awaited _ _ _ h1 h2 => exact ⟨h1, h2⟩
          have stop : (∀ y, VoidStep E t y → y = t) → b = false → v' = v ++ [t] →
              (b = true → ResolvesToVoid E t) ∧ (b = false → (∀ x ∈ v, x ∈ v') ∧ t ∈ v' ∧
                ∀ x ∈ v', x ∈ v ∨ (E.isVoid x = false ∧ ∀ y, VoidStep E x y → y ∈ v')) := by
            rintro h1 rfl rfl
            exact ⟨by simp, fun _ => fin _ (fun _ h => h) (fun y hy => by rw [h1 y hy]; simp) (fun x hx => .inl hx)⟩
          split at h
          · rename_i hth
            simp at h
            exact stop (fun y hy => by have := (hself y hy).1; simp [this] at hth) h.1 h.2.symm
          · rename_i hth
            split at h
            · rename_i ha
              simp at h
              exact stop (fun y hy => by have := (hself y hy).2; rw [ha] at this; cases this) h.1 h.2.symm
            · rename_i a ha
              split at h
              · rename_i hat
                simp at h
                exact stop (fun y hy => by have := (hself y hy).2; rw [ha] at this; cases this; exact hat) h.1 h.2.symm
              · obtain ⟨h1, h2⟩ := ih a _ b v' h
                refine ⟨fun hb => .step (.awaited hv (fun ps => hu ps) (fun ps => hi ps) (by simpa using hth) ha) (h1 hb), fun hb => ?_⟩
                obtain ⟨g1, g2, g3⟩ := h2 hb
                refine fin v' g1 ?_ g3
                intro y hy
                have := (hself y hy).2
                rw [ha] at this; cases this; exact g2

/-- C42.  Whether `return;` is fine in a function: some call signature returns void — for an async function, a type that resolves to void
through unions, intersections and awaiting; for another one, a union with void. -/
theorem C42_void (E : VoidEnv T) (isAsync : Bool) (n : Nat) (returnTypes : List T) (b : Bool) (h : returnsVoid E isAsync n returnTypes = some b) :
    b = true ↔ ∃ t ∈ returnTypes, (isAsync = true ∧ ResolvesToVoid E t) ∨ (isAsync = false ∧ ∃ p, UnionPart E.shape t p ∧ E.isVoid p = true) := by
  have hsig : ∀ t b, signatureAllowsVoid E isAsync n t = some b →
      (b = true ↔ (isAsync = true ∧ ResolvesToVoid E t) ∨ (isAsync = false ∧ ∃ p, UnionPart E.shape t p ∧ E.isVoid p = true)) := by
    intro t b hb
    unfold signatureAllowsVoid at hb
    cases isAsync with
    | false =>
      simp only [Bool.false_eq_true, if_false, Option.some.injEq] at hb
      subst hb
      simp only [List.any_eq_true, Bool.false_eq_true, false_and, false_or, true_and]
      constructor
      · rintro ⟨p, hp, hv⟩
        refine ⟨p, ?_, hv⟩
        unfold unionParts at hp
        split at hp
        · rename_i ps hs; exact .inl ⟨ps, hs, hp⟩
        · rename_i hs; exact .inr ⟨fun ps => hs ps, by simpa using hp⟩
      · rintro ⟨p, hp, hv⟩
        refine ⟨p, ?_, hv⟩
        unfold unionParts
        rcases hp with ⟨ps, hs, hp⟩ | ⟨hs, rfl⟩
        · simp [hs, hp]
        · split
          · rename_i hs'; exact absurd hs' (hs _)
          · simp
    | true =>
      simp only [if_true, Option.map_eq_some_iff] at hb
      obtain ⟨⟨b', v'⟩, hb, rfl⟩ := hb
      simp only [true_and, Bool.true_eq_false, false_and, or_false]
      obtain ⟨h1, h2⟩ := voidWorker_ok E n t [] b' v' hb
      refine ⟨h1, fun hr => ?_⟩
      cases b' with
      | true => rfl
      | false =>
        exfalso
        obtain ⟨_, hmem, hcl⟩ := h2 rfl
        clear h1 h2 hb
        induction hr with
        | void hv =>
          rcases hcl _ hmem with h | h
          · simp at h
          · rw [h.1] at hv; cases hv
        | step hs _ ih =>
          rcases hcl _ hmem with h | h
          · simp at h
          · exact ih (h.2 _ hs)
  induction returnTypes generalizing b with
  | nil => simp [returnsVoid] at h; subst h; simp
  | cons t ts ih =>
    rw [returnsVoid] at h
    split at h
    · simp at h
    · rename_i hs
      simp at h; subst h
      simp only [true_iff]
      exact ⟨t, by simp, (hsig t true hs).1 rfl⟩
    · rename_i hs
      have h1 := hsig t false hs
      simp only [Bool.false_eq_true, false_iff] at h1
      simp only [List.mem_cons, exists_eq_or_imp, h1, false_or]
      exact ih b h

/-- C42.  That question is answered on every finite type graph, however its promises refer to themselves. -/
theorem C42_void_terminates (E : VoidEnv T) (U : List T) (hU : ∀ t ∈ U, ∀ u, VoidStep E t u → u ∈ U) (isAsync : Bool) (returnTypes : List T)
    (hr : ∀ t ∈ returnTypes, t ∈ U) : ∃ b, returnsVoid E isAsync (U.length + 1) returnTypes = some b := by
  have main : ∀ n (t : T) (v : List T), t ∈ U → (U.filter fun x => !v.contains x).length < n →
      ∃ b v', voidWorker E n t v = some (b, v') ∧ ∀ x ∈ v, x ∈ v' := by
    intro n
    induction n with
    | zero => intro t v _ h; omega
    | succ n ih =>
      intro t v ht hlt
      rw [voidWorker]
      split
      · exact ⟨_, _, rfl, fun _ h => h⟩
      · rename_i hc
        simp only
        have hsmall : (U.filter fun x => !(v ++ [t]).contains x).length < (U.filter fun x => !v.contains x).length := by
          have hsub : (U.filter fun x => !(v ++ [t]).contains x) = (U.filter fun x => !v.contains x).filter (fun x => x ≠ t) := by
            rw [List.filter_filter]
            congr 1
            funext x
            by_cases h1 : x ∈ v <;> by_cases h2 : x = t <;> simp [h1, h2]
          rw [hsub]
          refine Nat.lt_of_le_of_ne (List.length_filter_le _ _) fun he => ?_
          have := List.length_filter_eq_length_iff.1 he t (by simp [ht]; simpa using hc)
          simp at this
        have hloop : ∀ (ps : List T) (w : List T), (∀ p ∈ ps, p ∈ U) → (∀ x ∈ v ++ [t], x ∈ w) →
            ∃ b v', someLoop (voidWorker E n) ps w = some (b, v') ∧ ∀ x ∈ w, x ∈ v' := by
          intro ps
          induction ps with
          | nil => intro w _ _; exact ⟨_, _, rfl, fun _ h => h⟩
          | cons p ps ihp =>
            intro w hps hw
            have hle : (U.filter fun x => !w.contains x).length ≤ (U.filter fun x => !(v ++ [t]).contains x).length := by
              have hsub : (U.filter fun x => !w.contains x) = (U.filter fun x => !(v ++ [t]).contains x).filter (fun x => !w.contains x) := by
                rw [List.filter_filter]
                congr 1
                funext x
                have := hw x
                by_cases h1 : x ∈ w
                · simp [h1]
                · have h2 : x ∉ v ++ [t] := fun h => h1 (this h)
                  have h3 : w.contains x = false := by simpa using h1
                  have h4 : (v ++ [t]).contains x = false := by
                    cases hcc : (v ++ [t]).contains x with
                    | false => rfl
                    | true => exact absurd (by simpa using hcc) h2
                  rw [h3, h4]; rfl
              rw [hsub]; exact List.length_filter_le _ _
            obtain ⟨b, v', he, hv'⟩ := ih p w (hps p (by simp)) (by omega)
            rw [someLoop, he]
            cases b with
            | true => exact ⟨_, _, rfl, hv'⟩
            | false =>
              obtain ⟨b, v'', he', hv''⟩ := ihp v' (fun q hq => hps q (by simp [hq])) (fun x hx => hv' x (hw x hx))
              exact ⟨b, v'', he', fun x hx => hv'' x (hv' x hx)⟩
        have hv1 : ∀ x ∈ v, x ∈ v ++ [t] := fun x hx => by simp [hx]
        split
        · exact ⟨_, _, rfl, hv1⟩
        · rename_i hv
          have hv : E.isVoid t = false := by simpa using hv
          split
          · rename_i ps hs
            obtain ⟨b, v', he, h⟩ := hloop ps (v ++ [t]) (fun p hp => hU t ht p (.union hv hs hp)) fun _ h => h
            exact ⟨b, v', he, fun x hx => h x (hv1 x hx)⟩
          · rename_i ps hs
            obtain ⟨b, v', he, h⟩ := hloop ps (v ++ [t]) (fun p hp => hU t ht p (.intersection hv hs hp)) fun _ h => h
            exact ⟨b, v', he, fun x hx => h x (hv1 x hx)⟩
          · rename_i hu hi
            split
            · exact ⟨_, _, rfl, hv1⟩
            · rename_i hth
              split
              · exact ⟨_, _, rfl, hv1⟩
              · rename_i a ha
                split
                · exact ⟨_, _, rfl, hv1⟩
                · obtain ⟨b, v', he, h⟩ := ih a (v ++ [t])
                    (hU t ht a (.awaited hv (fun ps => hu ps) (fun ps => hi ps) (by simpa using hth) ha)) (by omega)
                  exact ⟨b, v', he, fun x hx => h x (hv1 x hx)⟩
  induction returnTypes with
  | nil => exact ⟨false, rfl⟩
  | cons t ts ih =>
    obtain ⟨b, hb⟩ := ih fun t ht => hr t (by simp [ht])
    have hsig : ∃ b, signatureAllowsVoid E isAsync (U.length + 1) t = some b := by
      unfold signatureAllowsVoid
      split
      · obtain ⟨b, v', he, _⟩ := main (U.length + 1) t [] (hr t (by simp)) (by
          have := List.length_filter_le (fun x => !([] : List T).contains x) U
          omega)
        exact ⟨b, by rw [he]; rfl⟩
      · exact ⟨_, rfl⟩
    obtain ⟨c, hc⟩ := hsig
    rw [returnsVoid, hc]
    cases c with
    | true => exact ⟨true, rfl⟩
    | false => exact ⟨b, hb⟩

/-! ## An example

`function outer() { if (c) return 1; const f = async () => { return; return 2 }; return }` where `outer` can fall through. -/

/-- The outer function. -/
def outer : Func := ⟨0, false, "outer", true, false⟩
/-- The arrow function in it. -/
def inner : Func := ⟨10, true, "", false, false⟩
/-- The file. -/
def exampleFile : List (Tree Label) :=
  [.node (.func outer) [.node .other [.node (.ret ⟨1, true, false, false⟩) []],
    .node .other [.node (.func inner) [.node (.ret ⟨11, false, false, false⟩) [], .node (.ret ⟨12, true, false, false⟩) []]],
    .node (.ret ⟨2, false, false, false⟩) []]]

example : check false exampleFile = [.unexpected 12 "Async function", .missing 2 "Function 'outer'"] := by decide
example : check false [.node (.func outer) [.node (.ret ⟨1, true, false, false⟩) []]] = [.missing 0 "Function 'outer'"] := by decide
example : check true [.node (.func outer) [.node (.ret ⟨1, true, true, false⟩) []]] = [] := by decide

/-- `0` = `Promise<1 | 2>` where `1` is void; `3` is a thenable that awaits to itself through `4`. -/
def voidEnv : VoidEnv Nat where
  shape := fun t => if t = 5 then .union [2, 1] else .other
  isVoid := (· == 1)
  isThenable := fun t => t == 0 || t == 3 || t == 4
  awaited := fun t => if t = 0 then some 5 else if t = 3 then some 4 else if t = 4 then some 3 else none

example : returnsVoid voidEnv true 7 [3, 0] = some true := by decide
example : returnsVoid voidEnv true 7 [3] = some false := by decide
example : returnsVoid voidEnv false 7 [0] = some false := by decide

end Tsgolint.ConsistentReturn
