import Verif.Proof.UnsafeAccess
/-! # C80, C81 -/
namespace Tsgolint.UnsafeAccess

theorem visit_root (E : Env) (root : Node) (h : Distinct root) : Visited E (nodes false root) (nodes false root) {} (visit E false root {}) :=
  visit_spec E _ (tree_of root h) false root (fun _ h => h) {}
    ⟨by intro n h c _ hl; simp at hl, by simp, by simp, by intro n _ hl; simp at hl⟩

/-- C80 (members).  Visiting a file reports exactly the unsafe member accesses outside heritage clauses, each once, whatever the order in which accesses are visited and
states are cached. -/
theorem C80_members (E : Env) (root : Node) (h : Distinct root) :
    (∀ r, r ∈ (visit E false root {}).members ↔ ∃ n, (n, false) ∈ nodes false root ∧ n.id = r.id ∧ UnsafeMember E n r.msg) ∧
    ((visit E false root {}).members.map Report.id).Nodup := by
  have v := visit_root E root h
  refine ⟨fun r => ⟨fun hr => ?_, ?_⟩, v.inv.nodup⟩
  · obtain ⟨n, h1, h2, h3, -⟩ := v.inv.sound r hr
    exact ⟨n, h1, h2, h3⟩
  · rintro ⟨n, h1, h2, h3⟩
    obtain ⟨q, obj, a⟩ := h3.access
    have := v.inv.complete n h1 (v.done n h1 a.is) _ h3
    rwa [h2] at this

/-- C80 (computed names).  And exactly the unsafe computed names, each once. -/
theorem C80_names (E : Env) (root : Node) (h : Distinct root) :
    (∀ r, r ∈ (visit E false root {}).computed ↔ ∃ n inHeritage, (n, inHeritage) ∈ nodes false root ∧ n.id = r.id ∧ UnsafeName E n r.msg) ∧
    ((visit E false root {}).computed.map Report.id).Nodup := by
  have v := (visit_root E root h).computed
  rw [v]
  constructor
  · intro r
    simp only [List.append_nil, List.mem_reverse, List.mem_filterMap, nameReport_iff]
    constructor
    · rintro ⟨⟨n, b⟩, h1, h2, h3⟩; exact ⟨n, b, h1, h3.symm, h2⟩
    · rintro ⟨n, b, h1, h2, h3⟩; exact ⟨(n, b), h1, h3, h2.symm⟩
  · simp only [List.append_nil, List.map_reverse]
    refine (List.reverse_perm _).nodup_iff.2 ?_
    unfold Distinct at h
    generalize nodes false root = l at h
    induction l with
    | nil => simp
    | cons x l ih =>
      rw [List.map_cons, List.nodup_cons] at h
      rw [List.filterMap_cons]
      cases hx : nameReport E x.1 with
      | none => exact ih h.2
      | some r =>
        simp only [List.map_cons, List.nodup_cons]
        refine ⟨fun hm => ?_, ih h.2⟩
        obtain ⟨r', h1, h2⟩ := List.mem_map.1 hm
        obtain ⟨y, h3, h4⟩ := List.mem_filterMap.1 h1
        apply h.1
        rw [List.mem_map]
        exact ⟨y, h3, by rw [← ((nameReport_iff ..).1 h4).2, ← ((nameReport_iff ..).1 hx).2, h2]⟩

/-- C80 (nothing missed).  For each access on an `any` value that is not an allowed optional one, this access or one before it in the same chain is reported. -/
theorem C80_covered (E : Env) (n : Node) (q : Bool) (obj : Node) (a : Access n q obj) (hq : ¬ Allowed E q) (hany : E.isAny obj.id = true) :
    ∃ m msg, Continues E m n ∧ UnsafeMember E m msg := by
  have main : ∀ k (n : Node), sizeOf n < k → Tainted E n → ∃ m msg, Continues E m n ∧ UnsafeMember E m msg := by
    intro k
    induction k with
    | zero => intro n h; omega
    | succ k ih =>
      intro n hk t
      by_cases hh : ∃ q obj, Access n q obj ∧ ¬ Allowed E q ∧ Tainted E obj
      · obtain ⟨q, obj, a, hq, ht⟩ := hh
        obtain ⟨m, msg, h1, h2⟩ := ih obj (by have := a.lt; omega) ht
        exact ⟨m, msg, .step a hq h1, h2⟩
      · cases t with
        | here a hq hany =>
          refine ⟨n, _, .refl, (unsafeMember_iff E a _).2 ⟨hq, hany, fun h => hh ⟨_, _, a, hq, (st_tainted ..).1 h⟩, rfl⟩⟩
        | before a hq t => exact absurd ⟨_, _, a, hq, t⟩ hh
  exact main _ n (Nat.lt_succ_self _) (.here a hq hany)

/-- C80 (once per chain).  After a reported access no further access of the same chain is reported. -/
theorem C80_once (E : Env) (m n : Node) (msg msg' : Msg) (hm : UnsafeMember E m msg) (c : Continues E m n) (hne : n ≠ m) : ¬ UnsafeMember E n msg' := by
  have tainted : ∀ n, Continues E m n → Tainted E n := by
    intro n c
    induction c with
    | refl => cases hm with
      | this a hq h => exact .here a hq h
      | value a hq h => exact .here a hq h
    | step a hq _ ih => exact .before a hq ih
  cases c with
  | refl => exact absurd rfl hne
  | step a hq c =>
    intro hn
    cases hn with
    | this b _ _ h => obtain ⟨-, rfl⟩ := a.unique b; exact h (tainted _ c)
    | value b _ _ h => obtain ⟨-, rfl⟩ := a.unique b; exact h (tainted _ c)

/-- `x`, a variable. -/
def var (i : Nat) : Node := .other i .plain []
/-- Everything is `any`. -/
def allAny (allow : Bool) : Env := ⟨allow, true, fun _ => true, fun _ => false, fun _ => true⟩

/-- C80 (finding).  Parentheses break a chain: `x.a.b` has one report, `(x.a).b` two. -/
theorem C80_hazard_parentheses :
    (visit (allAny false) false (.prop 3 false (.prop 2 false (var 1))) {}).members = [⟨2, .member false⟩] ∧
    (visit (allAny false) false (.prop 4 false (.paren 3 (.prop 2 false (var 1)))) {}).members = [⟨2, .member false⟩, ⟨4, .member false⟩] := by
  constructor <;> decide

example : Distinct (.other 0 .plain [.prop 3 false (.prop 2 true (var 1)), .heritage 4 [.prop 6 false (var 5)]]) := by unfold Distinct; decide
example : UnsafeMember (allAny true) (.prop 3 false (.prop 2 true (var 1))) (.member false) :=
  .value (.prop ..) (by simp [Allowed]) rfl (by rw [← st_tainted]; decide) (by simp [BlamesThis, allAny])
example : (visit (allAny true) false (.other 0 .plain [.prop 3 false (.prop 2 true (var 1)), .heritage 4 [.prop 6 false (var 5)]]) {}).members = [⟨3, .member false⟩] := by decide
example : (visit { allAny true with noImplicitThis := false } false (.prop 3 false (.call 2 (.prop 1 false (.this 0)) [])) {}).members
    = [⟨1, .this⟩, ⟨3, .this⟩] := by decide
example : (visit (allAny false) false (.elem 3 false (var 1) (.other 2 .update [])) {}).computed = [] := by decide
example : (visit (allAny false) false (.elem 3 false (var 1) (var 2)) {}).computed = [⟨3, .computed false⟩] := by decide

/-- C81.  A call, `new` or template tag is reported exactly if the callee is unsafe, saying what it is; the message is about `this` exactly if the callee is `any` and
begins with a `this` that is `any`, without `noImplicitThis`.  `import(…)` is never reported. -/
theorem C81_reported (noImplicitThis : Bool) (thisIsAny : Option Bool) (isImport : Bool) (form : Form) (c : Callee) (r : CallReport) :
    callListener noImplicitThis thisIsAny isImport form c = some r ↔
      ¬(form = .call ∧ isImport = true) ∧ UnsafeCallee form c r.what ∧
      (r.this = true ↔ c.isAny = true ∧ noImplicitThis = false ∧ thisIsAny = some true) := by
  have hw : ∀ w, UnsafeCallee form c w ↔ (c.isAny = true ∧ w = (if c.isError then .error else .any)) ∨
      (c.isAny = false ∧ c.functionLike = true ∧ c.constructSignatures = 0 ∧ w = .function ∧
        (if form = .new then c.callSignatures.any (fun v => !v) = false else c.callSignatures = [])) := by
    intro w
    constructor
    · intro h
      cases h with
      | any h1 h2 => left; simp [h1, h2]
      | error h1 h2 => left; simp [h1, h2]
      | call h1 h2 h3 h4 h5 => right; simp [h1, h2, h3, h4, h5]
      | new h1 h2 h3 h4 h5 => right; simp [h1, h2, h3, h4]; intro h; cases h5 _ h
    · rintro (⟨h1, rfl⟩ | ⟨h1, h2, h3, rfl, h4⟩)
      · cases h2 : c.isError
        · exact .any h1 h2
        · exact .error h1 h2
      · by_cases hf : form = .new
        · rw [if_pos hf] at h4
          exact .new h1 h2 h3 hf (by simpa using h4)
        · rw [if_neg hf] at h4
          exact .call h1 h2 h3 hf h4
  rw [hw]
  obtain ⟨rt, rw'⟩ := r
  obtain ⟨any, err, fn, cs, calls⟩ := c
  have hlen : (calls.length > 0) ↔ calls ≠ [] := by cases calls <;> simp
  simp only [callListener, checkCall, hlen]
  clear hw hlen
  have himp : (form = .call && isImport) = true ↔ form = .call ∧ isImport = true := by simp
  by_cases hi : form = .call ∧ isImport = true
  · simp [himp.2 hi, hi]
  · rw [if_neg (fun h => hi (himp.1 h))]
    cases any with
    | true =>
      simp only [if_true, Option.some.injEq, CallReport.mk.injEq, hi, not_false_eq_true, true_and, Bool.true_eq_false, false_and, or_false]
      rw [And.comm, eq_comm (a := rw')]
      refine and_congr Iff.rfl ?_
      cases noImplicitThis <;> cases thisIsAny <;> cases rt <;> simp <;> rename_i b <;> cases b <;> simp
    | false =>
      have ht : (rt = true ↔ False) ↔ rt = false := by cases rt <;> simp
      simp only [Bool.false_eq_true, if_false, hi, not_false_eq_true, true_and, false_and, false_or, ht]
      cases fn with
      | false => simp
      | true =>
        by_cases hc : cs = 0
        · subst hc
          simp only [Nat.lt_irrefl, gt_iff_lt, if_false, if_true, true_and]
          by_cases hf : form = .new
          · simp only [hf, if_true]
            cases calls.any (fun v => !v) <;> simp [eq_comm, and_comm]
          · simp only [hf, if_false]
            by_cases hn : calls = [] <;> simp [hn, eq_comm, and_comm]
        · have : cs > 0 := by omega
          simp [hc, this]

/-- C81 (`this`).  The search for `this` goes through parentheses, callees and objects. -/
theorem C81_this (n : Node) (t : Nat) : thisExpression n = some t ↔ StartsWithThis n t := startsWithThis_iff n t

example : callListener false (some true) false .call ⟨true, false, false, 0, []⟩ = some ⟨true, .any⟩ := by decide
example : callListener true none false .new ⟨false, false, true, 0, [true]⟩ = some ⟨false, .function⟩ := by decide
example : callListener true none false .call ⟨false, false, true, 0, [true]⟩ = none := by decide
example : UnsafeCallee .new ⟨false, false, true, 0, [true]⟩ .function := .new rfl rfl rfl rfl (by simp)
example : StartsWithThis (.call 3 (.prop 2 false (.paren 1 (.this 0))) []) 0 := .call (.prop (.paren (.this 0)))

end Tsgolint.UnsafeAccess
