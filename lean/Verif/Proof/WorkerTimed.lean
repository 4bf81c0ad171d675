import Verif.Proof.Worker
namespace Tsgolint.Worker
open Tsgolint.Report
variable {File Node Range : Type}

/-- forget the timing parts -/
def erase (s : TState File Node Range) : State File Node Range :=
  { builder := s.builder, registry := fun k => (s.registry k).map fun t => ⟨t.ruleName, t.fn⟩, heap := s.heap, out := s.out }

theorem erase_register (name : String) (idx id : Nat) (ks : List Kind) (s : TState File Node Range) :
    erase (ks.foldl (tRegister name idx id) s) = ks.foldl (register name id) (erase s) := by
  induction ks generalizing s with
  | nil => rfl
  | cons k ks ih =>
    rw [List.foldl_cons, ih, List.foldl_cons]
    congr 1
    simp only [erase, tRegister, register, State.mk.injEq, true_and, and_true]
    funext k'
    split <;> simp

theorem erase_start (P : Params File Node Range) (dur : Nat → Int) (file : File) (s : TState File Node Range)
    (ri : Rule File Node Range × Nat) : erase (tStartRule P dur file s ri) = startRule P file (erase s) ri.1 := by
  simp only [tStartRule, startRule, erase_register]
  rfl

theorem erase_foldl_start (P : Params File Node Range) (dur : Nat → Int) (file : File) (l : List (Rule File Node Range × Nat))
    (s : TState File Node Range) :
    erase (l.foldl (tStartRule P dur file) s) = (l.map (·.1)).foldl (startRule P file) (erase s) := by
  induction l generalizing s with
  | nil => rfl
  | cons x l ih => rw [List.foldl_cons, ih, erase_start]; rfl

theorem erase_call (P : Params File Node Range) (dur : Nat → Int) (k : Kind) (n : Node) (s : TState File Node Range)
    (t : TTagged) : erase (tCall P dur k n s t) = call P k n (erase s) ⟨t.ruleName, t.fn⟩ := by
  simp only [tCall, call, erase, record]
  split <;> rename_i h <;> simp [h, tSay, say]

theorem erase_foldl_call (P : Params File Node Range) (dur : Nat → Int) (k : Kind) (n : Node) (l : List TTagged)
    (s : TState File Node Range) :
    erase (l.foldl (tCall P dur k n) s) = (l.map fun t => ⟨t.ruleName, t.fn⟩).foldl (call P k n) (erase s) := by
  induction l generalizing s with
  | nil => rfl
  | cons t l ih => rw [List.foldl_cons, ih, erase_call]; rfl

theorem erase_events (P : Params File Node Range) (dur : Nat → Int) (evs : List (Kind × Node)) (s : TState File Node Range) :
    erase (evs.foldl (tRunListeners P dur) s) = evs.foldl (runListeners P) (erase s) := by
  induction evs generalizing s with
  | nil => rfl
  | cons e evs ih => rw [List.foldl_cons, ih, List.foldl_cons, tRunListeners, erase_foldl_call]; rfl

theorem erase_lintFile (P : Params File Node Range) (dur : Nat → Int) (s : TState File Node Range) (file : File) :
    erase (tLintFile P dur s file) = lintFile P (erase s) file := by
  have h1 := erase_events P dur (P.events file)
    ((P.rules file).zipIdx.foldl (tStartRule P dur file)
      { s with builder := { s.builder with file := some file }, stats := List.replicate (P.rules file).length ⟨0, 0⟩ })
  rw [erase_foldl_start] at h1
  simp only [tLintFile, lintFile]
  have h2 : ((P.rules file).zipIdx.map (·.1)) = P.rules file := by simp
  rw [h2] at h1
  have h3 : erase { s with builder := { s.builder with file := some file }, stats := List.replicate (P.rules file).length ⟨0, 0⟩ }
    = { erase s with builder := { (erase s).builder with file := some file } } := rfl
  rw [h3] at h1
  rw [← h1]
  rfl

theorem erase_work (P : Params File Node Range) (dur : Nat → Int) (files : List File) (s : TState File Node Range) :
    erase (files.foldl (tLintFile P dur) s) = files.foldl (lintFile P) (erase s) := by
  induction files generalizing s with
  | nil => rfl
  | cons f fs ih => rw [List.foldl_cons, ih, erase_lintFile]; rfl

/-! ## The recorded numbers -/

def recAll (dur : Nat → Int) : List Nat → Nat → List Stat → List Stat
  | [], _, st => st
  | i :: tr, c, st => recAll dur tr (c + 1) (modAt i (fun x => ⟨x.duration + dur c, x.calls + 1⟩) st)

theorem recAll_append (dur : Nat → Int) (a b : List Nat) (c : Nat) (st : List Stat) :
    recAll dur (a ++ b) c st = recAll dur b (c + a.length) (recAll dur a c st) := by
  induction a generalizing c st with
  | nil => rfl
  | cons i a ih => simp only [List.cons_append, recAll, ih, List.length_cons]; congr 1; omega

theorem foldl_tRegister_other (name : String) (idx id : Nat) (ks : List Kind) (s : TState File Node Range) :
    (ks.foldl (tRegister name idx id) s).stats = s.stats ∧ (ks.foldl (tRegister name idx id) s).clock = s.clock ∧
    (ks.foldl (tRegister name idx id) s).localTimings = s.localTimings ∧ (ks.foldl (tRegister name idx id) s).heap = s.heap := by
  induction ks generalizing s with
  | nil => simp
  | cons k ks ih => rw [List.foldl_cons]; simpa [tRegister] using ih (tRegister name idx id s k)

theorem foldl_tRegister (name : String) (idx id : Nat) (ks : List Kind) (hnd : ks.Nodup) (s : TState File Node Range) (k : Kind) :
    (ks.foldl (tRegister name idx id) s).registry k = s.registry k ++ if k ∈ ks then [⟨name, idx, id⟩] else [] := by
  induction ks generalizing s with
  | nil => simp
  | cons k' ks ih =>
    rw [List.foldl_cons, ih (List.nodup_cons.1 hnd).2]
    simp only [tRegister]
    by_cases hk : k = k'
    · subst hk; simp [(List.nodup_cons.1 hnd).1]
    · simp [hk]

/-- the (name, index) pairs of the rules listening to `k` -/
def listening (file : File) (k : Kind) (l : List (Rule File Node Range × Nat)) : List (String × Nat) :=
  (l.filter fun x => k ∈ x.1.listens file).map fun x => (x.1.name, x.2)

theorem foldl_tStart (P : Params File Node Range) (hs : ShuffleOk P) (dur : Nat → Int) (file : File)
    (l : List (Rule File Node Range × Nat)) (hk : ∀ x ∈ l, (x.1.listens file).Nodup) (s : TState File Node Range) :
    let t := l.foldl (tStartRule P dur file) s
    t.stats = recAll dur (l.map (·.2)) s.clock s.stats ∧ t.clock = s.clock + l.length ∧ t.localTimings = s.localTimings ∧
    ∀ k, (t.registry k).map (fun t => (t.ruleName, t.ruleIdx)) =
      (s.registry k).map (fun t => (t.ruleName, t.ruleIdx)) ++ listening file k l := by
  induction l generalizing s with
  | nil => simp [recAll, listening]
  | cons x l ih =>
    have hnd : (P.shuffle s.heap.length (x.1.listens file)).Nodup := (hs _ _).nodup_iff.2 (hk x (by simp))
    obtain ⟨h1, h2, h3, h4⟩ := ih (fun y hy => hk y (by simp [hy])) (tStartRule P dur file s x)
    have ho := foldl_tRegister_other x.1.name x.2 s.heap.length (P.shuffle s.heap.length (x.1.listens file))
      (record dur x.2 { tSay P { s with builder := { s.builder with ruleName := x.1.name } } (x.1.run file) with
        heap := s.heap ++ [⟨x.1, file, []⟩] })
    have hr := foldl_tRegister x.1.name x.2 s.heap.length (P.shuffle s.heap.length (x.1.listens file)) hnd
      (record dur x.2 { tSay P { s with builder := { s.builder with ruleName := x.1.name } } (x.1.run file) with
        heap := s.heap ++ [⟨x.1, file, []⟩] })
    have e1 : (tStartRule P dur file s x).stats = modAt x.2 (fun y => ⟨y.duration + dur s.clock, y.calls + 1⟩) s.stats := ho.1
    have e2 : (tStartRule P dur file s x).clock = s.clock + 1 := ho.2.1
    have e3 : (tStartRule P dur file s x).localTimings = s.localTimings := ho.2.2.1
    have e4 : ∀ k, (tStartRule P dur file s x).registry k =
        s.registry k ++ if k ∈ P.shuffle s.heap.length (x.1.listens file) then [⟨x.1.name, x.2, s.heap.length⟩] else [] := hr
    refine ⟨?_, ?_, ?_, ?_⟩
    · rw [List.foldl_cons, h1, e1, e2]; rfl
    · rw [List.foldl_cons, h2, e2]; simp; omega
    · rw [List.foldl_cons, h3, e3]
    · intro k
      rw [List.foldl_cons, h4, e4]
      simp only [(hs _ _).mem_iff, listening, List.filter_cons]
      by_cases hm : k ∈ x.1.listens file <;> simp [hm]

theorem foldl_tCall (P : Params File Node Range) (dur : Nat → Int) (k : Kind) (n : Node) (l : List TTagged)
    (s : TState File Node Range) :
    let t := l.foldl (tCall P dur k n) s
    t.stats = recAll dur (l.map (·.ruleIdx)) s.clock s.stats ∧ t.clock = s.clock + l.length ∧
      t.localTimings = s.localTimings ∧ t.registry = s.registry := by
  induction l generalizing s with
  | nil => simp [recAll]
  | cons x l ih =>
    have e : (tCall P dur k n s x).stats = modAt x.ruleIdx (fun y => ⟨y.duration + dur s.clock, y.calls + 1⟩) s.stats ∧
        (tCall P dur k n s x).clock = s.clock + 1 ∧ (tCall P dur k n s x).localTimings = s.localTimings ∧
        (tCall P dur k n s x).registry = s.registry := by
      simp only [tCall, record]
      split <;> simp [tSay]
    obtain ⟨e1, e2, e3, e4⟩ := e
    obtain ⟨h1, h2, h3, h4⟩ := ih (tCall P dur k n s x)
    refine ⟨?_, ?_, ?_, ?_⟩
    · rw [List.foldl_cons, h1, e1, e2]; rfl
    · rw [List.foldl_cons, h2, e2]; simp; omega
    · rw [List.foldl_cons, h3, e3]
    · rw [List.foldl_cons, h4, e4]

theorem foldl_tEvents (P : Params File Node Range) (dur : Nat → Int) (evs : List (Kind × Node)) (s : TState File Node Range) :
    let t := evs.foldl (tRunListeners P dur) s
    let tr := evs.flatMap fun e => (s.registry e.1).map (·.ruleIdx)
    t.stats = recAll dur tr s.clock s.stats ∧ t.clock = s.clock + tr.length ∧ t.localTimings = s.localTimings := by
  induction evs generalizing s with
  | nil => simp [recAll]
  | cons e evs ih =>
    obtain ⟨h1, h2, h3, h4⟩ := foldl_tCall P dur e.1 e.2 (s.registry e.1) s
    obtain ⟨g1, g2, g3⟩ := ih (tRunListeners P dur s e)
    have hr : (tRunListeners P dur s e).registry = s.registry := h4
    have hs' : (tRunListeners P dur s e).stats = _ := h1
    have hc' : (tRunListeners P dur s e).clock = _ := h2
    rw [hr, hs', hc'] at g1
    rw [hr, hc'] at g2
    refine ⟨?_, ?_, ?_⟩
    · rw [List.foldl_cons, g1, List.flatMap_cons, recAll_append]; simp
    · rw [List.foldl_cons, g2]; simp; omega
    · rw [List.foldl_cons, g3]; exact h3

/-- sum of the stats of rules called `k` -/
def total (k : String) : List (String × Stat) → Stat
  | [] => ⟨0, 0⟩
  | (n, st) :: l => (if n = k then st else ⟨0, 0⟩).add (total k l)

/-- tally of a trace of names -/
def tally (dur : Nat → Int) (k : String) : Nat → List String → Stat
  | _, [] => ⟨0, 0⟩
  | c, n :: ns => (if n = k then ⟨dur c, 1⟩ else ⟨0, 0⟩ : Stat).add (tally dur k (c + 1) ns)

theorem add_assoc (a b c : Stat) : (a.add b).add c = a.add (b.add c) := by
  simp only [Stat.add, Stat.mk.injEq]; constructor <;> omega
theorem add_comm (a b : Stat) : a.add b = b.add a := by
  simp only [Stat.add, Stat.mk.injEq]; constructor <;> omega
@[simp] theorem add_zero (a : Stat) : a.add ⟨0, 0⟩ = a := by cases a; simp [Stat.add]
@[simp] theorem zero_add (a : Stat) : Stat.add ⟨0, 0⟩ a = a := by cases a; simp [Stat.add]

theorem total_modAt (k : String) (names : List String) (st : List Stat) (i : Nat) (n : String) (d : Int)
    (hi : names[i]? = some n) (hl : st.length = names.length) :
    total k (names.zip (modAt i (fun x => ⟨x.duration + d, x.calls + 1⟩) st)) =
      (total k (names.zip st)).add (if n = k then ⟨d, 1⟩ else ⟨0, 0⟩) := by
  induction names generalizing st i with
  | nil => simp at hi
  | cons m names ih =>
    cases st with
    | nil => simp at hl
    | cons x st =>
      cases i with
      | zero =>
        simp at hi; subst hi
        simp only [modAt, List.zip_cons_cons, total]
        split
        · simp only [Stat.add, Stat.mk.injEq]; constructor <;> omega
        · simp
      | succ i =>
        simp only [modAt, List.zip_cons_cons, total]
        rw [ih st i (by simpa using hi) (by simpa using hl), ← add_assoc]

theorem length_modAt {α : Type} (i : Nat) (f : α → α) (l : List α) : (modAt i f l).length = l.length := by
  induction l generalizing i with
  | nil => cases i <;> rfl
  | cons a l ih => cases i <;> simp [modAt, ih]

theorem total_recAll (dur : Nat → Int) (k : String) (names : List String) (tr : List Nat) (ns : List String) (c : Nat)
    (st : List Stat) (htr : tr.map (fun i => names[i]?) = ns.map some) (hl : st.length = names.length) :
    total k (names.zip (recAll dur tr c st)) = (total k (names.zip st)).add (tally dur k c ns) := by
  induction tr generalizing ns c st with
  | nil =>
    cases ns with
    | nil => simp [recAll, tally]
    | cons n ns => simp at htr
  | cons i tr ih =>
    cases ns with
    | nil => simp at htr
    | cons n ns =>
      simp only [List.map_cons, List.cons.injEq] at htr
      rw [recAll, ih ns (c + 1) _ htr.2 (by rw [length_modAt]; exact hl), total_modAt k names st i n _ htr.1 hl, tally, add_assoc]

theorem total_zero (k : String) (names : List String) (n : Nat) : total k (names.zip (List.replicate n ⟨0, 0⟩)) = ⟨0, 0⟩ := by
  induction names generalizing n with
  | nil => rfl
  | cons m names ih =>
    cases n with
    | zero => simp [total]
    | succ n => simp [List.replicate_succ, total, ih]

theorem tally_append (dur : Nat → Int) (k : String) (c : Nat) (a b : List String) :
    tally dur k c (a ++ b) = (tally dur k c a).add (tally dur k (c + a.length) b) := by
  induction a generalizing c with
  | nil => simp [tally]
  | cons n a ih =>
    simp only [List.cons_append, tally, ih, add_assoc, List.length_cons]
    have : c + 1 + a.length = c + (a.length + 1) := by omega
    rw [this]

theorem tally_calls (dur : Nat → Int) (k : String) (c : Nat) (ns : List String) : (tally dur k c ns).calls = ns.count k := by
  induction ns generalizing c with
  | nil => rfl
  | cons n ns ih =>
    simp only [tally, Stat.add, ih, List.count_cons, beq_iff_eq]
    split <;> simp <;> omega

theorem tally_duration (dur : Nat → Int) (k : String) (c : Nat) (ns : List String) :
    (tally dur k c ns).duration = (((ns.zipIdx c).filter fun x => x.1 = k).map fun x => dur x.2).sum := by
  induction ns generalizing c with
  | nil => rfl
  | cons n ns ih =>
    simp only [tally, Stat.add, ih, List.zipIdx_cons, List.filter_cons, decide_eq_true_eq]
    split <;> simp

/-- merging into localTimings; every rule has been called -/
theorem foldl_mergeStat (l : List (Rule File Node Range × Stat)) (m : String → Option Stat)
    (hc : ∀ x ∈ l, x.2.calls ≠ 0) (k : String) :
    (l.foldl mergeStat m k).isSome = ((m k).isSome || l.any (fun x => x.1.name = k)) ∧
    (l.foldl mergeStat m k).getD ⟨0, 0⟩ = ((m k).getD ⟨0, 0⟩).add (total k (l.map fun x => (x.1.name, x.2))) := by
  induction l generalizing m with
  | nil => simp [total]
  | cons x l ih =>
    obtain ⟨h1, h2⟩ := ih (mergeStat m x) (fun y hy => hc y (by simp [hy]))
    have hx := hc x (by simp)
    rw [List.foldl_cons]
    simp only [List.map_cons, total, List.any_cons]
    rw [h1, h2]
    simp only [mergeStat, hx, ↓reduceIte]
    by_cases hk : x.1.name = k
    · subst hk; simp [add_assoc]
    · simp [hk, Ne.symm hk]


theorem modAt_getElem? {α : Type} (i j : Nat) (f : α → α) (l : List α) :
    (modAt i f l)[j]? = if i = j then (l[j]?).map f else l[j]? := by
  induction l generalizing i j with
  | nil => cases i <;> simp [modAt]
  | cons a l ih =>
    cases i with
    | zero => cases j <;> simp [modAt]
    | succ i => cases j <;> simp [modAt, ih]

theorem recAll_calls (dur : Nat → Int) (tr : List Nat) (c : Nat) (st : List Stat) (i : Nat) (y : Stat) (h : st[i]? = some y) :
    ∃ x, (recAll dur tr c st)[i]? = some x ∧ x.calls = y.calls + tr.count i := by
  induction tr generalizing c st y with
  | nil => exact ⟨y, h, by simp⟩
  | cons j tr ih =>
    rw [recAll]
    by_cases hj : j = i
    · subst hj
      obtain ⟨x, h1, h2⟩ := ih (c + 1) (modAt j (fun x => ⟨x.duration + dur c, x.calls + 1⟩) st) ⟨y.duration + dur c, y.calls + 1⟩
        (by rw [modAt_getElem?]; simp [h])
      exact ⟨x, h1, by simp [h2]; omega⟩
    · obtain ⟨x, h1, h2⟩ := ih (c + 1) (modAt j (fun x => ⟨x.duration + dur c, x.calls + 1⟩) st) y
        (by rw [modAt_getElem?]; simp [hj, h])
      exact ⟨x, h1, by simp [h2, List.count_cons, hj]⟩

theorem length_recAll (dur : Nat → Int) (tr : List Nat) (c : Nat) (st : List Stat) : (recAll dur tr c st).length = st.length := by
  induction tr generalizing c st with
  | nil => rfl
  | cons i tr ih => rw [recAll, ih, length_modAt]

theorem exists_zip {α β : Type} (l : List α) (st : List β) (h : st.length = l.length) (r : α) (hr : r ∈ l) :
    ∃ x ∈ l.zip st, x.1 = r := by
  obtain ⟨i, hi, rfl⟩ := List.mem_iff_getElem.1 hr
  refine ⟨(l[i], st[i]), ?_, rfl⟩
  rw [List.mem_iff_getElem?]
  exact ⟨i, by rw [List.getElem?_zip_eq_some]; exact ⟨List.getElem?_eq_getElem hi, List.getElem?_eq_getElem (by omega)⟩⟩

/-- the effect of one file on the timing map -/
theorem tLintFile_timing (P : Params File Node Range) (hs : ShuffleOk P) (hk : KeysOk P) (dur : Nat → Int)
    (s : TState File Node Range) (file : File) (hreg : ∀ k, s.registry k = []) (k : String) :
    (tLintFile P dur s file).clock = s.clock + (fileCalls P file).length ∧
    ((tLintFile P dur s file).localTimings k).isSome = ((s.localTimings k).isSome || (fileCalls P file).contains k) ∧
    ((tLintFile P dur s file).localTimings k).getD ⟨0, 0⟩ =
      ((s.localTimings k).getD ⟨0, 0⟩).add (tally dur k s.clock (fileCalls P file)) := by
  have ha := foldl_tStart P hs dur file (P.rules file).zipIdx
    (by
      intro x hx
      exact hk file x.1 (List.fst_mem_of_mem_zipIdx hx))
    { s with builder := { s.builder with file := some file }, stats := List.replicate (P.rules file).length ⟨0, 0⟩ }
  obtain ⟨a1, a2, a3, a4⟩ := ha
  have hb := foldl_tEvents P dur (P.events file)
    ((P.rules file).zipIdx.foldl (tStartRule P dur file)
      { s with builder := { s.builder with file := some file }, stats := List.replicate (P.rules file).length ⟨0, 0⟩ })
  obtain ⟨b1, b2, b3⟩ := hb
  simp only [hreg, List.map_nil, List.nil_append] at a4
  -- the trace of rule indices
  have htr : ∀ e : Kind × Node, ((((P.rules file).zipIdx.foldl (tStartRule P dur file)
      { s with builder := { s.builder with file := some file }, stats := List.replicate (P.rules file).length ⟨0, 0⟩ }).registry
      e.1).map (·.ruleIdx)) = ((P.rules file).zipIdx.filter fun x => e.1 ∈ x.1.listens file).map (·.2) := by
    intro e
    have := congrArg (List.map Prod.snd) (a4 e.1)
    simpa [listening, Function.comp_def] using this
  have htr' : ((P.events file).flatMap fun e => (((P.rules file).zipIdx.foldl (tStartRule P dur file)
      { s with builder := { s.builder with file := some file }, stats := List.replicate (P.rules file).length ⟨0, 0⟩ }).registry
      e.1).map (·.ruleIdx)) =
      (P.events file).flatMap fun e => ((P.rules file).zipIdx.filter fun x => e.1 ∈ x.1.listens file).map (·.2) := by
    congr 1; funext e; exact htr e
  rw [htr', a1, a2] at b1
  rw [htr', a2] at b2
  simp only at b1 b2
  rw [← List.length_map (f := fun x : Rule File Node Range × Nat => x.2)] at b1
  rw [← recAll_append] at b1
  -- names of the trace
  have hnames : ((P.rules file).zipIdx.map (·.2) ++
      (P.events file).flatMap fun e => ((P.rules file).zipIdx.filter fun x => e.1 ∈ x.1.listens file).map (·.2)).map
        (fun i => ((P.rules file).map (·.name))[i]?) = (fileCalls P file).map some := by
    have hget : ∀ x ∈ (P.rules file).zipIdx, ((P.rules file).map (·.name))[x.2]? = some x.1.name := by
      intro x hx
      have := List.mem_zipIdx_iff_getElem?.1 hx
      simp [this]
    have hm : ∀ l : List (Rule File Node Range × Nat), (∀ x ∈ l, x ∈ (P.rules file).zipIdx) →
        (l.map (·.2)).map (fun i => ((P.rules file).map (·.name))[i]?) = (l.map (fun x => x.1.name)).map some := by
      intro l hl
      simp only [List.map_map]
      apply List.map_congr_left
      intro x hx
      exact hget x (hl x hx)
    have hz1 : (P.rules file).zipIdx.map (fun x => x.1.name) = (P.rules file).map (·.name) := by
      have : (P.rules file).zipIdx.map (fun x => x.1.name) = ((P.rules file).zipIdx.map Prod.fst).map (·.name) := by
        rw [List.map_map]; rfl
      rw [this, List.zipIdx_map_fst]
    have hz2 : ∀ e : Kind × Node, ((P.rules file).zipIdx.filter fun x => e.1 ∈ x.1.listens file).map (fun x => x.1.name) =
        ((P.rules file).filter fun r => e.1 ∈ r.listens file).map (·.name) := by
      intro e
      conv => rhs; rw [← List.zipIdx_map_fst 0 (P.rules file), List.filter_map, List.map_map]
      rfl
    simp only [List.map_append, fileCalls, List.map_flatMap]
    congr 1
    · rw [hm _ (fun x hx => hx), hz1]
    · congr 1; funext e
      rw [hm _ (fun x hx => (List.mem_filter.1 hx).1), hz2]
  -- every rule was called
  have hcalled : ∀ x ∈ (P.rules file).zip ((P.events file).foldl (tRunListeners P dur)
      ((P.rules file).zipIdx.foldl (tStartRule P dur file)
        { s with builder := { s.builder with file := some file }, stats := List.replicate (P.rules file).length ⟨0, 0⟩ })).stats,
      x.2.calls ≠ 0 := by
    intro x hx
    obtain ⟨i, hi⟩ := List.mem_iff_getElem?.1 hx
    rw [b1] at hi
    rw [List.getElem?_zip_eq_some] at hi
    obtain ⟨hi1, hi2⟩ := hi
    have hlt : i < (P.rules file).length := by
      have := List.getElem?_eq_some_iff.1 hi1; exact this.1
    obtain ⟨y, hy1, hy2⟩ := recAll_calls dur _ s.clock (List.replicate (P.rules file).length ⟨0, 0⟩) i ⟨0, 0⟩
      (by simp [hlt])
    rw [hy1] at hi2
    injection hi2 with hi2
    rw [← hi2, hy2]
    have : 0 < List.count i ((P.rules file).zipIdx.map (·.2) ++
      (P.events file).flatMap fun e => ((P.rules file).zipIdx.filter fun x => e.1 ∈ x.1.listens file).map (·.2)) := by
      apply List.count_pos_iff.2
      apply List.mem_append_left
      rw [List.mem_map]
      exact ⟨(_, i), List.mem_zipIdx_iff_getElem?.2 hi1, rfl⟩
    omega
  have hfin := foldl_mergeStat _ s.localTimings hcalled k
  have hlt : (tLintFile P dur s file).localTimings =
      ((P.rules file).zip ((P.events file).foldl (tRunListeners P dur)
      ((P.rules file).zipIdx.foldl (tStartRule P dur file)
        { s with builder := { s.builder with file := some file }, stats := List.replicate (P.rules file).length ⟨0, 0⟩ })).stats).foldl
        mergeStat s.localTimings := by
    simp only [tLintFile]
    rw [b3, a3]
  refine ⟨?_, ?_, ?_⟩
  · have : (tLintFile P dur s file).clock = _ := b2
    rw [this]
    have hlen := congrArg List.length hnames
    simp only [List.length_map, List.length_append] at hlen ⊢
    omega
  · rw [hlt, hfin.1]
    congr 1
    rw [b1, Bool.eq_iff_iff]
    simp only [List.any_eq_true, decide_eq_true_eq, List.contains_iff_mem]
    constructor
    · rintro ⟨x, hx, rfl⟩
      have := (List.of_mem_zip hx).1
      simp only [fileCalls, List.mem_append, List.mem_map]
      exact Or.inl ⟨x.1, this, rfl⟩
    · intro hm
      have : ∃ r ∈ P.rules file, r.name = k := by
        simp only [fileCalls, List.mem_append, List.mem_map, List.mem_flatMap, List.mem_filter] at hm
        rcases hm with ⟨r, hr, hn⟩ | ⟨e, _, r, ⟨hr, _⟩, hn⟩ <;> exact ⟨r, hr, hn⟩
      obtain ⟨r, hr, hn⟩ := this
      obtain ⟨x, hx, rfl⟩ := exists_zip (P.rules file) (recAll dur ((P.rules file).zipIdx.map (·.2) ++
        (P.events file).flatMap fun e => ((P.rules file).zipIdx.filter fun x => e.1 ∈ x.1.listens file).map (·.2)) s.clock
        (List.replicate (P.rules file).length ⟨0, 0⟩)) (by rw [length_recAll]; simp) r hr
      exact ⟨x, hx, hn⟩
  · rw [hlt, hfin.2]
    congr 1
    rw [b1]
    have hz : ((P.rules file).zip (recAll dur ((P.rules file).zipIdx.map (·.2) ++
      (P.events file).flatMap fun e => ((P.rules file).zipIdx.filter fun x => e.1 ∈ x.1.listens file).map (·.2)) s.clock
        (List.replicate (P.rules file).length ⟨0, 0⟩))).map (fun x => (x.1.name, x.2)) =
        ((P.rules file).map (·.name)).zip (recAll dur ((P.rules file).zipIdx.map (·.2) ++
      (P.events file).flatMap fun e => ((P.rules file).zipIdx.filter fun x => e.1 ∈ x.1.listens file).map (·.2)) s.clock
        (List.replicate (P.rules file).length ⟨0, 0⟩)) := by
      rw [List.zip_map_left]; rfl
    rw [hz, total_recAll dur k _ _ _ _ _ hnames (by simp), total_zero]
    simp

theorem tWork_timing (P : Params File Node Range) (hs : ShuffleOk P) (hk : KeysOk P) (dur : Nat → Int) (files : List File)
    (s : TState File Node Range) (hreg : ∀ k, s.registry k = []) (k : String) :
    ((files.foldl (tLintFile P dur) s).localTimings k).isSome =
      ((s.localTimings k).isSome || (files.flatMap (fileCalls P)).contains k) ∧
    ((files.foldl (tLintFile P dur) s).localTimings k).getD ⟨0, 0⟩ =
      ((s.localTimings k).getD ⟨0, 0⟩).add (tally dur k s.clock (files.flatMap (fileCalls P))) := by
  induction files generalizing s with
  | nil => simp [tally]
  | cons f fs ih =>
    obtain ⟨h1, h2, h3⟩ := tLintFile_timing P hs hk dur s f hreg k
    obtain ⟨g1, g2⟩ := ih (tLintFile P dur s f) (fun _ => rfl)
    rw [List.foldl_cons]
    refine ⟨?_, ?_⟩
    · rw [g1, h2, Bool.eq_iff_iff]; simp [or_assoc]
    · rw [g2, h3, h1, List.flatMap_cons, tally_append, add_assoc]

end Tsgolint.Worker
