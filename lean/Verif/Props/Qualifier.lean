import Verif.Spec.Qualifier
import Verif.Proof.RuleTree
import Verif.Proof.StableFix
/-! # C73: no-unnecessary-qualifier -/
namespace Tsgolint.Qualifier
open Tsgolint.RuleTree Tsgolint.Fixer

theorem dotted_iff : ∀ e, isEntityName e = true ↔ DottedName e
  | .identifier => by simp [isEntityName, DottedName.name]
  | .propertyAccess e => by
    rw [isEntityName, dotted_iff e]
    exact ⟨.dot, fun h => by cases h; assumption⟩
  | .other => by
    simp only [isEntityName, Bool.false_eq_true, false_iff]
    intro h; cases h

theorem reaches_iff (enc : List Nat) : ∀ l, symbolIsNamespaceInScope enc l = true ↔ Reaches enc l
  | [] => by
    simp only [symbolIsNamespaceInScope, Bool.false_eq_true, false_iff]
    intro h; cases h
  | s :: rest => by
    have ih := reaches_iff enc rest
    unfold symbolIsNamespaceInScope
    split
    · next h =>
      simp only [true_iff]
      obtain ⟨d, h1, h2⟩ := List.any_eq_true.1 h
      exact .here h1 (by simpa using h2)
    · next h =>
      have h' : ∀ d ∈ s.declarations, d ∉ enc := by
        intro d h1 h2
        exact h (List.any_eq_true.2 ⟨d, h1, by simpa using h2⟩)
      split
      · next ha =>
        rw [ih]
        refine ⟨.alias ha, fun h => ?_⟩
        cases h with
        | here h1 h2 => exact absurd h2 (h' _ h1)
        | alias _ h => exact h
      · next ha =>
        simp only [Bool.false_eq_true, false_iff]
        intro h
        cases h with
        | here h1 h2 => exact h' _ h1 h2
        | alias h _ => exact ha h

theorem innermost_iff (scopes : List (List InScope)) (flags : Nat) (name : String) (s : InScope) :
    getSymbolInScope scopes flags name = some s ↔ Innermost scopes flags name s := by
  unfold getSymbolInScope symbolsInScope Innermost
  rw [List.find?_filter, List.find?_eq_some_iff_append]
  simp only [Bool.and_eq_true, bne_iff_ne, beq_iff_eq, Bool.not_eq_true', decide_eq_true_eq, decide_eq_false_iff_not, not_and]
  constructor
  · rintro ⟨⟨h1, h2⟩, as, bs, h3, h4⟩
    refine ⟨as, bs, h3, h2, h1, fun r hr hn => ?_⟩
    have := h4 r hr
    refine Classical.not_not.1 fun h => ?_
    exact this h hn
  · rintro ⟨as, bs, h3, h2, h1, h4⟩
    refine ⟨⟨h1, h2⟩, as, bs, h3, fun r hr hf => ?_⟩
    exact fun hn => hf (h4 r hr hn)

def entity : Option Expr → Bool
  | some e => isEntityName e
  | none => true

/-- The whole test the listeners make. -/
def test (enc : List Nat) (a : Access) : Bool := entity a.expression && qualifierIsUnnecessary enc a

theorem test_iff (enc : List Nat) (a : Access) : test enc a = true ↔ Unneeded enc a := by
  unfold test Unneeded qualifierIsUnnecessary
  have h1 : entity a.expression = true ↔ ∀ e, a.expression = some e → DottedName e := by
    cases a.expression <;> simp [dotted_iff, entity]
  rw [Bool.and_eq_true, h1]
  refine and_congr Iff.rfl ?_
  rw [← reaches_iff]
  cases symbolIsNamespaceInScope enc a.namespaceSymbol with
  | false => simp
  | true =>
    simp only [Bool.not_true, Bool.false_eq_true, if_false, true_and]
    cases ha : a.accessed with
    | none => simp
    | some x =>
      obtain ⟨sym, flags⟩ := x
      simp only [Option.some.injEq, Prod.mk.injEq]
      cases hg : getSymbolInScope a.scopes flags a.name with
      | none =>
        simp only [Bool.false_eq_true, false_iff]
        rintro ⟨_, _, s, ⟨rfl, rfl⟩, hi, -⟩
        rw [← innermost_iff, hg] at hi; cases hi
      | some s =>
        simp only [beq_iff_eq]
        constructor
        · intro h; exact ⟨sym, flags, s, ⟨rfl, rfl⟩, (innermost_iff ..).1 hg, h.symm⟩
        · rintro ⟨_, _, s', ⟨rfl, rfl⟩, hi, h⟩
          rw [← innermost_iff, hg] at hi; cases hi; exact h.symm

theorem test_nil (a : Access) : test [] a = false := by
  cases h : test [] a with
  | false => rfl
  | true =>
    obtain ⟨-, h2, -⟩ := (test_iff ..).1 h
    exfalso
    clear h
    generalize a.namespaceSymbol = l at h2
    induction h2 with
    | here _ h => cases h
    | alias _ _ ih => exact ih

mutual
/-- The reports, top down. -/
def found (enc : List Nat) : Tree Label → List Access
  | .node (.access a) cs => if test enc a then [a] else founds enc cs
  | .node (.declaration d) cs => founds (d :: enc) cs
  | .node .other cs => founds enc cs
def founds (enc : List Nat) : List (Tree Label) → List Access
  | [] => []
  | t :: ts => found enc t ++ founds enc ts
end

theorem step_access_none (enc : List Nat) (a : Access) :
    step ⟨enc, none⟩ (.enter (.access a)) = if test enc a then (⟨enc, some a.id⟩, [a.id]) else (⟨enc, none⟩, []) := by
  have hv : visitNamespaceAccess ⟨enc, none⟩ a = if qualifierIsUnnecessary enc a then (⟨enc, some a.id⟩, [a.id]) else (⟨enc, none⟩, []) := by
    cases enc with
    | nil =>
      have hq : qualifierIsUnnecessary [] a = false := by
        have := test_nil { a with expression := none }
        simpa [test, entity, qualifierIsUnnecessary] using this
      simp [visitNamespaceAccess, hq]
    | cons d enc =>
      simp only [visitNamespaceAccess, Option.isSome_none, Bool.false_eq_true, if_false, List.isEmpty_cons]
      cases qualifierIsUnnecessary (d :: enc) a <;> simp
  have hs : step ⟨enc, none⟩ (.enter (.access a)) = if entity a.expression then visitNamespaceAccess ⟨enc, none⟩ a else (⟨enc, none⟩, []) := by
    simp only [step]
    cases a.expression with
    | none => simp [entity]
    | some e => cases h : isEntityName e <;> simp [entity, h]
  have ht : test enc a = (entity a.expression && qualifierIsUnnecessary enc a) := rfl
  rw [hs, hv]
  cases h1 : entity a.expression <;> cases h2 : qualifierIsUnnecessary enc a <;> simp [ht, h1, h2]

theorem step_access_some (enc : List Nat) (f : Nat) (a : Access) : step ⟨enc, some f⟩ (.enter (.access a)) = (⟨enc, some f⟩, []) := by
  have hv : visitNamespaceAccess ⟨enc, some f⟩ a = (⟨enc, some f⟩, []) := by simp [visitNamespaceAccess]
  simp only [step]
  cases a.expression with
  | none => simp [hv]
  | some e => cases isEntityName e <;> simp [hv]

mutual
theorem quiet (f : Nat) : ∀ (t : Tree Label) (enc : List Nat), f ∉ ids t → run step ⟨enc, some f⟩ (events t) = (⟨enc, some f⟩, [])
  | .node a cs, enc, hf => by
    simp only [ids, List.mem_append, not_or] at hf
    rw [events, run_cons, run_append, run_cons, run_nil]
    cases a with
    | declaration d =>
      simp only [step]
      rw [quiets f cs (d :: enc) hf.2]
      simp
    | access a =>
      rw [step_access_some]
      simp only []
      rw [quiets f cs enc hf.2]
      have : ¬ f = a.id := by simpa using hf.1
      simp [step, this]
    | other =>
      simp only [step]
      rw [quiets f cs enc hf.2]
      simp
theorem quiets (f : Nat) : ∀ (ts : List (Tree Label)) (enc : List Nat), f ∉ idss ts → run step ⟨enc, some f⟩ (eventss ts) = (⟨enc, some f⟩, [])
  | [], enc, _ => rfl
  | t :: ts, enc, hf => by
    simp only [idss, List.mem_append, not_or] at hf
    rw [eventss, run_append, quiet f t enc hf.1]
    simp only []
    rw [quiets f ts enc hf.2]
    rfl
end

mutual
theorem loud : ∀ (t : Tree Label) (enc : List Nat), (ids t).Nodup → run step ⟨enc, none⟩ (events t) = (⟨enc, none⟩, (found enc t).map (·.id))
  | .node a cs, enc, hf => by
    simp only [ids] at hf
    rw [events, run_cons, run_append, run_cons, run_nil]
    cases a with
    | declaration d =>
      simp only [step]
      rw [louds cs (d :: enc) (by simpa [ids] using hf)]
      simp [found]
    | access a =>
      rw [step_access_none]
      simp only [List.nodup_append, List.mem_singleton] at hf
      cases ht : test enc a with
      | true =>
        simp only [if_true]
        rw [quiets a.id cs enc (fun h => hf.2.2 _ rfl _ h rfl)]
        simp [found, ht, step]
      | false =>
        simp only [Bool.false_eq_true, if_false]
        rw [louds cs enc hf.2.1]
        simp [found, ht, step]
    | other =>
      simp only [step]
      rw [louds cs enc (by simpa [ids] using hf)]
      simp [found]
theorem louds : ∀ (ts : List (Tree Label)) (enc : List Nat), (idss ts).Nodup → run step ⟨enc, none⟩ (eventss ts) = (⟨enc, none⟩, (founds enc ts).map (·.id))
  | [], enc, _ => rfl
  | t :: ts, enc, hf => by
    simp only [idss, List.nodup_append] at hf
    rw [eventss, run_append, loud t enc hf.1]
    simp only []
    rw [louds ts enc hf.2.1]
    simp [founds]
end

mutual
theorem mem_found : ∀ (t : Tree Label) (enc : List Nat) (x : Access), x ∈ found enc t ↔ Found enc t x
  | .node (.declaration d) cs, enc, x => by
    rw [found, mem_founds]
    constructor
    · rintro ⟨c, h1, h2⟩; exact .declaration h1 h2
    · intro h; cases h; exact ⟨_, by assumption, by assumption⟩
  | .node .other cs, enc, x => by
    rw [found, mem_founds]
    constructor
    · rintro ⟨c, h1, h2⟩; exact .other h1 h2
    · intro h; cases h; exact ⟨_, by assumption, by assumption⟩
  | .node (.access a) cs, enc, x => by
    rw [found]
    have ht := test_iff enc a
    cases hb : test enc a with
    | true =>
      have hu := ht.1 hb
      simp only [if_true, List.mem_singleton]
      constructor
      · rintro rfl; exact .here hu
      · intro h
        cases h with
        | here => rfl
        | access h => exact absurd hu h
    | false =>
      have hu : ¬ Unneeded enc a := by rw [← ht, hb]; simp
      simp only [Bool.false_eq_true, if_false]
      rw [mem_founds]
      constructor
      · rintro ⟨c, h1, h2⟩; exact .access hu h1 h2
      · intro h
        cases h with
        | here h => exact absurd h hu
        | access _ h1 h2 => exact ⟨_, h1, h2⟩
theorem mem_founds : ∀ (ts : List (Tree Label)) (enc : List Nat) (x : Access), x ∈ founds enc ts ↔ ∃ t ∈ ts, Found enc t x
  | [], enc, x => by simp [founds]
  | t :: ts, enc, x => by simp [founds, mem_found t enc x, mem_founds ts enc x]
end

mutual
theorem found_ids : ∀ (t : Tree Label) (enc : List Nat), ((found enc t).map (·.id)).Sublist (ids t)
  | .node (.declaration d) cs, enc => by simpa [found, ids] using founds_ids cs (d :: enc)
  | .node .other cs, enc => by simpa [found, ids] using founds_ids cs enc
  | .node (.access a) cs, enc => by
    rw [found, ids]
    split
    · simp
    · exact (founds_ids cs enc).cons _
theorem founds_ids : ∀ (ts : List (Tree Label)) (enc : List Nat), ((founds enc ts).map (·.id)).Sublist (idss ts)
  | [], enc => by simp [founds, idss]
  | t :: ts, enc => by
    rw [founds, idss, List.map_append]
    exact (found_ids t enc).append (founds_ids ts enc)
end

/-- C73 (reports).  In a file (whose nodes are distinct) exactly those accesses are reported whose qualifier is not needed inside the namespaces
and enums around them and that do not lie in another such access; each once, in document order; and whatever was visited before, the rule ends a file in
the state it began with. -/
theorem C73_reports (file : List (Tree Label)) (h : (idss file).Nodup) :
    (∀ i, i ∈ reports file ↔ ∃ t ∈ file, ∃ a, Found [] t a ∧ a.id = i) ∧ (reports file).Sublist (idss file) ∧
    (run step init (eventss file)).1 = init := by
  have := louds file [] h
  simp only [reports, init, this]
  refine ⟨fun i => ?_, founds_ids file [], trivial⟩
  simp only [List.mem_map, mem_founds]
  constructor
  · rintro ⟨a, ⟨t, h1, h2⟩, rfl⟩; exact ⟨t, h1, a, h2, rfl⟩
  · rintro ⟨t, h1, a, h2, rfl⟩; exact ⟨a, ⟨t, h1, h2⟩, rfl⟩

/-- The symbol a name refers to, when the name stands for something with a flag of `meaning` (the rule of the language: the innermost). -/
def RefersTo (scopes : List (List InScope)) (meaning : Nat) (name : String) (sym : Nat) : Prop :=
  ∃ s, Innermost scopes meaning name s ∧ s.exported = sym

/-- C73 (the fix keeps the reference).  If the name is used with a meaning that includes all the flags of the accessed symbol, and each symbol of that
name and meaning in scope shares a flag with the accessed symbol, then the name alone refers to the accessed symbol. -/
theorem C73_same_symbol (enc : List Nat) (a : Access) (sym flags meaning : Nat) (hu : Unneeded enc a) (ha : a.accessed = some (sym, flags))
    (hm : ∀ s ∈ a.scopes.flatten, s.name = a.name → (s.flags &&& meaning ≠ 0 ↔ s.flags &&& flags ≠ 0)) : RefersTo a.scopes meaning a.name sym := by
  obtain ⟨-, -, sym', flags', s, h1, ⟨before, after, h2, h3, h4, h5⟩, h6⟩ := hu
  rw [ha] at h1
  cases h1
  refine ⟨s, ⟨before, after, h2, h3, (hm s (by simp [h2]) h3).2 h4, fun r hr hn => ?_⟩, h6⟩
  refine Classical.not_not.1 fun h => ?_
  exact (hm r (by simp [h2, hr]) hn).1 h (h5 r hr hn)

/-- C73 (finding).  A parameter (flag 1) that hides an exported constant (flag 2) is overlooked: in
`namespace A { export const x = 1; function f(x: number) { return A.x } }` the qualifier is reported, and without it the name means the parameter.
Here 3 stands for the meaning "variable", 10 for the namespace, 20 for the constant and 30 for the parameter. -/
theorem C73_hazard_shadow : ∃ a : Access, Unneeded [10] a ∧ a.accessed = some (20, 2) ∧ RefersTo a.scopes 3 a.name 30 ∧ ¬ RefersTo a.scopes 3 a.name 20 := by
  let a : Access := ⟨1, some .identifier, "x", [⟨[10], false⟩], some (20, 2), [[⟨"x", 1, 30⟩], [⟨"x", 2, 20⟩]]⟩
  refine ⟨a, (test_iff _ _).1 (by decide), rfl, ⟨⟨"x", 1, 30⟩, (innermost_iff ..).1 (by decide), rfl⟩, ?_⟩
  rintro ⟨s, h1, h2⟩
  rw [← innermost_iff] at h1
  have : getSymbolInScope a.scopes 3 a.name = some ⟨"x", 1, 30⟩ := by decide
  rw [this] at h1
  cases h1
  simp at h2

/-- C73 (fix).  The text from the qualifier to the name — the qualifier, the dot, and anything in between — is removed. -/
theorem C73_fix (pre qualifier name post : Bytes) :
    AppliesTo (pre ++ qualifier ++ name ++ post) [fix pre.length (pre ++ qualifier).length] (pre ++ name ++ post) := by
  have := Seg.applies_sorted [.keep pre, .sub qualifier [], .keep name, .keep post]
  simpa [Seg.old, Seg.new, Seg.edits, fix, List.append_assoc] using this

/-! ## Cases: `namespace A (10) { A.B.x (1, its qualifier A.B is 2) }  A.y (3)` -/

def accessB : Access := ⟨2, some .identifier, "B", [⟨[10], false⟩], some (40, 512), [[⟨"B", 512, 40⟩]]⟩
def accessX : Access := ⟨1, some (.propertyAccess .identifier), "x", [⟨[11], false⟩], some (20, 2), [[⟨"B", 512, 40⟩]]⟩
def accessY : Access := ⟨3, some .identifier, "B", [⟨[], true⟩, ⟨[10], false⟩], some (40, 512), [[⟨"B", 512, 40⟩]]⟩

def sample : List (Tree Label) :=
  [.node (.declaration 10) [.node (.access accessX) [.node (.access accessB) []]], .node (.access accessY) []]

example : reports sample = [2] := by decide
example : (idss sample).Nodup := by decide
example : Found [10] (.node (.access accessX) [.node (.access accessB) []]) accessB :=
  .access (by rw [← test_iff]; decide) (List.mem_singleton.2 rfl) (.here ((test_iff ..).1 (by decide)))
example : reports [.node (.declaration 10) [.node (.access accessY) []]] = [3] := by decide
example : RefersTo accessB.scopes 512 "B" 40 := C73_same_symbol [10] accessB 40 512 512 ((test_iff ..).1 (by decide)) rfl (fun _ _ _ => Iff.rfl)

end Tsgolint.Qualifier
