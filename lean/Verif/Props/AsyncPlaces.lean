import Verif.Model.AsyncPlaces
import Verif.Props.FunctionKinds
/-! # C72: which functions promise-function-async checks -/
namespace Tsgolint.AsyncPlaces
open Tsgolint.Visit (Node Kinds Ev visitFile Reach idss)

/-- Different kinds, and kinds of nodes. -/
structure Codes.Ok (C : Codes) : Prop where
  differ : C.arrowFunction ≠ C.functionDeclaration ∧ C.arrowFunction ≠ C.functionExpression ∧ C.arrowFunction ≠ C.method ∧
    C.functionDeclaration ≠ C.functionExpression ∧ C.functionDeclaration ≠ C.method ∧ C.functionExpression ≠ C.method
  syn : C.arrowFunction < 1000 ∧ C.functionDeclaration < 1000 ∧ C.functionExpression < 1000 ∧ C.method < 1000

/-- A function of a kind that the options ask for, and no abstract method. -/
inductive Asked (o : Options) (C : Codes) (abstract : Bool) (kind : Nat) : Prop
  | arrow : kind = C.arrowFunction → o.arrowFunctions = true → Asked o C abstract kind
  | declaration : kind = C.functionDeclaration → o.functionDeclarations = true → Asked o C abstract kind
  | expression : kind = C.functionExpression → o.functionExpressions = true → Asked o C abstract kind
  | method : kind = C.method → o.methodDeclarations = true → abstract = false → Asked o C abstract kind

theorem listener_eq (o : Options) {C : Codes} (hC : C.Ok) (abstract : Nat → Bool) (kind i : Nat) :
    (Asked o C (abstract i) kind → listener o C abstract (kind, i) = [i]) ∧ (¬ Asked o C (abstract i) kind → listener o C abstract (kind, i) = []) := by
  obtain ⟨⟨d1, d2, d3, d4, d5, d6⟩, _⟩ := hC
  obtain ⟨a, b, c, d⟩ := o
  constructor
  · rintro (⟨rfl, h⟩ | ⟨rfl, h⟩ | ⟨rfl, h⟩ | ⟨rfl, h, h'⟩) <;> simp only at h <;> subst h
    · cases b <;> cases c <;> cases d <;> simp [listener, listeners, d1, d2, d3, Ne.symm d1, Ne.symm d2, Ne.symm d3]
    · cases a <;> cases c <;> cases d <;> simp [listener, listeners, d1, d4, d5, Ne.symm d1, Ne.symm d4, Ne.symm d5]
    · cases a <;> cases b <;> cases d <;> simp [listener, listeners, d2, d4, d6, Ne.symm d2, Ne.symm d4, Ne.symm d6]
    · cases a <;> cases b <;> cases c <;> simp [listener, listeners, h']
  · intro h
    unfold listener
    split
    · rfl
    · rename_i k hf
      have hm := List.mem_reverse.1 (List.mem_of_find?_eq_some hf)
      have hk := List.find?_some hf
      simp only [beq_iff_eq] at hk
      subst hk
      exfalso
      refine h ?_
      simp only [listeners, List.mem_append] at hm
      rcases hm with ((hm | hm) | hm) | hm <;> split at hm <;> rename_i ho <;> simp at hm
      · exact .arrow hm ho
      · exact .declaration hm ho
      · exact .expression hm ho
    · rename_i k hf
      have hm := List.mem_reverse.1 (List.mem_of_find?_eq_some hf)
      have hk := List.find?_some hf
      simp only [beq_iff_eq] at hk
      subst hk
      split
      · rfl
      · rename_i ha
        exfalso
        refine h ?_
        have ha' : abstract i = false := by simpa using ha
        simp only [listeners, List.mem_append] at hm
        rcases hm with ((hm | hm) | hm) | hm <;> split at hm <;> rename_i ho <;> simp at hm
        exact .method hm ho ha'

/-- C72 (kinds).  In every file the functions checked are just those of the kinds the options ask for, but no abstract methods; each is checked once. -/
theorem C72_kinds (o : Options) {C : Codes} (hC : C.Ok) (abstract : Nat → Bool) (K : Kinds) (topLevel : List Node) (hd : (idss topLevel).Nodup)
    (t) (ht : t ∈ topLevel) (q m) (hr : Reach false t q m) :
    (Asked o C (abstract m.id) (m.kind K) → (checks o C abstract K topLevel).count m.id = 1) ∧
    (¬ Asked o C (abstract m.id) (m.kind K) → (checks o C abstract K topLevel).count m.id = 0) := by
  have hid : ∀ e : Ev, ∀ c ∈ listener o C abstract e, c = e.2 := by
    intro e c hc
    by_cases h : Asked o C (abstract e.2) e.1
    · have := (listener_eq o hC abstract e.1 e.2).1 h
      rw [this] at hc; simpa using hc
    · have := (listener_eq o hC abstract e.1 e.2).2 h
      rw [this] at hc; cases hc
  have hlow : ∀ k i, 1000 ≤ k → listener o C abstract (k, i) = [] := by
    intro k i hk
    refine (listener_eq o hC abstract k i).2 ?_
    have := hC.syn
    rintro (⟨rfl, _⟩ | ⟨rfl, _⟩ | ⟨rfl, _⟩ | ⟨rfl, _, _⟩) <;> omega
  have key := FunctionKinds.of_node K (listener o C abstract) (fun c => c) hid hlow topLevel hd t ht q m hr
  have hcount : (checks o C abstract K topLevel).count m.id = (listener o C abstract (m.kind K, m.id)).length := by
    rw [← key, List.count_eq_length_filter]
    rfl
  constructor
  · intro h; rw [hcount, (listener_eq o hC abstract _ _).1 h]; rfl
  · intro h; rw [hcount, (listener_eq o hC abstract _ _).2 h]; rfl

/-! ## Cases -/

example : Codes.Ok ⟨1, 2, 3, 4⟩ := ⟨by decide, by decide⟩
/-- two methods, the second abstract, and an arrow function -/
example : checks ⟨false, true, true, true⟩ ⟨1, 2, 3, 4⟩ (· = 2) ⟨50, 51, 52, 53⟩ [.other 10 0 [.other 4 1 [.other 1 3 []], .other 4 2 []]] = [1] := by decide
example : Asked ⟨false, true, true, true⟩ ⟨1, 2, 3, 4⟩ false 4 := .method rfl rfl rfl

end Tsgolint.AsyncPlaces
