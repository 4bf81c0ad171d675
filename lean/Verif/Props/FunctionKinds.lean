import Verif.Spec.FunctionKinds
import Verif.Props.Visit
/-! # C143: which functions and parameters the rules about them check -/
namespace Tsgolint.FunctionKinds
open Tsgolint.Visit (Node Kinds Ev visitFile Reach expected idss C22_events_of_node onExit onAllowPattern onNotAllowPattern)

theorem filter_flatMap {α : Type} (g : Ev → List α) (id : α → Nat) (h : ∀ e, ∀ c ∈ g e, id c = e.2) (i : Nat) : ∀ evs : List Ev,
    (evs.flatMap g).filter (fun c => id c == i) = (evs.filter (fun e => e.2 == i)).flatMap g
  | [] => rfl
  | e :: evs => by
    rw [List.flatMap_cons, List.filter_append, filter_flatMap g id h i evs]
    by_cases he : e.2 = i
    · rw [List.filter_cons_of_pos (by simpa using he), List.flatMap_cons, List.filter_eq_self.2 (fun c hc => by simp [h e c hc, he])]
    · rw [List.filter_cons_of_neg (by simpa using he), List.filter_eq_nil_iff.2 (fun c hc => by simp [h e c hc, he]), List.nil_append]

/-- A listener of syntax kinds is called for a node once, with its kind. -/
theorem of_node {α : Type} (K : Kinds) (g : Ev → List α) (id : α → Nat) (h : ∀ e, ∀ c ∈ g e, id c = e.2) (hlow : ∀ k i, 1000 ≤ k → g (k, i) = [])
    (topLevel : List Node) (hd : (idss topLevel).Nodup) (t) (ht : t ∈ topLevel) (q m) (hr : Reach false t q m) :
    ((visitFile K topLevel).flatMap g).filter (fun c => id c == m.id) = g (m.kind K, m.id) := by
  rw [filter_flatMap g id h, C22_events_of_node K topLevel hd t ht q m hr]
  have h1 : ∀ k i, g (onExit k, i) = [] := fun k i => hlow _ _ (by unfold onExit; omega)
  have h2 : ∀ k i, g (onAllowPattern k, i) = [] := fun k i => hlow _ _ (by unfold onAllowPattern; omega)
  have h3 : ∀ k i, g (onNotAllowPattern k, i) = [] := fun k i => hlow _ _ (by unfold onNotAllowPattern; omega)
  simp only [expected]
  split
  · simp [h1, h2]
  · split <;> simp [h1, h3]

/-! ## Type parameters -/

theorem typeParameter_id (code : Kind → Nat) (n : Nat → Nat) (e : Ev) : ∀ c ∈ typeParameterListener code n e, c.1 = e.2 := by
  intro c hc
  unfold typeParameterListener at hc
  split at hc
  · split at hc
    · simp only [List.mem_singleton] at hc; rw [hc]
    · cases hc
  · cases hc

theorem typeParameter_none {code : Kind → Nat} {n : Nat → Nat} {e : Ev} (h : ∀ f, code f ≠ e.1) : typeParameterListener code n e = [] := by
  unfold typeParameterListener
  rw [List.find?_eq_none.2 (fun entry _ => by simpa using h entry.1)]

theorem typeParameter_find {code : Kind → Nat} (hc : CodeOk code) (f : Kind) :
    (typeParameterTable.find? fun entry => code entry.1 == code f) = typeParameterTable.find? fun entry => entry.1 == f := by
  congr 1
  funext entry
  by_cases h : entry.1 = f
  · simp [h]
  · have : code entry.1 ≠ code f := fun h' => h (hc.differ _ _ h')
    exact (beq_eq_false_iff_ne.2 this).trans (beq_eq_false_iff_ne.2 h).symm

/-- C143 (type parameters).  In every file each function, method, signature, function type and class with type parameters is checked exactly once, and described as
what it is; nothing else is checked. -/
theorem C143_typeParameters (K : Kinds) (code : Kind → Nat) (hc : CodeOk code) (n : Nat → Nat) (topLevel : List Node) (hd : (idss topLevel).Nodup)
    (t) (ht : t ∈ topLevel) (q m) (hr : Reach false t q m) (f : Kind) (hf : m.kind K = code f) :
    ((Callable f ∧ 0 < n m.id) → (typeParameterChecks K code n topLevel).filter (fun c => c.1 == m.id) = [(m.id, .function)]) ∧
    ((Class f ∧ 0 < n m.id) → (typeParameterChecks K code n topLevel).filter (fun c => c.1 == m.id) = [(m.id, .class')]) ∧
    (¬ ((Callable f ∨ Class f) ∧ 0 < n m.id) → (typeParameterChecks K code n topLevel).filter (fun c => c.1 == m.id) = []) := by
  have key := of_node K (typeParameterListener code n) (·.1) (typeParameter_id code n)
    (fun k i hk => typeParameter_none fun f h => by have := hc.syn f; simp only at h; omega) topLevel hd t ht q m hr
  unfold typeParameterChecks
  rw [key, hf]
  unfold typeParameterListener
  simp only [typeParameter_find hc]
  cases f <;> simp [typeParameterTable, Callable, Class] <;> intros <;> omega

/-- C143 (type parameters, other nodes).  Nodes of other kinds are not checked. -/
theorem C143_typeParameters_other (K : Kinds) (code : Kind → Nat) (hc : CodeOk code) (n : Nat → Nat) (topLevel : List Node) (hd : (idss topLevel).Nodup)
    (t) (ht : t ∈ topLevel) (q m) (hr : Reach false t q m) (hf : ∀ f, m.kind K ≠ code f) :
    (typeParameterChecks K code n topLevel).filter (fun c => c.1 == m.id) = [] := by
  have key := of_node K (typeParameterListener code n) (·.1) (typeParameter_id code n)
    (fun k i hk => typeParameter_none fun f h => by have := hc.syn f; simp only at h; omega) topLevel hd t ht q m hr
  unfold typeParameterChecks
  rw [key]
  exact typeParameter_none fun f h => hf f h.symm

/-! ## Parameters -/

variable {P T : Type}

theorem property_iff (E : Env P T) (f : Kind) (p : P) : isParameterProperty E (f == .constructor) p = true ↔ Property E f p := by
  simp [isParameterProperty, Property]

theorem type_iff (E : Env P T) (p : P) (t : T) : getParameterType E p = some t ↔ HasType E p t := by
  unfold getParameterType HasType
  cases E.annotation p <;> simp

theorem type_none (E : Env P T) (p : P) (h : getParameterType E p = none) (t : T) : ¬ HasType E p t := by
  rw [← type_iff, h]; simp

/-- C143 (parameters).  Of a function just the parameters that are wrong are reported, in their order, each as often as it is in the list; and a parameter property
is highlighted from its name on, others as a whole. -/
theorem C143_parameters (o : Options) (E : Env P T) (f : Kind) (ps : List P) :
    ((parameters o E (f == .constructor) ps).map (·.1)).Sublist ps ∧
    (∀ p, p ∈ (parameters o E (f == .constructor) ps).map (·.1) ↔ p ∈ ps ∧ Wrong o E f p) ∧
    (ps.Nodup → ((parameters o E (f == .constructor) ps).map (·.1)).Nodup) ∧
    (∀ p x, (p, x) ∈ parameters o E (f == .constructor) ps → (x = .fromName ↔ Property E f p ∧ E.named p = true)) := by
  have main : ((parameters o E (f == .constructor) ps).map (·.1)).Sublist ps ∧
      (∀ p, p ∈ (parameters o E (f == .constructor) ps).map (·.1) ↔ p ∈ ps ∧ Wrong o E f p) ∧
      (∀ p x, (p, x) ∈ parameters o E (f == .constructor) ps → (x = .fromName ↔ Property E f p ∧ E.named p = true)) := by
    induction ps with
    | nil => simp [parameters]
    | cons p ps ih =>
      obtain ⟨h1, h2, h3⟩ := ih
      have skip : ¬ Wrong o E f p → ((parameters o E (f == .constructor) ps).map (·.1)).Sublist (p :: ps) ∧
          (∀ p', p' ∈ (parameters o E (f == .constructor) ps).map (·.1) ↔ p' ∈ p :: ps ∧ Wrong o E f p') ∧
          (∀ p x, (p, x) ∈ parameters o E (f == .constructor) ps → (x = .fromName ↔ Property E f p ∧ E.named p = true)) := by
        intro hw
        refine ⟨h1.cons _, fun p' => ?_, h3⟩
        rw [h2 p', List.mem_cons]
        constructor
        · rintro ⟨a, b⟩; exact ⟨.inr a, b⟩
        · rintro ⟨rfl | a, b⟩
          · exact absurd b hw
          · exact ⟨a, b⟩
      have take : ∀ x, Wrong o E f p → (x = Extent.fromName ↔ Property E f p ∧ E.named p = true) →
          (((p, x) :: parameters o E (f == .constructor) ps).map (·.1)).Sublist (p :: ps) ∧
          (∀ p', p' ∈ ((p, x) :: parameters o E (f == .constructor) ps).map (·.1) ↔ p' ∈ p :: ps ∧ Wrong o E f p') ∧
          (∀ p' x', (p', x') ∈ (p, x) :: parameters o E (f == .constructor) ps → (x' = .fromName ↔ Property E f p' ∧ E.named p' = true)) := by
        intro x hw hx
        refine ⟨?_, fun p' => ?_, fun p' x' hm => ?_⟩
        · rw [List.map_cons]; exact h1.cons_cons _
        · rw [List.map_cons, List.mem_cons, List.mem_cons, h2 p']
          constructor
          · rintro (rfl | ⟨a, b⟩)
            · exact ⟨.inl rfl, hw⟩
            · exact ⟨.inr a, b⟩
          · rintro ⟨rfl | a, b⟩
            · exact .inl rfl
            · exact .inr ⟨a, b⟩
        · rcases List.mem_cons.1 hm with he | hm
          · cases he; exact hx
          · exact h3 p' x' hm
      rw [parameters]
      split
      · rename_i hc
        rw [Bool.and_eq_true, property_iff] at hc
        exact skip fun hw => by have := hw.1 hc.2; simp [this] at hc
      rename_i hc
      have w1 : Property E f p → o.checkParameterProperties = true := by
        intro hp
        have := (property_iff E f p).2 hp
        simpa [this] using hc
      split
      · rename_i hi
        simp only [Bool.and_eq_true, Option.isNone_iff_eq_none] at hi
        exact skip fun hw => hw.2.1 hi.1 hi.2
      rename_i hi
      have w2 : o.ignoreInferredTypes = true → E.annotation p ≠ none := by
        intro h h'
        simp [h, h'] at hi
      split
      · rename_i hn
        exact skip fun hw => by obtain ⟨t, a, _⟩ := hw.2.2; exact type_none E p hn t a
      rename_i t ht
      split
      · rename_i hb
        simp only [Bool.and_eq_true, Bool.not_eq_true'] at hb
        have hw : Wrong o E f p := ⟨w1, w2, t, (type_iff E p t).1 ht, hb.1, hb.2⟩
        split
        · rename_i hp
          rw [Bool.and_eq_true, property_iff] at hp
          exact take _ hw ⟨fun _ => hp, fun _ => rfl⟩
        · rename_i hp
          rw [Bool.and_eq_true, property_iff] at hp
          exact take _ hw ⟨fun h => by simp at h, fun h => absurd h hp⟩
      · rename_i hb
        refine skip fun hw => hb ?_
        obtain ⟨t', a, b, c⟩ := hw.2.2
        rw [← type_iff, ht] at a
        cases a
        simp [b, c]
  exact ⟨main.1, main.2.1, fun hn => List.Nodup.sublist main.1 hn, main.2.2⟩

theorem parameter_id (o : Options) (E : Env P T) (code : Kind → Nat) (ps : Nat → List P) (e : Ev) : ∀ c ∈ parameterListener o E code ps e, c.1 = e.2 := by
  intro c hc
  unfold parameterListener at hc
  split at hc
  · obtain ⟨_, _, rfl⟩ := List.mem_map.1 hc; rfl
  · cases hc

theorem parameter_none {o : Options} {E : Env P T} {code : Kind → Nat} {ps : Nat → List P} {e : Ev} (h : ∀ f ∈ parameterTable, code f ≠ e.1) :
    parameterListener o E code ps e = [] := by
  unfold parameterListener
  rw [if_neg]
  simpa using h

/-- C143 (functions).  In every file each function, method, constructor, signature and function type is checked exactly once, with all its parameters; setters
and constructor types are not. -/
theorem C143_functions (o : Options) (E : Env P T) (K : Kinds) (code : Kind → Nat) (hc : CodeOk code) (ps : Nat → List P) (topLevel : List Node)
    (hd : (idss topLevel).Nodup) (t) (ht : t ∈ topLevel) (q m) (hr : Reach false t q m) (f : Kind) (hf : m.kind K = code f) :
    ((TakesValues f ∧ f ≠ .setAccessor ∧ f ≠ .constructorType) →
      (parameterReports o E K code ps topLevel).filter (fun c => c.1 == m.id) = (parameters o E (f == .constructor) (ps m.id)).map fun r => (m.id, r)) ∧
    (¬ (TakesValues f ∧ f ≠ .setAccessor ∧ f ≠ .constructorType) → (parameterReports o E K code ps topLevel).filter (fun c => c.1 == m.id) = []) := by
  have key := of_node K (parameterListener o E code ps) (·.1) (parameter_id o E code ps)
    (fun k i hk => parameter_none fun f _ h => by have := hc.syn f; simp only at h; omega) topLevel hd t ht q m hr
  unfold parameterReports
  rw [key, hf]
  have hin : f ∈ parameterTable ↔ (TakesValues f ∧ f ≠ .setAccessor ∧ f ≠ .constructorType) := by
    cases f <;> simp [parameterTable, TakesValues, Callable]
  constructor
  · intro h
    unfold parameterListener
    rw [if_pos (by simpa using ⟨f, hin.2 h, rfl⟩)]
    have : (code f == code .constructor) = (f == .constructor) := by
      by_cases e : f = .constructor
      · simp [e]
      · have : code f ≠ code .constructor := fun h' => e (hc.differ _ _ h')
        exact (beq_eq_false_iff_ne.2 this).trans (beq_eq_false_iff_ne.2 e).symm
    rw [this]
  · intro h
    refine parameter_none fun g hg he => h (hin.1 ?_)
    rw [← hc.differ _ _ he]; exact hg

/-- C143 (hazard).  A parameter of a setter is never reported, though the same parameter of a method is. -/
theorem C143_hazard_setter (o : Options) (E : Env P T) (K : Kinds) (code : Kind → Nat) (hc : CodeOk code) (ps : Nat → List P) (topLevel : List Node)
    (hd : (idss topLevel).Nodup) (s m : Node) (ts) (hs : ts ∈ topLevel) (qs) (hrs : Reach false ts qs s) (hsk : s.kind K = code .setAccessor)
    (tm) (hm : tm ∈ topLevel) (qm) (hrm : Reach false tm qm m) (hmk : m.kind K = code .methodDeclaration) (p : P) (hps : p ∈ ps s.id) (hpm : p ∈ ps m.id)
    (hw : Wrong o E .setAccessor p) :
    (∀ x, (s.id, p, x) ∉ parameterReports o E K code ps topLevel) ∧ ∃ x, (m.id, p, x) ∈ parameterReports o E K code ps topLevel := by
  constructor
  · intro x hx
    have h := (C143_functions o E K code hc ps topLevel hd ts hs qs s hrs .setAccessor hsk).2 (by simp)
    have : (s.id, p, x) ∈ (parameterReports o E K code ps topLevel).filter (fun c => c.1 == s.id) := List.mem_filter.2 ⟨hx, by simp⟩
    rw [h] at this; cases this
  · have h := (C143_functions o E K code hc ps topLevel hd tm hm qm m hrm .methodDeclaration hmk).1 (by simp [TakesValues, Callable])
    have hw' : Wrong o E .methodDeclaration p := by
      obtain ⟨_, b, c⟩ := hw
      exact ⟨fun h => absurd h.1 (by simp), b, c⟩
    obtain ⟨⟨p', x⟩, hr, rfl⟩ := List.mem_map.1 (((C143_parameters o E .methodDeclaration (ps m.id)).2.1 p).2 ⟨hpm, hw'⟩)
    have hin : (m.id, p', x) ∈ (parameterReports o E K code ps topLevel).filter (fun c => c.1 == m.id) := by
      rw [h]
      exact List.mem_map.2 ⟨_, hr, rfl⟩
    exact ⟨x, (List.mem_filter.1 hin).1⟩

/-! ## Cases -/

def sampleCode : Kind → Nat
  | .arrowFunction => 1 | .functionDeclaration => 2 | .functionExpression => 3 | .callSignature => 4 | .constructSignature => 5 | .constructorType => 6
  | .functionType => 7 | .methodSignature => 8 | .methodDeclaration => 9 | .classDeclaration => 10 | .classExpression => 11 | .constructor => 12
  | .getAccessor => 13 | .setAccessor => 14 | .indexSignature => 15 | .interfaceDeclaration => 16 | .typeAliasDeclaration => 17

theorem sampleCode_ok : CodeOk sampleCode := ⟨by
  intro f g h; cases f <;> cases g <;> (first | rfl | (cases h)), by intro f; cases f <;> decide⟩

def sampleKinds : Kinds := ⟨50, 51, 52, 53⟩

/-- `class C<T> { m<U>(a) {}  set x(a) {} }` -/
def sampleFile : List Node := [.other 10 0 [.other 9 1 [.other 60 2 []], .other 14 3 [.other 60 4 []]]]

/-- The parameter `a`: a mutable type, not annotated. -/
def sampleEnv : Env Unit Unit := ⟨fun _ => false, fun _ => none, fun _ => some (), fun _ => true, fun _ => false, fun _ => false⟩

example : typeParameterChecks sampleKinds sampleCode (fun i => if i < 2 then 1 else 0) sampleFile = [(0, .class'), (1, .function)] := by decide
example : parameterReports ⟨true, false⟩ sampleEnv sampleKinds sampleCode (fun i => if i = 1 ∨ i = 3 then [()] else []) sampleFile = [(1, (), .parameter)] := by decide
example : (idss sampleFile).Nodup := by decide
example : Wrong ⟨true, false⟩ sampleEnv .setAccessor () := ⟨fun h => absurd h.1 (by simp), fun h => by simp at h, (), .inr ⟨rfl, rfl⟩, rfl, rfl⟩
example : Reach false (sampleFile.head (by simp [sampleFile])) false (.other 14 3 [.other 60 4 []]) := by
  exact .plain (c := .other 14 3 [.other 60 4 []]) (by simp [sampleFile]) (by simp [sampleFile, Visit.Node.children]) (.self _ _)

end Tsgolint.FunctionKinds
