import Verif.Spec.VoidContext
import Verif.Props.VoidReturn
/-! # C128 -/
namespace Tsgolint.VoidReturn
variable {T N : Type}

theorem getMemberName_iff (n : MemberName) (hc : ∀ x, n.written ≠ .computed x) (s : String) (hs : s ≠ "") :
    getMemberName (some n) = s ↔ Called n s := by
  obtain ⟨sym, w⟩ := n
  have hw : ∀ x, Written.text w = x → x ≠ "" → w = .plain x := by
    intro x h hx
    cases w with
    | plain t => rw [show t = x from h]
    | computed o => exact absurd rfl (hc o)
    | other => exact absurd h.symm hx
  constructor
  · intro h
    cases sym with
    | none => exact .written (.inl rfl) (hw s h hs) hs
    | some y =>
      by_cases hy : y = ""
      · subst hy; exact .written (.inr rfl) (hw s h hs) hs
      · have h' : (if y = "" then w.text else y) = s := h
        rw [if_neg hy] at h'
        subst h'
        exact .symbol rfl hs
  · intro h
    cases h with
    | symbol h1 h2 =>
      cases h1
      show (if s = "" then w.text else s) = s
      rw [if_neg h2]
    | written h1 h2 h3 =>
      cases (show w = .plain s from h2)
      rcases h1 with h1 | h1
      · cases (show sym = none from h1); rfl
      · cases (show sym = some "" from h1); rfl

theorem isComputed_iff (n : MemberName) : isComputed (some n) = true ↔ ∃ x, n.written = .computed x := by
  obtain ⟨sym, w⟩ := n
  cases w <;> simp [isComputed]

theorem baseTypes_iff (M : Members T) (clauses : List (List T)) (name : String) (t : T) :
    t ∈ baseTypes M clauses name ↔ ∃ types ∈ clauses, ∃ base ∈ types, M.property base name = some t := by
  simp [baseTypes]

theorem overrides_iff (E : Env T) (M : Members T) (h : Heritage T) (name : Option MemberName) :
    (∃ t ∈ getBaseMemberTypes M h name, ForNothing E t) ↔ OverridesForNothing E M h name := by
  constructor
  · rintro ⟨t, ht, hf⟩
    cases h with
    | none => exact absurd ht List.not_mem_nil
    | some clauses =>
      cases name with
      | none => exact absurd ht List.not_mem_nil
      | some n =>
        cases hs : n.symbol with
        | none => simp [getBaseMemberTypes, hs] at ht
        | some s =>
          simp only [getBaseMemberTypes, hs] at ht
          obtain ⟨types, h1, base, h2, h3⟩ := (baseTypes_iff M clauses s t).1 ht
          exact ⟨clauses, n, s, rfl, rfl, hs, types, h1, base, h2, t, h3, hf⟩
  · rintro ⟨clauses, n, s, rfl, rfl, hs, types, h1, base, h2, t, h3, hf⟩
    refine ⟨t, ?_, hf⟩
    simp only [getBaseMemberTypes, hs]
    exact (baseTypes_iff M clauses s t).2 ⟨types, h1, base, h2, h3⟩

theorem signature_iff (E : Env T) (M : Members T) (isCall : Bool) (callee : T) (ps : List T) :
    ps ∈ ((E.parts callee).flatMap fun p => if isCall then M.callSignatures p else M.constructSignatures p) ↔ SignatureOf E M isCall callee ps := by
  unfold SignatureOf
  rw [List.mem_flatMap]
  cases isCall <;> simp

theorem expectedOf_iff (E : Env T) (M : Members T) (isCall : Bool) (callee : T) (i : Nat) (t : T) :
    Expected E ((E.parts callee).flatMap fun p => if isCall then M.callSignatures p else M.constructSignatures p) i t ↔ ExpectedOf E M isCall callee i t := by
  unfold Expected ExpectedOf
  simp only [← signature_iff]

theorem checkExpression_iff (E : Env T) (s : Site T N) (n : N) (m : Message) : (n, m) ∈ checkExpression E s ↔ s.Wants E ∧ Complains E s.func n m :=
  C92_expression E s n m

theorem checkOptional_iff (E : Env T) (o : Option (Site T N)) (n : N) (m : Message) :
    (n, m) ∈ checkOptional E o ↔ ∃ s, o = some s ∧ s.Wants E ∧ Complains E s.func n m := by
  cases o with
  | none => simp [checkOptional]
  | some s => simp [checkOptional, checkExpression_iff]

theorem checkObjectMethod_iff (E : Env T) (M : Members T) (object : Option T) (name : Option MemberName) (f : Func T N) (n : N) (m : Message) :
    (n, m) ∈ checkObjectMethod E M object name f ↔ Stands E M (.objectMethod object name f) f ∧ Complains E f n m := by
  unfold checkObjectMethod
  rw [← C92_function]
  have key : (isComputed name = false ∧ voidContext E (expectedProperty M object (getMemberName name)) = true) ↔ Stands E M (.objectMethod object name f) f := by
    rw [voidContext_iff]
    constructor
    · rintro ⟨hc, t, ht, hf⟩
      cases object with
      | none => exact absurd ht (by simp [expectedProperty])
      | some object =>
        simp only [expectedProperty] at ht
        by_cases he : getMemberName name = ""
        · rw [if_pos he] at ht; exact absurd ht (by simp)
        · rw [if_neg he] at ht
          cases name with
          | none => exact absurd rfl he
          | some k =>
            have hk : ∀ x, k.written ≠ .computed x := by
              intro x hx
              rw [(isComputed_iff k).2 ⟨x, hx⟩] at hc
              exact absurd hc (by decide)
            exact .objectMethod hk ((getMemberName_iff k hk _ he).1 rfl) ht hf
    · intro h
      have key : ∀ p g, Stands E M p g → p = .objectMethod object name f →
          isComputed name = false ∧ ∃ t, expectedProperty M object (getMemberName name) = some t ∧ ForNothing E t := by
        intro p g h hp
        cases h with
        | objectMethod h1 h2 h3 h4 =>
          rename_i o k s t
          simp only [Place.objectMethod.injEq] at hp
          obtain ⟨rfl, rfl, rfl⟩ := hp
          have hs : s ≠ "" := by cases h2 <;> assumption
          refine ⟨?_, t, ?_, h4⟩
          · cases hc : isComputed (some k) with
            | false => rfl
            | true => obtain ⟨x, hx⟩ := (isComputed_iff k).1 hc; exact absurd hx (h1 x)
          · rw [(getMemberName_iff k h1 s hs).2 h2]
            simp only [expectedProperty, if_neg hs, h3]
        | _ => exact absurd hp (by simp)
      exact key _ _ h rfl
  rw [← key]
  generalize isComputed name = a
  generalize voidContext E (expectedProperty M object (getMemberName name)) = b
  cases a <;> cases b <;> simp

/-- C128.  The whole of strict-void-return: at a node it listens to, exactly the complaints about the functions standing there where one
that returns nothing is wanted — elements of arrays, bodies of arrow functions, assigned values, arguments of calls and `new`,
JSX attributes, methods and properties of objects and classes, returned values and initialisers; nothing elsewhere. -/
theorem C128_listen (E : Env T) (M : Members T) (p : Place T N) (n : N) (m : Message) :
    (n, m) ∈ listen E M p ↔ ∃ f, Stands E M p f ∧ Complains E f n m := by
  cases p with
  | array es =>
    show (n, m) ∈ es.flatMap (checkElement E) ↔ _
    rw [List.mem_flatMap]
    constructor
    · rintro ⟨e, he, h⟩
      cases e with
      | missing => exact absurd h List.not_mem_nil
      | spread => exact absurd h List.not_mem_nil
      | value s =>
        obtain ⟨h1, h2⟩ := (checkExpression_iff E s n m).1 h
        exact ⟨_, .element he h1, h2⟩
    · rintro ⟨f, h, hc⟩
      cases h with
      | element he hw => exact ⟨_, he, (checkExpression_iff E _ n m).2 ⟨hw, hc⟩⟩
  | arrow block body =>
    cases block with
    | true =>
      constructor
      · intro h; exact absurd h List.not_mem_nil
      · rintro ⟨f, h, _⟩; cases h
    | false =>
      show (n, m) ∈ checkOptional E body ↔ _
      rw [checkOptional_iff]
      constructor
      · rintro ⟨s, rfl, h1, h2⟩; exact ⟨_, .arrow h1, h2⟩
      · rintro ⟨f, h, hc⟩
        cases h with
        | arrow hw => exact ⟨_, rfl, hw, hc⟩
  | binary assigns right =>
    cases assigns with
    | false =>
      constructor
      · intro h; exact absurd h List.not_mem_nil
      · rintro ⟨f, h, _⟩; cases h
    | true =>
      show (n, m) ∈ checkExpression E right ↔ _
      rw [checkExpression_iff]
      constructor
      · rintro ⟨h1, h2⟩; exact ⟨_, .assigned h1, h2⟩
      · rintro ⟨f, h, hc⟩
        cases h with
        | assigned hw => exact ⟨hw, hc⟩
  | call isCall callee args =>
    show (n, m) ∈ checkCall E M isCall callee args ↔ _
    unfold checkCall
    rw [C92_call]
    unfold WantsNothing
    simp only [expectedOf_iff]
    constructor
    · rintro ⟨i, s, hi, (⟨h1, h2⟩ | ⟨⟨t, h1, h2⟩, h3⟩), hc⟩
      · exact ⟨_, .argument hi h2 h1, hc⟩
      · exact ⟨_, .callback hi h1 h2 h3, hc⟩
    · rintro ⟨f, h, hc⟩
      cases h with
      | argument hi h2 h1 => exact ⟨_, _, hi, .inl ⟨h1, h2⟩, hc⟩
      | callback hi h1 h2 h3 => exact ⟨_, _, hi, .inr ⟨⟨_, h1, h2⟩, h3⟩, hc⟩
  | jsxAttribute v =>
    cases v with
    | value s =>
      show (n, m) ∈ checkExpression E s ↔ _
      rw [checkExpression_iff]
      constructor
      · rintro ⟨h1, h2⟩; exact ⟨_, .jsxValue h1, h2⟩
      · rintro ⟨f, h, hc⟩
        cases h with
        | jsxValue hw => exact ⟨hw, hc⟩
    | _ =>
      constructor
      · intro h; exact absurd h List.not_mem_nil
      · rintro ⟨f, h, _⟩; cases h
  | objectMethod object name f =>
    show (n, m) ∈ checkObjectMethod E M object name f ↔ _
    rw [checkObjectMethod_iff]
    constructor
    · intro h; exact ⟨f, h⟩
    · rintro ⟨g, h, hc⟩
      have : g = f := by cases h; rfl
      subst this
      exact ⟨h, hc⟩
  | classMethod h name hasBody f =>
    show (n, m) ∈ checkMethod E hasBody (getBaseMemberTypes M h name) f ↔ _
    rw [(C92_members E (getBaseMemberTypes M h name) n m).1, overrides_iff]
    constructor
    · rintro ⟨rfl, h1, h2⟩; exact ⟨_, .classMethod h1, h2⟩
    · rintro ⟨g, h, hc⟩
      cases h with
      | classMethod h1 => exact ⟨rfl, h1, hc⟩
  | classProperty h name init =>
    show (n, m) ∈ checkProperty E (getBaseMemberTypes M h name) init ↔ _
    rw [(C92_members E (getBaseMemberTypes M h name) n m).2, overrides_iff]
    constructor
    · rintro ⟨s, rfl, h1, h2⟩; exact ⟨_, .classProperty h1, h2⟩
    · rintro ⟨g, h, hc⟩
      cases h with
      | classProperty h1 => exact ⟨_, rfl, h1, hc⟩
  | propertyAssignment s =>
    show (n, m) ∈ checkExpression E s ↔ _
    rw [checkExpression_iff]
    constructor
    · rintro ⟨h1, h2⟩; exact ⟨_, .property h1, h2⟩
    · rintro ⟨f, h, hc⟩
      cases h with
      | property hw => exact ⟨hw, hc⟩
  | shorthand s =>
    show (n, m) ∈ checkExpression E s ↔ _
    rw [checkExpression_iff]
    constructor
    · rintro ⟨h1, h2⟩; exact ⟨_, .shorthand h1, h2⟩
    · rintro ⟨f, h, hc⟩
      cases h with
      | shorthand hw => exact ⟨hw, hc⟩
  | returned v =>
    show (n, m) ∈ checkOptional E v ↔ _
    rw [checkOptional_iff]
    constructor
    · rintro ⟨s, rfl, h1, h2⟩; exact ⟨_, .returned h1, h2⟩
    · rintro ⟨f, h, hc⟩
      cases h with
      | returned hw => exact ⟨_, rfl, hw, hc⟩
  | variableDeclaration v =>
    show (n, m) ∈ checkOptional E v ↔ _
    rw [checkOptional_iff]
    constructor
    · rintro ⟨s, rfl, h1, h2⟩; exact ⟨_, .variableDeclaration h1, h2⟩
    · rintro ⟨f, h, hc⟩
      cases h with
      | variableDeclaration hw => exact ⟨_, rfl, hw, hc⟩
  | elsewhere =>
    constructor
    · intro h; exact absurd h List.not_mem_nil
    · rintro ⟨f, h, _⟩; cases h

/-- C128 (consistent members).  Whether a class member is complained about does not depend on how its name is written, only on the
symbol: a computed, quoted or private name is treated as the checker resolves it.  A method of an object literal with a
computed name is never complained about. -/
theorem C128_names (E : Env T) (M : Members T) (h : Heritage T) (s : Option String) (w w' : Written) (b : Bool) (f : Func T N) (i : Option (Site T N)) (o : Option T) (x : Option String) :
    listen E M (.classMethod h (some ⟨s, w⟩) b f) = listen E M (.classMethod h (some ⟨s, w'⟩) b f) ∧
    listen E M (.classProperty h (some ⟨s, w⟩) i) = listen E M (.classProperty h (some ⟨s, w'⟩) i) ∧
    listen E M (.objectMethod o (some ⟨s, .computed x⟩) f) = [] := ⟨rfl, rfl, rfl⟩

/-- Type 4 has a property `f` of type 2 (`() => void`), type 5 takes a callback of type 2. -/
def sampleMembers : Members Nat where
  property t s := if t = 4 ∧ s = "f" then some 2 else none
  callSignatures t := if t = 5 then [[2]] else []
  constructSignatures _ := []

example : listen sample sampleMembers (.objectMethod (some 4) (some ⟨none, .plain "f"⟩) literal) = [(10, .nonVoidReturn)] := by decide
example : listen sample sampleMembers (.objectMethod (some 4) (some ⟨none, .plain "g"⟩) literal) = [] := by decide
example : listen sample sampleMembers (.classMethod (some [[3], [1, 4]]) (some ⟨some "f", .computed none⟩) true literal) = [(10, .nonVoidReturn)] := by decide
example : listen sample sampleMembers (.classMethod (some [[3], [1, 4]]) (some ⟨some "f", .plain "f"⟩) false literal) = [] := by decide
example : listen sample sampleMembers (.call true 5 [some ⟨literal, some 2⟩]) = [(10, .nonVoidReturn)] := by decide
example : listen sample sampleMembers (.call false 5 [some ⟨literal, some 2⟩]) = [(10, .nonVoidReturn)] := by decide
example : listen sample sampleMembers (.call false 5 [some ⟨literal, none⟩]) = [] := by decide
example : listen sample sampleMembers (.array [.spread, .value ⟨literal, some 2⟩, .missing]) = [(10, .nonVoidReturn)] := by decide
example : Stands (N := Nat) sample sampleMembers (.objectMethod (some 4) (some ⟨none, .plain "f"⟩) literal) literal :=
  .objectMethod (by intro x h; cases h) (.written (.inl rfl) rfl (by decide)) (by decide) ((isVoidFunction_iff sample 2).1 (by decide))

end Tsgolint.VoidReturn
