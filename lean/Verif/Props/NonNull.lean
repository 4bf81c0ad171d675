import Verif.Spec.NonNull
/-!
# C100: no-unnecessary-type-assertion reports exactly the non-null assertions that change nothing
-/
namespace Tsgolint.NonNull
variable {N T : Type}

theorem constraintOf_iff (E : Types T) (t c : T) : ConstraintOf E t c ↔ c = E.constrained t := by
  rw [ConstraintOf, Types.constrained]
  cases E.baseConstraint t <;> simp [eq_comm]

theorem nullish_iff (E : Types T) (t : T) : E.nullish t = true ↔ Nullish E t := by
  rw [Types.nullish, Nullish]
  split
  · rename_i h; simp [h]
  · rename_i h
    simp only [h, List.any_eq_true, Bool.or_eq_true, Includes, Bool.false_eq_true, false_or]
    constructor
    · rintro ⟨p, hp, (h | h) | h⟩
      · exact .inl ⟨p, hp, h⟩
      · exact .inr (.inl ⟨p, hp, h⟩)
      · exact .inr (.inr ⟨p, hp, h⟩)
    · rintro (⟨p, hp, h⟩ | ⟨p, hp, h⟩ | ⟨p, hp, h⟩)
      · exact ⟨p, hp, .inl (.inl h)⟩
      · exact ⟨p, hp, .inl (.inr h)⟩
      · exact ⟨p, hp, .inr h⟩

/-- Folding flags collects those of every constituent. -/
theorem allFlags_iff (E : Types T) (k : Flags → Bool) (hk : ∀ a b : Flags, k (a.or b) = (k a || k b)) (h0 : k .zero = false) (t : T) :
    k (E.allFlags t) = true ↔ Includes E k t := by
  have : ∀ (l : List T) f, k (l.foldl (fun f p => f.or (E.flags p)) f) = true ↔ k f = true ∨ ∃ p ∈ l, k (E.flags p) = true := by
    intro l
    induction l with
    | nil => simp
    | cons a l ih =>
      intro f
      simp only [List.foldl_cons, ih, hk, Bool.or_eq_true, List.mem_cons, exists_eq_or_imp]
      exact or_assoc
  rw [Types.allFlags, this, h0, Includes]
  simp

variable [DecidableEq N] [DecidableEq T]

omit [DecidableEq T] in
/-- C100 (what is expected). -/
theorem C100_expected (typeAt : N → T) (n : Node N T) (t : T) : contextualType typeAt n = some t ↔ Expected typeAt n t := by
  constructor
  · intro h
    rw [contextualType] at h
    split at h
    · rename_i callee hp
      split at h
      · cases h
      · rename_i hne; exact .argument hp hne h
    · rename_i ty hp; subst h; exact .declared hp
    · rename_i c hp; subst h; exact .jsx hp
    · rename_i hp
      split at h
      · rename_i hi; exact .property hp hi h
      · cases h
    · rename_i l r hp
      split at h
      · rename_i hr; subst hr; cases h; exact .assigned hp
      · cases h
    · rename_i hp; exact .template hp h
    · cases h
  · intro h
    cases h with
    | argument h1 h2 h3 => simp [contextualType, h1, h2, h3]
    | declared h1 => simp [contextualType, h1]
    | jsx h1 => simp [contextualType, h1]
    | property h1 h2 h3 => simp [contextualType, h1, h2, h3]
    | assigned h1 => simp [contextualType, h1]
    | template h1 h2 => simp [contextualType, h1, h2]

omit [DecidableEq T] in
theorem usedOutside_iff (scope : Option N) (l : List N) : usedOutside scope l = true ↔ ∃ s ∈ l, scope = some s := by
  induction l with
  | nil => simp [usedOutside]
  | cons a l ih =>
    rw [usedOutside]
    split
    · rename_i h; simp [← h]
    · rename_i h
      have h : scope ≠ some a := fun h' => h h'.symm
      simp [ih, h]

/-- C100 (used before assigned). -/
theorem C100_unassigned (E : Types T) (n : Node N T) : E.usedBeforeAssigned n = true ↔ MaybeUnassigned E n := by
  rw [Types.usedBeforeAssigned, MaybeUnassigned]
  cases hd : n.declaration with
  | none => simp
  | some d =>
    simp only [reduceCtorEq, false_or]
    cases hs : E.strictNullChecks with
    | false => simp
    | true =>
      simp only [Bool.not_true, Bool.false_eq_true, if_false, true_and]
      cases d with
      | other => simp
      | binding var scopes typed ambient =>
        have hout : (var && usedOutside n.scope scopes.tail) = true ↔ (var = true ∧ ∃ innermost outer s, scopes = innermost :: outer ∧ s ∈ outer ∧ n.scope = some s) := by
          rw [Bool.and_eq_true, usedOutside_iff]
          cases scopes with
          | nil => simp
          | cons a l =>
            simp only [List.tail_cons, List.cons.injEq]
            constructor
            · rintro ⟨h, s, h1, h2⟩; exact ⟨h, a, l, s, ⟨rfl, rfl⟩, h1, h2⟩
            · rintro ⟨h, _, _, s, ⟨rfl, rfl⟩, h1, h2⟩; exact ⟨h, s, h1, h2⟩
        have htyped : (typed.any fun t => t = E.constrained n.type && !ambient) = true ↔
            (ambient = false ∧ ∃ c, ConstraintOf E n.type c ∧ typed = some c) := by
          simp only [constraintOf_iff, exists_eq_left]
          cases typed with
          | none => simp
          | some t => simp [and_comm]
        show (if (var && usedOutside n.scope scopes.tail) = true then true else typed.any fun t => t = E.constrained n.type && !ambient) = true ↔ _
        by_cases h : (var && usedOutside n.scope scopes.tail) = true
        · rw [if_pos h]
          simp only [true_iff]
          exact ⟨var, scopes, typed, ambient, rfl, .inl (hout.1 h)⟩
        · rw [if_neg h]
          refine htyped.trans ?_
          constructor
          · intro h; exact ⟨var, scopes, typed, ambient, rfl, .inr h⟩
          · rintro ⟨_, _, _, _, h1, h2⟩
            cases h1
            exact h2.resolve_left fun h' => h (hout.2 h')

theorem accepts_iff (E : Types T) (t c : T) : E.accepts t c = true ↔
    ((Includes E (·.unknown) t → Includes E (·.unknown) c) ∧ (Includes E (·.undefined) t → Includes E (·.undefined) c) ∧
      (Includes E (·.null) t → Includes E (·.null) c) ∧ (Includes E (·.void) t → Includes E (·.void) c)) := by
  simp only [← allFlags_iff E (·.unknown) (fun _ _ => rfl) rfl, ← allFlags_iff E (·.undefined) (fun _ _ => rfl) rfl, ← allFlags_iff E (·.null) (fun _ _ => rfl) rfl,
    ← allFlags_iff E (·.void) (fun _ _ => rfl) rfl, Types.accepts]
  cases (E.allFlags t).unknown <;> cases (E.allFlags c).unknown <;> cases (E.allFlags t).undefined <;> cases (E.allFlags c).undefined <;>
    cases (E.allFlags t).null <;> cases (E.allFlags c).null <;> cases (E.allFlags t).void <;> cases (E.allFlags c).void <;> simp

/-- C100 (main part). `x!` is reported as unnecessary exactly if `x` is never null or undefined, and as contextually unnecessary exactly if it is
assigned to, or may be null or undefined but goes into something that accepts that. -/
theorem C100_verdict (E : Types T) (typeAt : N → T) (self operand : Node N T) :
    (E.check typeAt self operand = some .unnecessary ↔ Unnecessary E self operand) ∧ (E.check typeAt self operand = some .contextual ↔ Contextual E typeAt self operand) := by
  by_cases ha : InAssignment self
  · obtain ⟨l, r, hp⟩ := ha
    have hin : InAssignment self := ⟨l, r, hp⟩
    simp only [Types.check, hp, Unnecessary, Contextual, hin, not_true_eq_false, false_and, or_false]
    constructor
    · split <;> simp
    · split
      · rename_i h; subst h; simp
      · rename_i h
        simp only [reduceCtorEq, Parent.assignment.injEq, false_iff]
        rintro ⟨_, h1, _⟩
        exact h h1
  · have hcheck : E.check typeAt self operand = (if !E.nullish (E.constrained operand.type) && !E.nullish operand.type then
        (if operand.identifier && E.usedBeforeAssigned operand then none else some .unnecessary)
      else if E.constrained operand.type ≠ operand.type then none
      else match contextualType typeAt self with
        | none => none
        | some c => if E.accepts (E.constrained operand.type) c then some .contextual else none) := by
      rw [Types.check]
      cases hp : self.parent with
      | assignment l r => exact absurd ⟨l, r, hp⟩ ha
      | _ => rfl
    have hna : ¬ ∃ r, self.parent = .assignment self.node r := fun ⟨r, h⟩ => ha ⟨_, r, h⟩
    have hself : ConstraintOf E operand.type operand.type ↔ E.constrained operand.type = operand.type := by rw [constraintOf_iff, eq_comm]
    rw [hcheck]
    simp only [Unnecessary, Contextual, ha, hna, not_false_eq_true, true_and, false_or, constraintOf_iff, forall_eq]
    by_cases hn : Nullish E (E.constrained operand.type) ∨ Nullish E operand.type
    · rw [if_neg (by rw [Bool.and_eq_true, Bool.not_eq_true', Bool.not_eq_true', ← Bool.not_eq_true, ← Bool.not_eq_true, nullish_iff, nullish_iff]; exact fun h => hn.elim h.1 h.2)]
      have hun : ¬ (¬ Nullish E (E.constrained operand.type) ∧ ¬ Nullish E operand.type ∧ ¬ (operand.identifier = true ∧ MaybeUnassigned E operand)) :=
        fun h => hn.elim h.1 h.2.1
      simp only [hun, iff_false]
      by_cases hc : E.constrained operand.type = operand.type
      · rw [if_neg (by simpa using hc)]
        have hnull : Nullish E operand.type := hn.elim (fun h => hc ▸ h) id
        simp only [hc, hnull, true_and, ← C100_expected]
        cases contextualType typeAt self with
        | none => simp
        | some c =>
          simp only [Option.some.injEq, exists_eq_left', ← accepts_iff]
          cases E.accepts operand.type c <;> simp
      · rw [if_pos hc]
        have : ¬ (operand.type = E.constrained operand.type) := fun h => hc h.symm
        simp [this]
    · have h1 : ¬ Nullish E (E.constrained operand.type) := fun h => hn (.inl h)
      have h2 : ¬ Nullish E operand.type := fun h => hn (.inr h)
      rw [if_pos (by rw [Bool.and_eq_true, Bool.not_eq_true', Bool.not_eq_true', ← Bool.not_eq_true, ← Bool.not_eq_true, nullish_iff, nullish_iff]; exact ⟨h1, h2⟩)]
      simp only [h1, h2, not_false_eq_true, true_and, false_and, and_false, iff_false, ← C100_unassigned]
      cases operand.identifier <;> cases E.usedBeforeAssigned operand <;> simp

/-- C100 (safety). If `x!` is reported as unnecessary, no constituent of the type of `x` is null, undefined, void, any or unknown, provided `IsNullableType`
recognises the first two. -/
theorem C100_safe (E : Types T) (typeAt : N → T) (self operand : Node N T) (hE : ∀ t p, p ∈ E.parts t → (E.flags p).undefined = true ∨ (E.flags p).null = true → E.nullable t = true)
    (h : E.check typeAt self operand = some .unnecessary) :
    ∀ p ∈ E.parts operand.type, (E.flags p).undefined = false ∧ (E.flags p).null = false ∧ (E.flags p).void = false ∧ (E.flags p).any = false ∧ (E.flags p).unknown = false := by
  obtain ⟨_, _, hn, _⟩ := (C100_verdict E typeAt self operand).1.1 h
  intro p hp
  refine ⟨?_, ?_, ?_, ?_, ?_⟩ <;> rw [← Bool.not_eq_true] <;> intro hf <;> apply hn
  · exact .inl (hE _ p hp (.inl hf))
  · exact .inl (hE _ p hp (.inr hf))
  · exact .inr (.inr (.inr ⟨p, hp, hf⟩))
  · exact .inr (.inl ⟨p, hp, hf⟩)
  · exact .inr (.inr (.inl ⟨p, hp, hf⟩))

/-- C100 (assigned values). The `!` of a value assigned by `=` is never reported. -/
theorem C100_assigned (E : Types T) (typeAt : N → T) (self operand : Node N T) (left : N) (h : self.parent = .assignment left self.node) (hne : left ≠ self.node) :
    E.check typeAt self operand = none := by
  simp [Types.check, h, hne]

/-- C100 (finding). `GetContextualType` looks at `name: value` only if the value is an identifier, and `x!` is none: in `{ name: x! }` nothing is expected, so
`x!` is never reported as contextually unnecessary there; nor is it in parentheses, in returned values or in conditional expressions. -/
theorem C100_property (E : Types T) (typeAt : N → T) (self operand : Node N T) (h : self.parent = .property ∨ self.parent = .other) (hi : self.identifier = false) :
    E.check typeAt self operand ≠ some .contextual := by
  intro hc
  rcases (C100_verdict E typeAt self operand).2.1 hc with ⟨r, hr⟩ | ⟨_, _, _, c, he, _⟩
  · rcases h with h | h <;> rw [h] at hr <;> cases hr
  · cases he with
    | argument h1 => rcases h with h | h <;> rw [h] at h1 <;> cases h1
    | declared h1 => rcases h with h | h <;> rw [h] at h1 <;> cases h1
    | jsx h1 => rcases h with h | h <;> rw [h] at h1 <;> cases h1
    | property h1 h2 => rw [hi] at h2; cases h2
    | assigned h1 => rcases h with h | h <;> rw [h] at h1 <;> cases h1
    | template h1 => rcases h with h | h <;> rw [h] at h1 <;> cases h1

namespace Sample

/-- Types: 0 `string`, 1 `undefined`, 2 `string | undefined`, 3 `unknown`, 4 `T extends string` -/
def types : Types Nat where
  parts t := if t = 2 then [0, 1] else [t]
  flags t := { Flags.zero with undefined := t == 1, unknown := t == 3 }
  nullable t := t == 1 || t == 2
  baseConstraint t := if t = 4 then some 0 else none
  strictNullChecks := true

def operand (type : Nat) (declaration : Option (Declaration Nat Nat)) (scope : Nat) : Node Nat Nat := ⟨10, true, .other, type, none, declaration, some scope⟩
def self (parent : Parent Nat Nat) (contextual : Option Nat) : Node Nat Nat := ⟨11, false, parent, 0, contextual, none, none⟩

/-- `x!` with `const x: string = …` -/
example : types.check (fun _ => 0) (self .other none) (operand 0 (some (.binding false [5] none false)) 5) = some .unnecessary := by decide
/-- a `var` of an inner block -/
example : types.check (fun _ => 0) (self .other none) (operand 0 (some (.binding true [6, 5] none false)) 5) = none := by decide
/-- `let x: string;` without a value -/
example : types.check (fun _ => 0) (self .other none) (operand 0 (some (.binding false [5] (some 0) false)) 5) = none := by decide
/-- `f(x!)` with `f(s: string | undefined)` -/
example : types.check (fun _ => 0) (self (.callOrNew 12) (some 2)) (operand 2 (some .other) 5) = some .contextual := by decide
/-- `f(x!)` with `f(s: string)` -/
example : types.check (fun _ => 0) (self (.callOrNew 12) (some 0)) (operand 2 (some .other) 5) = none := by decide
/-- `x! = 1` -/
example : types.check (fun _ => 0) (self (.assignment 11 13) none) (operand 2 (some .other) 5) = some .contextual := by decide
/-- `y = x!` -/
example : types.check (fun _ => 0) (self (.assignment 13 11) none) (operand 0 (some .other) 5) = none := C100_assigned _ _ _ _ 13 rfl (by decide)
/-- `x` of a type parameter -/
example : Unnecessary types (self .other none) (operand 4 (some .other) 5) := (C100_verdict types (fun _ => 0) _ _).1.1 (by decide)
example : ∀ t p, p ∈ types.parts t → (types.flags p).undefined = true ∨ (types.flags p).null = true → types.nullable t = true := by
  intro t p hp h
  simp only [types] at *
  split at hp
  · subst t; simp
  · simp only [List.mem_singleton] at hp; subst hp
    rcases h with h | h
    · simpa using Or.inl h
    · cases h
example : types.check (fun _ => 0) (self .property (some 2)) (operand 2 (some .other) 5) ≠ some .contextual := C100_property _ _ _ _ (.inl rfl) rfl

end Sample

end Tsgolint.NonNull
