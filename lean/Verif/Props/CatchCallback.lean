import Verif.Spec.CatchCallback
import Verif.Proof.StableFix
/-! # C87 -/
namespace Tsgolint.CatchCallback
open Tsgolint.Fixer (Fix Bytes ascii AppliesTo Seg)
variable {T : Type}

theorem flagsParam_spec (E : Env T) (p : FirstParam T) (h : p.rest = true → E.arrayOrTuple p.type ≠ some []) :
    ∃ b, flagsParam E p = some b ∧ (b = true ↔ NotUnknown E p) := by
  unfold flagsParam
  cases hr : p.rest with
  | false =>
    refine ⟨!E.isUnknown p.type, by simp, ?_⟩
    simp only [Bool.not_eq_true']
    constructor
    · exact .plain hr
    · intro h
      cases h with
      | plain _ h => exact h
      | restOther h => rw [hr] at h; cases h
      | restElement h => rw [hr] at h; cases h
  | true =>
    simp only [if_true]
    cases ha : E.arrayOrTuple p.type with
    | none => exact ⟨true, rfl, by simp; exact .restOther hr ha⟩
    | some l =>
      cases l with
      | nil => exact absurd ha (h hr)
      | cons t ts =>
        refine ⟨_, rfl, ?_⟩
        simp only [Bool.not_eq_true']
        constructor
        · exact .restElement hr ha
        · intro h
          cases h with
          | plain h => rw [hr] at h; cases h
          | restOther _ h => rw [ha] at h; cases h
          | restElement _ h h' => rw [ha] at h; cases h; exact h'

theorem flagsSignatures_spec (E : Env T) (ss : List (Option (FirstParam T))) (h : ∀ p, some p ∈ ss → p.rest = true → E.arrayOrTuple p.type ≠ some []) :
    ∃ b, flagsSignatures E ss = some b ∧ (b = true ↔ ∃ p, some p ∈ ss ∧ NotUnknown E p) := by
  induction ss with
  | nil => exact ⟨false, rfl, by simp⟩
  | cons s ss ih =>
    obtain ⟨b, hb, hb'⟩ := ih fun p hp => h p (by simp [hp])
    cases s with
    | none => exact ⟨b, hb, by rw [hb']; simp⟩
    | some p =>
      obtain ⟨c, hc, hc'⟩ := flagsParam_spec E p (h p (by simp))
      simp only [flagsSignatures, hc]
      cases c with
      | true => exact ⟨true, rfl, by simp only [true_iff]; exact ⟨p, by simp, hc'.1 rfl⟩⟩
      | false =>
        refine ⟨b, hb, hb'.trans ⟨?_, ?_⟩⟩
        · rintro ⟨q, h1, h2⟩; exact ⟨q, by simp [h1], h2⟩
        · rintro ⟨q, h1, h2⟩
          rcases List.mem_cons.1 h1 with h | h
          · cases h; exact absurd (hc'.2 h2) (by simp)
          · exact ⟨q, h, h2⟩

theorem flagsType_spec (E : Env T) (hE : NoEmptyRest E) (ts : List T) :
    ∃ b, flagsType E ts = some b ∧ (b = true ↔ ∃ t ∈ ts, ∃ p, some p ∈ E.signatures t ∧ NotUnknown E p) := by
  induction ts with
  | nil => exact ⟨false, rfl, by simp⟩
  | cons t ts ih =>
    obtain ⟨b, hb, hb'⟩ := ih
    obtain ⟨c, hc, hc'⟩ := flagsSignatures_spec E (E.signatures t) (hE t)
    simp only [flagsType, hc]
    cases c with
    | true => exact ⟨true, rfl, by simp only [true_iff]; exact ⟨t, by simp, hc'.1 rfl⟩⟩
    | false =>
      refine ⟨b, hb, hb'.trans ⟨?_, ?_⟩⟩
      · rintro ⟨q, h1, h2⟩; exact ⟨q, by simp [h1], h2⟩
      · rintro ⟨q, h1, h2⟩
        rcases List.mem_cons.1 h1 with rfl | h
        · exact absurd (hc'.2 h2) (by simp)
        · exact ⟨q, h, h2⟩

/-- C87 (callbacks).  The functions reported are exactly those the argument may evaluate to that may receive the error as something other than `unknown`, in source order. -/
theorem C87_callbacks (E : Env T) (hE : NoEmptyRest E) (e : Expr T) :
    ∃ ids, collect E e = some ids ∧ (∀ id, id ∈ ids ↔ ∃ t, Yields e id t ∧ Flaggable E t) ∧ ids.Sublist e.functions := by
  induction e with
  | function id t =>
    obtain ⟨b, hb, hb'⟩ := flagsType_spec E hE (E.parts t)
    have one : ∀ i, (∃ t', Yields (.function id t) i t' ∧ Flaggable E t') ↔ i = id ∧ Flaggable E t := by
      intro i
      constructor
      · rintro ⟨t', h, hf⟩; cases h; exact ⟨rfl, hf⟩
      · rintro ⟨rfl, hf⟩; exact ⟨t, .self, hf⟩
    simp only [collect, hb, one, Expr.functions]
    cases b with
    | true => exact ⟨[id], rfl, by have := hb'.1 rfl; simpa [Flaggable] using this, by simp⟩
    | false => exact ⟨[], rfl, fun i => by have : ¬ Flaggable E t := fun h => absurd (hb'.2 h) (by simp); simp [this], by simp⟩
  | paren e ih =>
    obtain ⟨ids, h1, h2, h3⟩ := ih
    refine ⟨ids, h1, fun id => (h2 id).trans ⟨?_, ?_⟩, h3⟩
    · rintro ⟨t, h, hf⟩; exact ⟨t, .paren h, hf⟩
    · rintro ⟨t, h, hf⟩; cases h with | paren h => exact ⟨t, h, hf⟩
  | logical l r ihl ihr =>
    obtain ⟨a, a1, a2, a3⟩ := ihl
    obtain ⟨b, b1, b2, b3⟩ := ihr
    refine ⟨a ++ b, by simp [collect, a1, b1], fun id => ?_, List.Sublist.append a3 b3⟩
    rw [List.mem_append, a2, b2]
    constructor
    · rintro (⟨t, h, hf⟩ | ⟨t, h, hf⟩)
      · exact ⟨t, .left h, hf⟩
      · exact ⟨t, .right h, hf⟩
    · rintro ⟨t, h, hf⟩
      cases h with
      | left h => exact .inl ⟨t, h, hf⟩
      | right h => exact .inr ⟨t, h, hf⟩
  | comma l r ihl ihr =>
    obtain ⟨b, b1, b2, b3⟩ := ihr
    refine ⟨b, by simp [collect, b1], fun id => (b2 id).trans ⟨?_, ?_⟩, List.Sublist.trans b3 (List.sublist_append_right ..)⟩
    · rintro ⟨t, h, hf⟩; exact ⟨t, .comma h, hf⟩
    · rintro ⟨t, h, hf⟩; cases h with | comma h => exact ⟨t, h, hf⟩
  | conditional l r ihl ihr =>
    obtain ⟨a, a1, a2, a3⟩ := ihl
    obtain ⟨b, b1, b2, b3⟩ := ihr
    refine ⟨a ++ b, by simp [collect, a1, b1], fun id => ?_, List.Sublist.append a3 b3⟩
    rw [List.mem_append, a2, b2]
    constructor
    · rintro (⟨t, h, hf⟩ | ⟨t, h, hf⟩)
      · exact ⟨t, .whenTrue h, hf⟩
      · exact ⟨t, .whenFalse h, hf⟩
    · rintro ⟨t, h, hf⟩
      cases h with
      | whenTrue h => exact .inl ⟨t, h, hf⟩
      | whenFalse h => exact .inr ⟨t, h, hf⟩
  | other =>
    refine ⟨[], rfl, fun id => ?_, by simp [Expr.functions]⟩
    simp only [List.not_mem_nil, false_iff]
    rintro ⟨t, h, -⟩; cases h

/-- C87 (calls).  The argument looked at is the first one of `catch` or the second one of `then`, of a call on a thenable with no spread up to that argument. -/
theorem C87_argument (method : Option String) (thenable : Bool) (spreads : List Bool) (i : Nat) :
    checkedArg method thenable spreads = some i ↔ thenable = true ∧ ((method = some "catch" ∧ i = 0 ∧ spreads[0]? = some false) ∨
      (method = some "then" ∧ i = 1 ∧ spreads[0]? = some false ∧ spreads[1]? = some false)) := by
  have neq : ("then" : String) ≠ "catch" := by decide
  unfold checkedArg
  cases method with
  | none => simp
  | some m =>
    simp only [argIndex, Option.some.injEq]
    by_cases hc : m = "catch"
    · subst hc
      rw [if_pos rfl]
      simp only [true_and, neq.symm, false_and, or_false]
      cases spreads with
      | nil => simp
      | cons a as => cases a <;> cases thenable <;> simp [spreadBefore, eq_comm]
    · rw [if_neg hc]
      by_cases ht : m = "then"
      · subst ht
        rw [if_pos rfl]
        simp only [true_and, neq, false_and, false_or]
        cases spreads with
        | nil => simp
        | cons a as => cases as with
          | nil => simp
          | cons b bs => cases a <;> cases b <;> cases thenable <;> simp [spreadBefore, eq_comm]
      · simp [hc, ht]

/-- C87 (message).  Destructured error variables get no suggestion, others one. -/
theorem C87_message (p : Param) :
    ((report p).2 = none ↔ p.rest = false ∧ p.binding ≠ .identifier) ∧
    ((report p).1 = .arrayPattern ↔ p.rest = false ∧ p.binding = .array) ∧ ((report p).1 = .objectPattern ↔ p.rest = false ∧ p.binding = .object) := by
  unfold report
  cases p.rest <;> cases p.binding <;> cases p.annotation <;> cases p.parenless <;> simp

/-- C87 (suggestion, annotated).  An existing annotation is replaced, by `[unknown]` for a rest parameter and by `unknown` otherwise. -/
theorem C87_replaces (p : Param) (a : Nat × Nat) (s : Suggestion) (fixes : List Fix) (pre node post : Bytes) (h : p.annotation = some a)
    (hr : (report p).2 = some (s, fixes)) (h1 : a.1 = pre.length) (h2 : a.2 = pre.length + node.length) :
    AppliesTo (pre ++ node ++ post) fixes (pre ++ (if p.rest then ascii "[unknown]" else ascii "unknown") ++ post) := by
  have go : ∀ text, AppliesTo (pre ++ node ++ post) [⟨text, a.1, a.2⟩] (pre ++ text ++ post) := by
    intro text
    have := Seg.applies_sorted [.keep pre, .sub node text, .keep post]
    simpa [Seg.old, Seg.new, Seg.edits, h1, h2] using this
  unfold report at hr
  rw [h] at hr
  cases hp : p.rest with
  | true => rw [hp] at hr; simp at hr; rw [← hr.2]; simpa using go _
  | false =>
    rw [hp] at hr
    cases hb : p.binding <;> rw [hb] at hr <;> simp at hr
    rw [← hr.2]; simpa using go _

/-- C87 (suggestion, not annotated).  The annotation is put after the name (and its `?`); a lone arrow parameter gets parentheses. -/
theorem C87_inserts (p : Param) (s : Suggestion) (fixes : List Fix) (pre name question post : Bytes) (h : p.annotation = none)
    (hr : (report p).2 = some (s, fixes)) (h1 : p.name.1 = pre.length) (h2 : p.name.2 = pre.length + name.length)
    (hq : p.question = if question = [] then none else some (pre.length + name.length + question.length))
    (hparen : p.parenless = true → p.rest = false ∧ question = []) (hrest : p.rest = true → question = []) :
    AppliesTo (pre ++ name ++ question ++ post) fixes
      (if p.parenless then pre ++ ascii "(" ++ name ++ ascii ": unknown)" ++ post
       else pre ++ name ++ question ++ (if p.rest then ascii ": [unknown]" else ascii ": unknown") ++ post) := by
  have ins : ∀ (a b text : Bytes) (n : Nat), n = a.length → AppliesTo (a ++ b) [⟨text, n, n⟩] (a ++ text ++ b) := by
    intro a b text n hn
    have := Seg.applies_sorted [.keep a, .sub [] text, .keep b]
    simpa [Seg.old, Seg.new, Seg.edits, hn] using this
  unfold report at hr
  rw [h] at hr
  cases hp : p.rest with
  | true =>
    have hn : p.parenless = false := by
      cases hx : p.parenless with
      | false => rfl
      | true => rw [(hparen hx).1] at hp; cases hp
    rw [hp] at hr
    simp at hr
    rw [← hr.2, hrest hp, hn]
    have := ins (pre ++ name) post (ascii ": [unknown]") p.name.2 (by simp [h2])
    simpa using this
  | false =>
    rw [hp] at hr
    cases hb : p.binding with
    | array => rw [hb] at hr; simp at hr
    | object => rw [hb] at hr; simp at hr
    | identifier =>
      rw [hb] at hr
      cases hx : p.parenless with
      | true =>
        rw [hx] at hr
        simp at hr
        rw [← hr.2, (hparen hx).2]
        have := Seg.applies_sorted [.keep pre, .sub [] (ascii "("), .keep name, .sub [] (ascii ": unknown)"), .keep post]
        simpa [Seg.old, Seg.new, Seg.edits, h1, h2] using this
      | false =>
        rw [hx] at hr
        simp at hr
        rw [← hr.2]
        have := ins (pre ++ name ++ question) post (ascii ": unknown") (pre.length + name.length + question.length) (by simp [Nat.add_assoc])
        cases hqq : question with
        | nil => rw [hqq] at this hq; rw [hq]; simpa [h2] using this
        | cons c cs => rw [hqq] at this hq; rw [hq]; simpa using this

/-- C87 (finding).  A callback whose rest parameter has the empty tuple type makes the linter panic. -/
theorem C87_hazard_panic (E : Env T) (id : Nat) (t part : T) (p : FirstParam T) (h1 : E.parts t = [part]) (h2 : E.signatures part = [some p]) (h3 : p.rest = true)
    (h4 : E.arrayOrTuple p.type = some []) : collect E (.function id t) = none := by
  simp [collect, h1, flagsType, h2, flagsSignatures, flagsParam, h3, h4]

/-- C87 (finding).  If the callback declares a `this` parameter, that one is reported (and annotated `unknown`) instead of the error variable. -/
theorem C87_hazard_this (this : Param) (params : List Param) : reported ⟨some this, params⟩ = some this ∧ reported ⟨none, params⟩ = params.head? := by
  simp [reported]

/-! ## Cases -/

/-- Types: 0 `unknown`, 1 `any`, 2 `unknown[]`, 3 `[]`, 10 `(e: unknown) => …`, 11 `(e) => …`, 12 `(...e: unknown[]) => …`, 13 `(...e: []) => …`, 14 `() => …`. -/
def sample : Env Nat where
  parts t := [t]
  signatures t := match t with
    | 10 => [some ⟨0, false⟩]
    | 11 => [none, some ⟨1, false⟩]
    | 12 => [some ⟨2, true⟩]
    | 13 => [some ⟨3, true⟩]
    | 14 => [none]
    | _ => []
  arrayOrTuple t := if t = 2 then some [0] else if t = 3 then some [] else none
  isUnknown t := t == 0

example : collect sample (.conditional (.function 1 10) (.logical (.function 2 11) (.paren (.comma (.function 3 11) (.function 4 11))))) = some [2, 4] := by decide
example : collect sample (.function 1 12) = some [] := by decide
example : collect sample (.function 1 13) = none := by decide
example : collect sample (.function 1 14) = some [] := by decide
example : NoEmptyRest (T := Nat) { sample with signatures := fun t => if t = 11 then [some ⟨1, false⟩] else [] } := by
  intro t p h h'
  simp only at h
  split at h
  · simp at h; rw [h] at h'; cases h'
  · cases h
example : checkedArg (some "then") true [false, false, true] = some 1 := by decide
example : checkedArg (some "then") true [true, false] = none := by decide
example : checkedArg (some "catch") true [false, true] = some 0 := by decide
example : report ⟨false, .identifier, (4, 5), none, none, true⟩ = (.useUnknown, some (.add, [⟨ascii "(", 4, 4⟩, ⟨ascii ": unknown)", 5, 5⟩])) := by decide
example : report ⟨false, .object, (4, 5), none, none, false⟩ = (.objectPattern, none) := by decide

end Tsgolint.CatchCallback
