import Verif.Spec.AwaitThenable
import Verif.Props.TypeGraph
import Verif.Proof.StableFix
/-! # C64: await-thenable -/
namespace Tsgolint.AwaitThenable
open Tsgolint.TypeGraph Tsgolint.Fixer
variable {T : Type} [DecidableEq T]

theorem never_iff (E : Env T) (t : T) : never E t = true ↔ NeverAwaitable E t := by
  have h := C52_awaitable E.then_.shape (isThenable E.then_) t
  simp only [never, decide_eq_true_eq, NeverAwaitable]
  have hth : ∀ c, isThenable E.then_ c = false ↔ ¬ Thenable E.then_ c := by
    intro c; rw [← C52_thenable]; simp
  constructor
  · intro hn
    cases hs : E.then_.shape t with
    | param k => cases k with
      | none => rw [h.1 hs] at hn; cases hn
      | some c =>
        have := ((h.2 c (.inl hs)).2.2).1 hn
        exact ⟨c, .inl rfl, this.1, this.2.1, (hth c).1 this.2.2⟩
    | _ =>
      have hc : ∀ k, E.then_.shape t ≠ .param k := by intro k; rw [hs]; simp
      have := ((h.2 t (.inr ⟨hc, rfl⟩)).2.2).1 hn
      exact ⟨t, .inr ⟨by simp, rfl⟩, this.1, this.2.1, (hth t).1 this.2.2⟩
  · rintro ⟨c, hc, h1, h2, h3⟩
    exact ((h.2 c hc).2.2).2 ⟨h1, h2, (hth c).2 h3⟩

theorem mem_valueTypes (E : Env T) (t v : T) : v ∈ valueTypes E t ↔ Gives E t v := by
  unfold valueTypes Gives
  cases h1 : E.isTuple t <;> simp
  cases h2 : E.numberIndex t with
  | some w => simp [eq_comm]
  | none => cases h3 : E.typeArgs t <;> simp [eq_comm]

theorem isAggregator_iff (c : Callee) : isAggregator c = true ↔ Aggregates c := by
  obtain ⟨n, b⟩ := c
  cases n with
  | none => simp [isAggregator, Aggregates]
  | some n =>
    simp only [isAggregator, Aggregates, aggregatorMethods]
    by_cases h : ["all", "allSettled", "any", "race"].contains n = true
    · simp only [h, Bool.not_true, Bool.false_eq_true, if_false, Option.some.injEq]
      simp only [List.contains_eq_mem, List.mem_cons, List.not_mem_nil, or_false, decide_eq_true_eq] at h
      exact ⟨fun hb => ⟨hb, h⟩, fun hb => hb.1⟩
    · simp only [h, Bool.not_false, if_true, Bool.false_eq_true, Option.some.injEq, false_iff]
      simp only [List.contains_eq_mem, List.mem_cons, List.not_mem_nil, or_false, decide_eq_true_eq] at h
      exact fun hb => h hb.2

theorem lacksSymbol_iff (E : Env T) (name : String) (t : T) : lacksSymbol E name t = true ↔ Lacks E name t := by
  unfold lacksSymbol Lacks
  cases h : E.then_.shape t <;> simp [unionParts, UnionPart, h]

/-- `await e` is reported, at its token, exactly if `e` is certainly no promise. -/
theorem C64_await (E : Env T) (token : Nat × Nat) (e : Node T) :
    (NeverAwaitable E e.type → ∃ d, onAwait E token e = [d] ∧ d.message = .await_ ∧ d.range = token ∧ d.label = (e.pos, e.stop)) ∧
    (¬ NeverAwaitable E e.type → onAwait E token e = []) := by
  rw [← never_iff]
  constructor
  · intro h; simp [onAwait, h]
  · intro h; simp [onAwait, h]

/-- An element of an array literal given to `Promise.all`, `.allSettled`, `.any` or `.race` is reported exactly if each part of its type is
certainly no promise; elements are reported in order, and elements left out never. -/
theorem C64_elements (E : Env T) (callee : Callee) (array : Node T) (elements : List (Option (Node T))) (rest : List (Argument T)) :
    (¬ Aggregates callee → onCall E callee (.literal array elements :: rest) = []) ∧
    (Aggregates callee → ∃ es : List (Node T), es.Sublist (elements.filterMap id) ∧
      (onCall E callee (.literal array elements :: rest)).map (·.range) = es.map (fun e => (e.pos, e.stop)) ∧
      (∀ d ∈ onCall E callee (.literal array elements :: rest), d.message = .aggregator ∧ d.label = d.range ∧ d.extra = [(array.pos, array.stop)] ∧ d.suggestions = []) ∧
      ∀ e, e ∈ es ↔ some e ∈ elements ∧ ∀ p, UnionPart E.then_.shape e.constrained p → NeverAwaitable E p) := by
  rw [← isAggregator_iff]
  constructor
  · intro h; simp [onCall, h]
  · intro h
    simp only [onCall, h, Bool.not_true, Bool.false_eq_true, if_false]
    have hall : ∀ e : Node T, isAlwaysNonAwaitable E e.constrained = true ↔ ∀ p, UnionPart E.then_.shape e.constrained p → NeverAwaitable E p := by
      intro e
      simp only [isAlwaysNonAwaitable, List.all_eq_true, mem_unionParts, never_iff]
    refine ⟨(elements.filterMap id).filter fun e => isAlwaysNonAwaitable E e.constrained, List.filter_sublist, ?_, ?_, ?_⟩
    · clear h
      induction elements with
      | nil => rfl
      | cons x es ih => cases x with
        | none => simpa [elementDiags] using ih
        | some e =>
          simp only [elementDiags, List.filterMap_cons, id_eq, List.filter_cons]
          split <;> simp [*]
    · clear h
      induction elements with
      | nil => simp [elementDiags]
      | cons x es ih => cases x with
        | none => simpa [elementDiags] using ih
        | some e =>
          simp only [elementDiags]
          split
          · intro d hd
            rcases List.mem_cons.1 hd with rfl | hd
            · exact ⟨rfl, rfl, rfl, rfl⟩
            · exact ih d hd
          · exact ih
    · intro e
      simp [hall]

/-- Any other argument given to them is reported exactly if each part of its type is iterable and one of the parts gives values of a type of
which one part is certainly no promise. -/
theorem C64_argument (E : Env T) (callee : Callee) (argument : Node T) (rest : List (Argument T)) :
    (∃ d, onCall E callee (.other argument :: rest) = [d] ∧ d.message = .aggregator ∧ d.range = (argument.pos, argument.stop)) ∧
      Aggregates callee ∧ (∀ p, UnionPart E.then_.shape argument.constrained p → E.hasSymbol "iterator" p = true) ∧
        (∃ p v q, UnionPart E.then_.shape argument.constrained p ∧ Gives E p v ∧ UnionPart E.then_.shape v q ∧ NeverAwaitable E q) ∨
    onCall E callee (.other argument :: rest) = [] ∧
      ¬ (Aggregates callee ∧ (∀ p, UnionPart E.then_.shape argument.constrained p → E.hasSymbol "iterator" p = true) ∧
        ∃ p v q, UnionPart E.then_.shape argument.constrained p ∧ Gives E p v ∧ UnionPart E.then_.shape v q ∧ NeverAwaitable E q) := by
  rw [← isAggregator_iff]
  have hit : isIterable E argument.constrained = true ↔ ∀ p, UnionPart E.then_.shape argument.constrained p → E.hasSymbol "iterator" p = true := by
    simp only [isIterable, List.all_eq_true, mem_unionParts]
  have hany : ((unionParts E.then_.shape argument.constrained).any fun part => (valueTypes E part).any (containsNonAwaitable E)) = true ↔
      ∃ p v q, UnionPart E.then_.shape argument.constrained p ∧ Gives E p v ∧ UnionPart E.then_.shape v q ∧ NeverAwaitable E q := by
    simp only [List.any_eq_true, mem_unionParts, mem_valueTypes, containsNonAwaitable, never_iff]
    constructor
    · rintro ⟨p, hp, v, hv, q, hq, hn⟩; exact ⟨p, v, q, hp, hv, hq, hn⟩
    · rintro ⟨p, v, q, hp, hv, hq, hn⟩; exact ⟨p, hp, v, hv, q, hq, hn⟩
  rw [← hit, ← hany]
  clear hit hany
  cases h1 : isAggregator callee with
  | false => simp [onCall, h1]
  | true =>
    cases h2 : isIterable E argument.constrained with
    | false => simp [onCall, h1, isInvalidInput, h2]
    | true =>
      cases h3 : (unionParts E.then_.shape argument.constrained).any fun part => (valueTypes E part).any (containsNonAwaitable E) with
      | false => simp [onCall, h1, isInvalidInput, h2, h3]
      | true => simp [onCall, h1, isInvalidInput, h2, h3]

/-- `for await (… of e)` is reported exactly if `e` is not `any` and no part of its type is async iterable; a plain `for … of` never. -/
theorem C64_for_await (E : Env T) (m head : Nat × Nat) (e : Node T) :
    onForOf E none head e = [] ∧ (¬ Lacks E "asyncIterator" e.type → onForOf E (some m) head e = []) ∧
    (Lacks E "asyncIterator" e.type → onForOf E (some m) head e =
      [{ message := .forAwaitOf, range := head, label := (e.pos, e.stop), suggestions := [[⟨[], m.1, m.2⟩]] }]) := by
  rw [← lacksSymbol_iff]
  refine ⟨rfl, fun h => by simp [onForOf, h], fun h => by simp [onForOf, h]⟩

/-- In `await using a = …, b = …` exactly the initializers are reported that are not `any` and of whose type no part is async disposable; it is
suggested to remove `await` only if there is no other declaration. -/
theorem C64_await_using (E : Env T) (token : Nat × Nat) (inits : List (Option (Node T))) :
    onDeclarations E false token inits = [] ∧
    (∀ r, r ∈ (onDeclarations E true token inits).map (·.range) ↔ ∃ i, some i ∈ inits ∧ Lacks E "asyncDispose" i.type ∧ r = (i.pos, i.stop)) ∧
    ∀ d ∈ onDeclarations E true token inits, d.message = .awaitUsing ∧ (inits.length ≠ 1 → d.suggestions = []) ∧
      (inits.length = 1 → d.suggestions = [[⟨[], token.1, token.2⟩]]) := by
  refine ⟨rfl, ?_, ?_⟩
  · intro r
    simp only [onDeclarations, Bool.not_true, Bool.false_eq_true, if_false, List.mem_map, List.mem_flatMap]
    constructor
    · rintro ⟨d, ⟨x, hx, hd⟩, rfl⟩
      cases x with
      | none => simp [declarationDiags] at hd
      | some i =>
        simp only [declarationDiags] at hd
        split at hd
        · next h => simp only [List.mem_singleton] at hd; subst hd; exact ⟨i, hx, (lacksSymbol_iff ..).1 h, rfl⟩
        · cases hd
    · rintro ⟨i, hi, hl, rfl⟩
      refine ⟨{ message := .awaitUsing, range := (i.pos, i.stop), label := (i.pos, i.stop), suggestions := if inits.length = 1 then [[⟨[], token.1, token.2⟩]] else [] }, ⟨some i, hi, ?_⟩, ?_⟩
      · simp [declarationDiags, (lacksSymbol_iff ..).2 hl]
      · rfl
  · intro d hd
    simp only [onDeclarations, Bool.not_true, Bool.false_eq_true, if_false, List.mem_flatMap] at hd
    obtain ⟨x, -, hd⟩ := hd
    cases x with
    | none => simp [declarationDiags] at hd
    | some i =>
      simp only [declarationDiags] at hd
      split at hd
      · simp only [List.mem_singleton] at hd; subst hd; simp +contextual
      · cases hd

/-- Each suggestion removes exactly the word `await`. -/
theorem C64_fix (E : Env T) (pre post : Bytes) (e : Node T) (inits : Option (Node T)) (head : Nat × Nat) :
    let token := (pre.length, (pre ++ ascii "await").length)
    ∀ d ∈ onAwait E token e ++ onForOf E (some token) head e ++ onDeclarations E true token [inits], ∀ s ∈ d.suggestions,
      AppliesTo (pre ++ ascii "await" ++ post) s (pre ++ post) := by
  intro token d hd s hs
  have key : AppliesTo (pre ++ ascii "await" ++ post) [⟨[], token.1, token.2⟩] (pre ++ post) := by
    have := Seg.applies_sorted [.keep pre, .sub (ascii "await") [], .keep post]
    simpa [Seg.old, Seg.new, Seg.edits, token, List.append_assoc, Nat.add_assoc] using this
  simp only [List.mem_append] at hd
  have : s = [⟨[], token.1, token.2⟩] := by
    rcases hd with (hd | hd) | hd
    · simp only [onAwait] at hd
      split at hd
      · simp only [List.mem_singleton] at hd; subst hd; simpa using hs
      · cases hd
    · simp only [onForOf] at hd
      split at hd
      · simp only [List.mem_singleton] at hd; subst hd; simpa using hs
      · cases hd
    · have := ((C64_await_using E token [inits]).2.2 d hd).2.2 rfl
      rw [this] at hs; simpa using hs
  rw [this]; exact key

/-! ## Cases: 0 = number, 1 = Promise (its `then` is 2, whose first parameter is the function 3), 4 = any, 5 = 0 | 1, 6 = Array<5>,
7 = a type parameter extending number, 8 = a class `X<number>` that gives promises when iterated, 9 = [Promise] -/

def sample : Env Nat where
  then_ := { shape := fun t => if t = 4 then .any else if t = 5 then .union [0, 1] else if t = 7 then .param (some 0) else .other
             apparent := id
             thenOf := fun t => if t = 1 then some 2 else none
             calls := fun t => if t = 2 then [some (some 3)] else if t = 3 then [none] else [] }
  isTuple := fun t => t == 9
  typeArgs := fun t => if t = 6 then [5] else if t = 8 then [0] else if t = 9 then [1] else []
  numberIndex := fun t => if t = 6 then some 5 else if t = 9 then some 1 else none
  hasSymbol := fun name t => (name == "iterator" && [6, 8, 9].contains t)

def node (t : Nat) : Node Nat := ⟨10 * t, 10 * t + 1, t, t⟩

example : ((List.range 10).filter fun t => (onAwait sample (0, 5) (node t)).length = 1) = [0, 2, 3, 6, 7, 8, 9] := by decide
example : NeverAwaitable sample 7 := (never_iff ..).1 (by decide)
example : ¬ NeverAwaitable sample 5 := fun h => absurd ((never_iff ..).2 h) (by decide)
example : (onCall sample ⟨some "race", true⟩ [.literal (node 6) [some (node 0), none, some (node 1), some (node 5), some (node 7)]]).map (·.range) =
    [(0, 1), (70, 71)] := by decide
example : ((List.range 10).filter fun t => (onCall sample ⟨some "all", true⟩ [.other (node t)]).length = 1) = [6, 8] := by decide
example : Aggregates ⟨some "all", true⟩ := by simp [Aggregates]
example : Gives sample 6 5 ∧ UnionPart sample.then_.shape 5 0 := ⟨.inr (.inl ⟨rfl, rfl⟩), .inl ⟨[0, 1], rfl, by simp⟩⟩
example : Lacks sample "asyncIterator" 5 := ⟨by simp [sample], fun _ _ => rfl⟩
example : ((onDeclarations sample true (0, 5) [some (node 0), none, some (node 4)]).map (·.range)) = [(0, 1)] := by decide

/-- An iterable that is neither an array nor a tuple is judged by its first type argument, whatever its iterator gives: with one class and two
possible iterators the answer is the same. -/
theorem C64_hazard_iterable (E : Env T) (callee : Callee) (argument : Node T) (a : T) (as : List T)
    (hp : unionParts E.then_.shape argument.constrained = [argument.constrained]) (ht : E.isTuple argument.constrained = false)
    (hn : E.numberIndex argument.constrained = none) (ha : E.typeArgs argument.constrained = a :: as)
    (hc : Aggregates callee) (hi : E.hasSymbol "iterator" argument.constrained = true) :
    (onCall E callee [.other argument] ≠ [] ↔ ∃ q, UnionPart E.then_.shape a q ∧ NeverAwaitable E q) := by
  have hc' := (isAggregator_iff callee).2 hc
  have : containsNonAwaitable E a = true ↔ ∃ q, UnionPart E.then_.shape a q ∧ NeverAwaitable E q := by
    simp only [containsNonAwaitable, List.any_eq_true, mem_unionParts, never_iff]
  rw [← this]
  simp [onCall, hc', isInvalidInput, isIterable, hp, hi, valueTypes, ht, hn, ha]

example : onCall sample ⟨some "all", true⟩ [.other (node 8)] ≠ [] := by decide

/-- Removing `await` can join two statements: `f` and `await (x)` on two lines become a call of `f`. -/
theorem C64_hazard_lines :
    AppliesTo (ascii "f\nawait (x)") [⟨[], 2, 7⟩] (ascii "f\n (x)") := by
  have := Seg.applies_sorted [.keep (ascii "f\n"), .sub (ascii "await") [], .keep (ascii " (x)")]
  exact this

end Tsgolint.AwaitThenable
