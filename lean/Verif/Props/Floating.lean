import Verif.Proof.Floating
import Verif.Proof.StableFix
/-! # C63: no-floating-promises -/
namespace Tsgolint.Floating
open Tsgolint.Fixer

/-- A statement is reported exactly if it may drop a promise (or an array of promises) that nobody takes care of. -/
theorem C63_floating (o : Opts) (s : Statement) (hs : Spine o (skipParens s.expression)) :
    (∃ m, report o s = some m) ↔
      ¬ (o.ignoreIIFE = true ∧ s.isIife = true) ∧ s.isKnownSafe = false ∧ ∃ array, Drops o s.expression array := by
  unfold report
  by_cases h1 : (o.ignoreIIFE && s.isIife) = true
  · rw [if_pos h1]
    simp only [Bool.and_eq_true] at h1
    simp [h1]
  · rw [if_neg h1]
    have h1' : ¬ (o.ignoreIIFE = true ∧ s.isIife = true) := by simpa using h1
    cases hk : s.isKnownSafe with
    | true => simp
    | false =>
      simp only [Bool.false_eq_true, if_false]
      cases hu : isUnhandledPromise o (skipParens s.expression) with
      | none =>
        simp only [reduceCtorEq, exists_false, false_iff]
        rintro ⟨-, -, a, h⟩
        exact complete_spine o _ a hs ((drops_skip ..).2 h) hu
      | some u =>
        simp only [Option.some.injEq, exists_eq', true_iff]
        exact ⟨h1', trivial, u.promiseArray, (drops_skip ..).1 (sound_spine o _ u hs hu)⟩

/-- The messages about arrays are about arrays, the others about promises. -/
theorem C63_messages (o : Opts) (s : Statement) (hs : Spine o (skipParens s.expression)) (m : Message) (h : report o s = some m) :
    Drops o s.expression (decide (m = .floatingPromiseArray ∨ m = .floatingPromiseArrayVoid)) ∧
    (o.ignoreVoid = true ↔ m = .floatingVoid ∨ m = .floatingPromiseArrayVoid ∨ m = .floatingUselessRejectionHandlerVoid) := by
  unfold report at h
  split at h
  · cases h
  · split at h
    · cases h
    · split at h
      · cases h
      · next u hu =>
        have := (drops_skip ..).1 (sound_spine o _ u hs hu)
        simp only [Option.some.injEq] at h
        subst h
        obtain ⟨a, hd⟩ := u
        cases a <;> cases hv : o.ignoreVoid <;> cases hd <;> simp at this ⊢ <;> exact this

/-- A useless handler is named only if a `catch` or `then` has a handler that is not a function, at a certain position. -/
theorem C63_handler (o : Opts) (t : NodeType) (name : String) (x : Expr) (args : List Arg) (i : Nat) (hne : name ≠ "finally")
    (h : isUnhandledPromise o (.method t name x args) = some { handler := some i }) :
    ((name = "catch" ∧ i = 0) ∨ (name = "then" ∧ i = 1)) ∧ ∃ a, args[i]? = some a ∧ a.callable = false ∧ ∀ b ∈ args.take (i + 1), b.isSpread = false := by
  rw [isUnhandledPromise] at h
  have key : ∀ j, handlerAt args j = some { handler := some i } → j = i ∧ ∃ a, args[i]? = some a ∧ a.callable = false ∧ ∀ b ∈ args.take (i + 1), b.isSpread = false := by
    intro j hj
    unfold handlerAt at hj
    split at hj
    · cases hj
    · next hk =>
      split at hj
      · cases hj
      · next hc =>
        cases hj
        refine ⟨rfl, ?_⟩
        simp only [Bool.not_eq_true', Bool.not_eq_false, isKnownArgumentAt] at hk
        split at hk
        · cases hk
        · next hl =>
          have hlt : i < args.length := by omega
          refine ⟨args[i], by simp [hlt], ?_, ?_⟩
          · simpa [hlt] using hc
          · simpa using hk
  rcases typed_some h with ⟨-, h⟩ | ⟨-, h⟩
  · cases h
  · split at h
    · next hc => obtain ⟨rfl, h'⟩ := key _ h; exact ⟨.inl ⟨hc.1, rfl⟩, h'⟩
    · split at h
      · next hc => obtain ⟨rfl, h'⟩ := key _ h; exact ⟨.inr ⟨hc.1, rfl⟩, h'⟩
      · simp [hne] at h

theorem known_only (args : List Arg) (i : Nat) : isKnownArgumentAt args i = true ↔
    ∃ before a after, args = before ++ a :: after ∧ before.length = i ∧ a.isSpread = false ∧ ∀ b ∈ before, b.isSpread = false := by
  unfold isKnownArgumentAt
  constructor
  · intro h1
    split at h1
    · cases h1
    · next hl =>
      have hlt : i < args.length := by omega
      simp only [Bool.not_eq_true', List.any_eq_false] at h1
      refine ⟨args.take i, args[i], args.drop (i + 1), by simp, by simp; omega, ?_, ?_⟩
      · have := h1 args[i] (by rw [List.mem_take_iff_getElem]; exact ⟨i, by omega, rfl⟩)
        simpa using this
      · intro b hb
        have := h1 b (List.take_subset_take_left args (by omega) hb)
        simpa using this
  · rintro ⟨before, a, after, rfl, rfl, hs, hb⟩
    have hl : ¬ (before ++ a :: after).length ≤ before.length := by simp
    rw [if_neg hl]
    simp only [Bool.not_eq_true', List.any_eq_false]
    intro x hx
    have : (before ++ a :: after).take (before.length + 1) = before ++ [a] := by
      rw [List.take_append]; simp [List.take_of_length_le]
    rw [this] at hx
    rcases List.mem_append.1 hx with hx | hx
    · simp [hb x hx]
    · simp at hx; simp [hx, hs]

theorem handlerAt_useless (args : List Arg) (i : Nat) : handlerAt args i = some { handler := some i } ↔ NonFunctionAt args i := by
  unfold handlerAt NonFunctionAt
  constructor
  · intro h
    by_cases hk : isKnownArgumentAt args i = true
    · obtain ⟨b, a, c, h1, h2, h3, h4⟩ := (known_only args i).1 hk
      refine ⟨b, a, c, h1, h2, ?_, h3, h4⟩
      subst h1; subst h2
      rw [hk] at h
      cases ha : a.callable with
      | false => rfl
      | true => simp [ha] at h
    · have hk' : isKnownArgumentAt args i = false := by simpa using hk
      rw [hk'] at h
      simp at h
  · rintro ⟨b, a, c, h1, h2, h3, h4, h5⟩
    rw [(known_only args i).2 ⟨b, a, c, h1, h2, h4, h5⟩]
    subst h1; subst h2
    simp [h3]

/-- The message about a useless handler: a statement `x.catch(…)` or `x.then(_, …)` that is a promise gets it exactly if what is surely the handler is no function; it gets the plain
message exactly if it cannot be known (a spread) what the handler is. -/
theorem C63_useless (o : Opts) (s : Statement) (t : NodeType) (name : String) (x : Expr) (args : List Arg) (i : Nat) (he : skipParens s.expression = .method t name x args)
    (hn : (name = "catch" ∧ i = 0) ∨ (name = "then" ∧ i = 1)) (hl : i < args.length) (hp : PromiseLike o t.self) (ha : ¬ PromiseArray o t)
    (h1 : (o.ignoreIIFE && s.isIife) = false) (h2 : s.isKnownSafe = false) :
    (report o s = some (if o.ignoreVoid then .floatingUselessRejectionHandlerVoid else .floatingUselessRejectionHandler) ↔ NonFunctionAt args i) ∧
    (report o s = some (if o.ignoreVoid then .floatingVoid else .floating) ↔ ¬ NonFunctionAt args i ∧ ¬ FunctionAt args i) ∧
    (report o s = none ↔ FunctionAt args i) := by
  have hu : isUnhandledPromise o (.method t name x args) = handlerAt args i := by
    have hp' := (isPromiseLike_iff o t.self).2 hp
    have ha' : isPromiseArray o t = false := by rw [← Bool.not_eq_true, isPromiseArray_iff]; exact ha
    unfold isUnhandledPromise
    simp only [hp', ha', Bool.not_true, Bool.false_eq_true, if_false]
    rcases hn with ⟨rfl, rfl⟩ | ⟨rfl, rfl⟩
    · rw [if_pos ⟨rfl, hl⟩]
    · rw [if_neg (by simp), if_pos ⟨rfl, hl⟩]
  rw [← handlerAt_useless, ← handlerAt_none]
  unfold report
  rw [if_neg (by simp [h1]), if_neg (by simp [h2]), he, hu]
  have hc : handlerAt args i = none ∨ handlerAt args i = some {} ∨ handlerAt args i = some { handler := some i } := by
    unfold handlerAt
    cases isKnownArgumentAt args i <;> cases (args[i]?.map (·.callable)).getD false <;> simp
  rcases hc with h | h | h <;> rw [h] <;> cases o.ignoreVoid <;> simp

/-- The suggestions: `await e` and `void e`, with parentheses around the whole expression unless it binds more tightly; `void e` becomes `await e`. -/
theorem C63_fix (keyword : String) (pre expr post : Bytes) (higher : Bool) :
    AppliesTo (pre ++ expr ++ post) (keywordFix keyword none higher pre.length (pre ++ expr).length)
      (pre ++ ascii keyword ++ (if higher then ascii " " ++ expr else ascii " (" ++ expr ++ ascii ")") ++ post) := by
  cases higher with
  | true =>
    have := Seg.applies_sorted [.keep pre, .sub [] (ascii keyword ++ ascii " "), .keep expr, .keep post]
    simpa [Seg.old, Seg.new, Seg.edits, keywordFix, List.append_assoc, Nat.add_assoc] using this
  | false =>
    have := Seg.applies_sorted [.keep pre, .sub [] (ascii keyword ++ ascii " ("), .keep expr, .sub [] (ascii ")"), .keep post]
    simpa [Seg.old, Seg.new, Seg.edits, keywordFix, List.append_assoc, Nat.add_assoc] using this

theorem C63_fix_void (pre post : Bytes) (higher : Bool) (stmt exprEnd : Nat) :
    AppliesTo (pre ++ ascii "void" ++ post) (keywordFix "await" (some (pre.length, (pre ++ ascii "void").length)) higher stmt exprEnd)
      (pre ++ ascii "await" ++ post) := by
  have := Seg.applies_sorted [.keep pre, .sub (ascii "void") (ascii "await"), .keep post]
  simpa [Seg.old, Seg.new, Seg.edits, keywordFix, List.append_assoc, Nat.add_assoc] using this

/-! ## Cases -/

def promise : NodeType := { self := { parts := [{ isPromise := true }] } }
def array : NodeType := { arrays := [(some { parts := [{ isPromise := true }] }, none)] }
def number : NodeType := { self := { parts := [{}] } }
def p : Expr := .other promise
def f : Arg := { callable := true }

theorem like_promise (o : Opts) : PromiseLike o promise.self := ⟨rfl, _, List.mem_singleton.2 rfl, .inl rfl⟩
theorem not_like_number (o : Opts) : ¬ PromiseLike o number.self := by
  rw [← isPromiseLike_iff]; cases h : o.checkThenables <;> simp [isPromiseLike, number, h, hasRejectableThen]
theorem not_array_number (o : Opts) : ¬ PromiseArray o number := by simp [PromiseArray, number]
theorem not_array_promise (o : Opts) : ¬ PromiseArray o promise := by simp [PromiseArray, promise]

/-- `p.catch(f), (c ? p : 1)`; `p.then(g, 3).finally(f)` -/
example : Spine {} (.comma number (.method promise "catch" p [f]) (.conditional promise p (.other number))) :=
  ⟨⟨fun _ _ => like_promise _, fun h => absurd h (by decide)⟩,
   ⟨⟨⟨fun _ => .inl (like_promise _), fun _ => like_promise _⟩,
     ⟨fun h => absurd h (not_array_promise _), fun h => h.elim (fun h => absurd h (not_array_promise _)) (fun h => absurd h (not_array_number _))⟩⟩, trivial, trivial⟩⟩
example : report {} { expression := .comma number (.method promise "catch" p [f]) (.conditional promise p (.other number)) } = some .floatingVoid := by decide
example : report {} { expression := .method promise "catch" p [f] } = none := by decide
example : report { ignoreVoid := false } { expression := .method promise "finally" (.method promise "then" p [f, {}]) [f] } =
    some .floatingUselessRejectionHandler := by decide
example : report {} { expression := .other array } = some .floatingPromiseArrayVoid := by decide
example : report {} { expression := .voidOf number p } = none := by decide
example : isUnhandledPromise {} (.method promise "then" p [f, {}]) = some { handler := some 1 } := by decide

/-- `c ? (p.catch(f)) : (p.catch(f))` and `(p.catch(f)).finally(f)` are reported: parentheses below the top are not looked through, though every
promise is handled. -/
theorem C63_hazard_parens (o : Opts) :
    report o { expression := .conditional promise (.paren promise (.method promise "catch" p [f])) (.paren promise (.method promise "catch" p [f])) } ≠ none ∧
    report o { expression := .method promise "finally" (.paren promise (.method promise "catch" p [f])) [f] } ≠ none ∧
    ∀ b, ¬ Drops o (.method promise "catch" p [f]) b := by
  have hp := (isPromiseLike_iff o _).2 (like_promise o)
  have ha : isPromiseArray o promise = false := by
    cases h : isPromiseArray o promise
    · rfl
    · exact absurd ((isPromiseArray_iff ..).1 h) (not_array_promise o)
  refine ⟨?_, ?_, ?_⟩
  · simp [report, skipParens, isUnhandledPromise, hp, ha]
  · simp [report, skipParens, isUnhandledPromise, hp, ha]
  · intro b h
    refine drops_flat_complete o (.method promise "catch" p [f]) ⟨fun _ _ => like_promise o, fun h => absurd h (by decide)⟩ b h ?_
    rw [isUnhandledPromise, typed_none]
    exact ⟨not_array_promise o, fun _ => by simp [handlerAt, isKnownArgumentAt, f]⟩

/-- `c ? (p, 1) : 1`, or `(p, 1) || 1`: a promise dropped inside a choice whose type is no promise is not reported. -/
theorem C63_hazard_comma (o : Opts) :
    report o { expression := .conditional number (.comma number p (.other number)) (.other number) } = none ∧
    Drops o (.conditional number (.comma number p (.other number)) (.other number)) false := by
  have hn : isPromiseLike o number.self = false := by
    cases h : isPromiseLike o number.self
    · rfl
    · exact absurd ((isPromiseLike_iff ..).1 h) (not_like_number o)
  have ha : isPromiseArray o number = false := by
    cases h : isPromiseArray o number
    · rfl
    · exact absurd ((isPromiseArray_iff ..).1 h) (not_array_number o)
  refine ⟨?_, _, _, .whenTrue _ (.comma _ (.otherPromise (like_promise o)) (.other _)), by simp⟩
  simp [report, skipParens, isUnhandledPromise, hn, ha]

/-- `foo.finally()` where `foo` is no promise but the result is one: not reported. -/
theorem C63_hazard_finally (o : Opts) :
    report o { expression := .method promise "finally" (.other number) [] } = none ∧ Drops o (.method promise "finally" (.other number) []) false := by
  have hp := (isPromiseLike_iff o _).2 (like_promise o)
  have ha : isPromiseArray o promise = false := by
    cases h : isPromiseArray o promise
    · rfl
    · exact absurd ((isPromiseArray_iff ..).1 h) (not_array_promise o)
  have hn : isPromiseLike o number.self = false := by
    cases h : isPromiseLike o number.self
    · rfl
    · exact absurd ((isPromiseLike_iff ..).1 h) (not_like_number o)
  have ha' : isPromiseArray o number = false := by
    cases h : isPromiseArray o number
    · rfl
    · exact absurd ((isPromiseArray_iff ..).1 h) (not_array_number o)
  refine ⟨?_, _, _, .methodForeign (like_promise o) (not_like_number o), by simp⟩
  simp [report, skipParens, isUnhandledPromise, hn, ha, hp, ha']

/-- `c ? x = [p] : 1`: an array that is stored is reported. -/
theorem C63_hazard_stored : report {} { expression := .conditional array (.assignment array) (.other number) } = some .floatingPromiseArrayVoid ∧
    Ev {} (.conditional array (.assignment array) (.other number)) .handled [] := ⟨by decide, .whenTrue _ (.assignment _)⟩

/-- `p.catch(1)` and `p.catch(...a)`: the hypotheses can be met -/
example : NonFunctionAt [{}] 0 ∧ FunctionAt [{ callable := true }] 0 ∧ (¬ NonFunctionAt [{ isSpread := true }] 0 ∧ ¬ FunctionAt [{ isSpread := true }] 0) ∧
    PromiseLike {} promise.self ∧ ¬ PromiseArray {} promise := by
  refine ⟨⟨[], _, [], rfl, rfl, rfl, rfl, by simp⟩, ⟨[], _, [], rfl, rfl, rfl, rfl, by simp⟩, ⟨?_, ?_⟩, like_promise _, not_array_promise _⟩
  · rw [← handlerAt_useless]; decide
  · rw [← handlerAt_none]; decide

end Tsgolint.Floating
