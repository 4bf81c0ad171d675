import Verif.Spec.RemoveAsync
import Verif.Props.RequireAwait
import Verif.Proof.StableFix

/-! # C138: require-await, the suggestion to remove `async` -/

namespace Tsgolint.RemoveAsync

open RequireAwait
open Tsgolint.Fixer (Fix Bytes ascii AppliesTo Seg Shuffle)

theorem methodLike_iff (k : Kind) : isMethodLike k = true ↔ Self k := by
  cases k <;> simp [isMethodLike, Self]

theorem go_iff (node : Nat) : ∀ (ms : List Kind) (i : Nat) (prev : Option Kind), i ≤ node →
    (previousIsMethodLike.go node i prev ms = true ↔
      ∃ m, (node = i ∧ ms ≠ [] ∧ prev = some m ∨ i < node ∧ node - i < ms.length ∧ ms[node - i - 1]? = some m) ∧ Self m)
  | [], i, prev, _ => by simp [previousIsMethodLike.go]
  | k :: ms, i, prev, hi => by
    unfold previousIsMethodLike.go
    by_cases h : i = node
    · rw [if_pos h]
      subst h
      cases prev with
      | none => simp
      | some m => simp [methodLike_iff]
    · rw [if_neg h, go_iff node ms (i + 1) (some k) (by omega)]
      constructor
      · rintro ⟨m, (⟨h1, h2, h3⟩ | ⟨h1, h2, h3⟩), hm⟩
        · refine ⟨m, .inr ⟨by omega, ?_, ?_⟩, hm⟩
          · have := List.length_pos_iff.2 h2
            simp only [List.length_cons]; omega
          · rw [show node - i - 1 = 0 by omega]
            exact h3
        · refine ⟨m, .inr ⟨by omega, by simp only [List.length_cons]; omega, ?_⟩, hm⟩
          rw [show node - i - 1 = (node - (i + 1) - 1) + 1 by omega, List.getElem?_cons_succ]
          exact h3
      · rintro ⟨m, (⟨h1, _⟩ | ⟨h1, h2, h3⟩), hm⟩
        · exact absurd h1.symm h
        · refine ⟨m, ?_, hm⟩
          simp only [List.length_cons] at h2
          by_cases hn : node = i + 1
          · left
            refine ⟨hn, ?_, ?_⟩
            · rw [← List.length_pos_iff]; omega
            · rw [show node - i - 1 = 0 by omega] at h3
              exact h3
          · right
            refine ⟨by omega, by omega, ?_⟩
            rw [show node - i - 1 = (node - (i + 1) - 1) + 1 by omega, List.getElem?_cons_succ] at h3
            exact h3

theorem previous_iff (ms : List Kind) (node : Nat) : previousIsMethodLike ms node = true ↔
    ∃ i m, node = i + 1 ∧ ms[i]? = some m ∧ i + 1 < ms.length ∧ Self m := by
  unfold previousIsMethodLike
  rw [go_iff node ms 0 none (Nat.zero_le _)]
  constructor
  · rintro ⟨m, (⟨_, _, h⟩ | ⟨h1, h2, h3⟩), hm⟩
    · exact nomatch h
    · exact ⟨node - 1, m, by omega, by simpa using h3, by omega, hm⟩
  · rintro ⟨i, m, rfl, h1, h2, hm⟩
    exact ⟨m, .inr ⟨by omega, by omega, by simpa using h1⟩, hm⟩

theorem afterMember_iff (p : Place) : afterMember p.parent = true ↔ FollowsMethod p := by
  unfold FollowsMethod
  constructor
  · intro h
    cases hp : p.parent with
    | classLike ms node =>
      rw [hp] at h
      cases ms with
      | none => exact nomatch h
      | some ms =>
        obtain ⟨i, m, rfl, h1, h2, h3⟩ := (previous_iff ms node).1 h
        exact ⟨ms, i, m, .inl rfl, h1, h2, h3⟩
    | objectLiteral ms node =>
      rw [hp] at h
      cases ms with
      | none => exact nomatch h
      | some ms =>
        obtain ⟨i, m, rfl, h1, h2, h3⟩ := (previous_iff ms node).1 h
        exact ⟨ms, i, m, .inr rfl, h1, h2, h3⟩
    | other => rw [hp] at h; exact nomatch h
    | none => rw [hp] at h; exact nomatch h
  · rintro ⟨ms, i, k, (hp | hp), h1, h2, h3⟩ <;> rw [hp] <;> exact (previous_iff ms (i + 1)).2 ⟨i, k, rfl, h1, h2, h3⟩

theorem atStart_iff (start : Nat) : ∀ as : List Ancestor, atStart start as = true ↔
    ∃ inner s outer, as = inner ++ s :: outer ∧ s.isStatement = true ∧ ∀ a ∈ inner ++ [s], a.pos = start
  | [] => by simp [atStart]
  | a :: as => by
    unfold atStart
    by_cases hp : a.pos = start
    · rw [if_pos hp]
      by_cases hs : a.isStatement = true
      · rw [if_pos hs]
        refine ⟨fun _ => ⟨[], a, as, rfl, hs, ?_⟩, fun _ => rfl⟩
        intro b hb
        rw [List.nil_append, List.mem_singleton] at hb
        rw [hb, hp]
      · rw [if_neg hs, atStart_iff start as]
        constructor
        · rintro ⟨inner, s, outer, rfl, h1, h2⟩
          refine ⟨a :: inner, s, outer, rfl, h1, ?_⟩
          intro b hb
          rcases List.mem_cons.1 hb with rfl | hb
          · exact hp
          · exact h2 b hb
        · rintro ⟨inner, s, outer, he, h1, h2⟩
          cases inner with
          | nil =>
            obtain ⟨rfl, _⟩ := List.cons.inj he
            exact absurd h1 hs
          | cons b inner =>
            obtain ⟨rfl, rfl⟩ := List.cons.inj he
            exact ⟨inner, s, outer, rfl, h1, fun c hc => h2 c (List.mem_cons_of_mem _ hc)⟩
    · rw [if_neg hp]
      refine ⟨fun h => absurd h Bool.false_ne_true, ?_⟩
      rintro ⟨inner, s, outer, he, _, h2⟩
      refine absurd (h2 a ?_) hp
      cases inner with
      | nil => obtain ⟨rfl, _⟩ := List.cons.inj he; exact List.mem_singleton.2 rfl
      | cons b inner => obtain ⟨rfl, _⟩ := List.cons.inj he; exact List.mem_cons_self

/-- C138: the names looked for are those of the built-in types, alone or after `globalThis.` -/
theorem C138_named (name : String) (t : TypeName) : named name t = true ↔ t = .ident name ∨ t = .qualified (some "globalThis") name := by
  cases t with
  | ident n => simp [named]
  | qualified l r => simp [named, and_comm]
  | other => simp [named]

/-- the semicolon that is left in the place of `async` -/
def semicolon (p : Place) : Bool := p.next.joins && ((atStart p.start p.ancestors || isMethodLike p.kind) && needsPrecedingSemicolon p.before (afterMember p.parent))

theorem isSpace_iff (c : UInt8) : isSpace c = true ↔ Blank c := by
  unfold isSpace Blank
  rw [show ascii " \t\n\r" = [32, 9, 10, 13] by decide]
  simp [or_assoc]

/-- C138: when a semicolon is needed -/
theorem C138_decides (p : Place) : semicolon p = true ↔ NeedsSemicolon p := by
  have hj : p.next.joins = true ↔ Joins p := by unfold Joins; cases p.next <;> simp [Next.joins]
  have hb : (atStart p.start p.ancestors || isMethodLike p.kind) = true ↔ BeginsStatement p ∨ Self p.kind := by
    rw [Bool.or_eq_true, methodLike_iff, atStart_iff]; rfl
  have hs : ∀ c, isSpace c = false ↔ ¬ Blank c := fun c => by rw [← isSpace_iff]; simp
  have hn : needsPrecedingSemicolon p.before (afterMember p.parent) = true ↔ ¬ ((∀ c ∈ p.before, Blank c) ∨
      ∃ pre c spaces, p.before = pre ++ [c] ++ spaces ∧ (∀ s ∈ spaces, Blank s) ∧ ¬ Blank c ∧
        (c ∈ (ascii ";:{,([") ∨ (∃ pre', pre ++ [c] = pre' ++ (ascii "=>")) ∨ (∃ pre', pre ++ [c] = pre' ++ (ascii "++")) ∨
          (∃ pre', pre ++ [c] = pre' ++ (ascii "--")) ∨ ([c] = (ascii "}") ∧ FollowsMethod p))) := by
    rw [← Bool.not_eq_false, C43_semicolon]
    simp only [isSpace_iff, hs, afterMember_iff]
  unfold NeedsSemicolon
  rw [← hj, ← hb, ← hn]
  unfold semicolon
  simp only [Bool.and_eq_true]

/-- C138: a semicolon takes the place of `async` exactly if one is needed -/
theorem C138_semicolon (p : Place) (isGenerator : Bool) :
    (∃ f ∈ fixes p isGenerator, f.text = ascii ";" ∧ f.pos = (p.before ++ p.modifiers).length) ↔ NeedsSemicolon p := by
  have hsemi : ascii ";" = [59] := by decide
  have key : (∃ f ∈ fixes p isGenerator, f.text = ascii ";" ∧ f.pos = (p.before ++ p.modifiers).length) ↔ semicolon p = true := by
    rw [hsemi]
    have hfirst : ∃ rest, fixes p isGenerator = ⟨if semicolon p then [59] else [], (p.before ++ p.modifiers).length, (p.before ++ p.modifiers ++ p.asyncText).length⟩ :: rest ∧
        ∀ f ∈ rest, f.text ≠ [59] := by
      unfold fixes removeAsyncFixes
      cases hr : p.site.returnType with
      | asyncGenerator a b =>
        cases isGenerator
        · exact ⟨[], by simp [Place.site, semicolon], by simp⟩
        · exact ⟨[_], by simp [Place.site, semicolon]; rfl, by simp⟩
      | promise a b c =>
        cases isGenerator
        · exact ⟨[_, _], by simp [Place.site, semicolon]; exact ⟨rfl, rfl⟩, by simp⟩
        · exact ⟨[], by simp [Place.site, semicolon], by simp⟩
      | other => exact ⟨[], by simp [Place.site, semicolon], by simp⟩
    obtain ⟨rest, he, hrest⟩ := hfirst
    rw [he]
    constructor
    · rintro ⟨f, hf, h1, h2⟩
      rcases List.mem_cons.1 hf with rfl | hf
      · cases hc : semicolon p with
        | true => rfl
        | false => rw [hc] at h1; exact nomatch h1
      · exact absurd h1 (hrest f hf)
    · intro h
      exact ⟨_, List.mem_cons_self, by rw [if_pos h], rfl⟩
  rw [key, C138_decides]

/-- C138: what the suggestion makes of the text, for a function without a return type that is changed, one annotated `Promise<T>`, and a generator annotated
`AsyncGenerator…`: `async` with the white space after it goes (or becomes a semicolon), `Promise<` and `>` go, `AsyncGenerator` becomes `Generator`; everything else
stays, modifiers and decorators included -/
theorem C138_text (p : Place) (isGenerator : Bool) (rest : Bytes) :
    (p.annotation = none → AppliesTo (p.before ++ p.modifiers ++ p.asyncText ++ rest) (fixes p isGenerator)
      (p.before ++ p.modifiers ++ (if semicolon p then ascii ";" else []) ++ rest)) ∧
    (∀ head name arg tail q, rest = head ++ name ++ ascii "<" ++ arg ++ ascii ">" ++ tail → isGenerator = false → named "Promise" q = true →
      p.annotation = some ⟨q, (p.before ++ p.modifiers ++ p.asyncText ++ head).length, (p.before ++ p.modifiers ++ p.asyncText ++ head ++ name).length,
        some ((p.before ++ p.modifiers ++ p.asyncText ++ head ++ name ++ ascii "<").length,
          (p.before ++ p.modifiers ++ p.asyncText ++ head ++ name ++ ascii "<" ++ arg).length)⟩ →
      AppliesTo (p.before ++ p.modifiers ++ p.asyncText ++ rest) (fixes p isGenerator)
        (p.before ++ p.modifiers ++ (if semicolon p then ascii ";" else []) ++ head ++ arg ++ tail)) ∧
    (∀ head name tail q args, rest = head ++ name ++ tail → isGenerator = true → named "AsyncGenerator" q = true →
      p.annotation = some ⟨q, (p.before ++ p.modifiers ++ p.asyncText ++ head).length, (p.before ++ p.modifiers ++ p.asyncText ++ head ++ name).length, args⟩ →
      AppliesTo (p.before ++ p.modifiers ++ p.asyncText ++ rest) (fixes p isGenerator)
        (p.before ++ p.modifiers ++ (if semicolon p then ascii ";" else []) ++ head ++ ascii "Generator" ++ tail)) := by
  have hsemi : ascii ";" = [59] := by decide
  refine ⟨?_, ?_, ?_⟩
  · intro ha
    have key := Seg.applies_sorted [.keep (p.before ++ p.modifiers), .sub p.asyncText (if semicolon p then ascii ";" else []), .keep rest]
    have hf : fixes p isGenerator = Seg.edits 0 [.keep (p.before ++ p.modifiers), .sub p.asyncText (if semicolon p then ascii ";" else []), .keep rest] := by
      unfold fixes removeAsyncFixes
      rw [show p.site.returnType = .other by simp [Place.site, ha, returnType]]
      simp [Seg.edits, Place.site, semicolon, hsemi, Int.add_assoc]
    rw [hf]
    simpa [Seg.old, Seg.new] using key
  · intro head name arg tail q hrest hg hq ha
    subst hrest; subst hg
    have hl : ascii "<" = [60] := by decide
    have hr : ascii ">" = [62] := by decide
    rw [hl, hr] at *
    generalize hS : (if semicolon p then ascii ";" else []) = S
    have hq' : named "AsyncGenerator" q = false := by
      rw [C138_named] at hq
      rcases hq with rfl | rfl <;> decide
    have hf : fixes p false = [⟨S, (p.before ++ p.modifiers).length, (p.before ++ p.modifiers ++ p.asyncText).length⟩,
        ⟨[], (p.before ++ p.modifiers ++ p.asyncText ++ head ++ name ++ [60] ++ arg).length, (p.before ++ p.modifiers ++ p.asyncText ++ head ++ name ++ [60] ++ arg).length + 1⟩,
        ⟨[], (p.before ++ p.modifiers ++ p.asyncText ++ head).length, (p.before ++ p.modifiers ++ p.asyncText ++ head ++ name ++ [60]).length - 1 + 1⟩] := by
      unfold fixes removeAsyncFixes
      rw [show p.site.returnType = .promise _ _ _ by simp only [Place.site, ha, returnType, hq, hq']; rfl]
      rw [← hS, hsemi]
      rfl
    have key := Seg.applies_shuffle [.keep (p.before ++ p.modifiers), .sub p.asyncText S, .keep head, .sub (name ++ [60]) [], .keep arg, .sub [62] [], .keep tail]
      (fixes p false) ?_
    · simpa [Seg.old, Seg.new] using key
    · rw [hf]
      have e : Seg.edits 0 [.keep (p.before ++ p.modifiers), .sub p.asyncText S, .keep head, .sub (name ++ [60]) [], .keep arg, .sub [62] [], .keep tail] =
          [⟨S, (p.before ++ p.modifiers).length, (p.before ++ p.modifiers ++ p.asyncText).length⟩,
            ⟨[], (p.before ++ p.modifiers ++ p.asyncText ++ head).length, (p.before ++ p.modifiers ++ p.asyncText ++ head ++ name ++ [60]).length - 1 + 1⟩,
            ⟨[], (p.before ++ p.modifiers ++ p.asyncText ++ head ++ name ++ [60] ++ arg).length, (p.before ++ p.modifiers ++ p.asyncText ++ head ++ name ++ [60] ++ arg).length + 1⟩] := by
        simp [Seg.edits]
        omega
      rw [e]
      exact Shuffle.cons _ (Shuffle.swap _ _ _ (.inl (by simp; omega)))
  · intro head name tail q args hrest hg hq ha
    subst hrest; subst hg
    generalize hS : (if semicolon p then ascii ";" else []) = S
    have key := Seg.applies_sorted [.keep (p.before ++ p.modifiers), .sub p.asyncText S, .keep head, .sub name (ascii "Generator"), .keep tail]
    have hf : fixes p true = Seg.edits 0 [.keep (p.before ++ p.modifiers), .sub p.asyncText S, .keep head, .sub name (ascii "Generator"), .keep tail] := by
      unfold fixes removeAsyncFixes
      rw [show p.site.returnType = .asyncGenerator (p.before ++ p.modifiers ++ p.asyncText ++ head).length (p.before ++ p.modifiers ++ p.asyncText ++ head ++ name).length by
        simp only [Place.site, ha, returnType, hq]; rfl]
      rw [show ascii "Generator" = [71, 101, 110, 101, 114, 97, 116, 111, 114] by decide, ← hS, hsemi]
      simp [Seg.edits, Place.site, semicolon, Nat.add_assoc]
    rw [hf]
    simpa [Seg.old, Seg.new] using key

theorem lastChar_unique {text pre spaces pre' spaces' : Bytes} {c d : UInt8} (h : text = pre ++ [c] ++ spaces) (h' : text = pre' ++ [d] ++ spaces')
    (hs : ∀ s ∈ spaces, Blank s) (hs' : ∀ s ∈ spaces', Blank s) (hc : ¬ Blank c) (hd : ¬ Blank d) : pre = pre' ∧ c = d ∧ spaces = spaces' := by
  have e : pre ++ c :: spaces = pre' ++ d :: spaces' := by simpa using h.symm.trans h'
  rcases List.append_eq_append_iff.1 e with ⟨m, h1, h2⟩ | ⟨m, h1, h2⟩
  · cases m with
    | nil =>
      obtain ⟨rfl, rfl⟩ := List.cons.inj h2
      exact ⟨by simpa using h1.symm, rfl, rfl⟩
    | cons x m =>
      obtain ⟨_, h3⟩ := List.cons.inj h2
      exact absurd (hs d (by rw [h3]; simp)) hd
  · cases m with
    | nil =>
      obtain ⟨rfl, rfl⟩ := List.cons.inj h2
      exact ⟨by simpa using h1, rfl, rfl⟩
    | cons x m =>
      obtain ⟨_, h3⟩ := List.cons.inj h2
      exact absurd (hs' c (by rw [h3]; simp)) hc

/-- C138: if the function has no modifiers before `async`, what is left of it is never joined to an expression before it: when the next token could go on with an expression
and the function begins a statement or is a member, the text that now stands before that token does not end with a character an expression can end with, unless that is the
closing brace of a method before it -/
theorem C138_separate (p : Place) (c : UInt8) (hj : Joins p) (hb : BeginsStatement p ∨ Self p.kind)
    (hc : LastChar (p.before ++ (if semicolon p then ascii ";" else [])) c) (he : EndsExpression c) : [c] = ascii "}" ∧ FollowsMethod p := by
  by_cases hs : semicolon p = true
  · exfalso
    rw [if_pos hs] at hc
    obtain ⟨pre, spaces, h1, h2, h3⟩ := hc
    have h59 : ¬ Blank 59 := by unfold Blank; decide
    obtain ⟨_, rfl, _⟩ := lastChar_unique (text := p.before ++ ascii ";") (pre' := p.before) (spaces' := []) (d := 59) h1 (by
      rw [List.append_nil]; rfl) h2 (by simp) h3 h59
    revert he
    unfold EndsExpression
    decide
  · rw [if_neg hs, List.append_nil] at hc
    obtain ⟨pre, spaces, h1, h2, h3⟩ := hc
    have hn : needsPrecedingSemicolon p.before (afterMember p.parent) = false := by
      unfold semicolon at hs
      have hj' : p.next.joins = true := by
        unfold Joins at hj
        revert hj
        cases p.next <;> simp [Next.joins]
      have hb' : (atStart p.start p.ancestors || isMethodLike p.kind) = true := by
        rw [Bool.or_eq_true, methodLike_iff, atStart_iff]; exact hb
      rw [hj', hb'] at hs
      simpa using hs
    rw [C43_semicolon] at hn
    simp only [isSpace_iff, afterMember_iff] at hn
    rcases hn with hall | ⟨pre', d, spaces', h1', h2', h3', h4⟩
    · exact absurd (hall c (by rw [h1]; simp)) h3
    · have h3'' : ¬ Blank d := by rw [← isSpace_iff]; simp [h3']
      obtain ⟨rfl, rfl, rfl⟩ := lastChar_unique h1 h1' h2 h2' h3 h3''
      have last : ∀ (x y : UInt8) (pre' : Bytes), pre ++ [c] = pre' ++ [x, y] → c = y := by
        intro x y pre' h
        have := congrArg List.getLast? h
        simpa using this
      rcases h4 with h4 | ⟨q, h4⟩ | ⟨q, h4⟩ | ⟨q, h4⟩ | h4
      · exfalso
        rw [show ascii ";:{,([" = [59, 58, 123, 44, 40, 91] by decide] at h4
        simp only [List.mem_cons, List.not_mem_nil, or_false] at h4
        revert he
        unfold EndsExpression
        rcases h4 with rfl | rfl | rfl | rfl | rfl | rfl <;> decide
      · exfalso
        have := last 61 62 q h4
        subst this
        revert he; unfold EndsExpression; decide
      · exfalso
        have := last 43 43 q h4
        subst this
        revert he; unfold EndsExpression; decide
      · exfalso
        have := last 45 45 q h4
        subst this
        revert he; unfold EndsExpression; decide
      · exact h4

/-- a static method after a field: `class A { x = 1\n static async [k]() {} }` -/
def staticMethod : Place where
  before := ascii "class A { x = 1\n "
  modifiers := ascii "static "
  asyncText := ascii "async "
  next := .openBracket
  kind := .method
  start := 15
  ancestors := [⟨0, false⟩]
  parent := .classLike (some [.property, .method]) 1
  annotation := none

/-- C138, hazard: whether there must be a semicolon is decided from what is before the whole member, but it is written where `async` was. After modifiers it separates
them from the member: the static method becomes a field called `static` and an instance method -/
theorem C138_hazard_modifiers : AppliesTo (ascii "class A { x = 1\n static async [k]() { f() } }") (fixes staticMethod false)
    (ascii "class A { x = 1\n static ;[k]() { f() } }") := by
  have h := (C138_text staticMethod false (ascii "[k]() { f() } }")).1 rfl
  rw [show staticMethod.before ++ staticMethod.modifiers ++ staticMethod.asyncText ++ ascii "[k]() { f() } }" =
    ascii "class A { x = 1\n static async [k]() { f() } }" by decide +kernel,
    show staticMethod.before ++ staticMethod.modifiers ++ (if semicolon staticMethod then ascii ";" else []) ++ ascii "[k]() { f() } }" =
    ascii "class A { x = 1\n static ;[k]() { f() } }" by decide +kernel] at h
  exact h

/-- a method of an object literal after a comment: `({ a: 1, /* b */ async [k]() {} })` -/
def commented : Place where
  before := ascii "({ a: 1, /* b */ "
  modifiers := []
  asyncText := ascii "async "
  next := .openBracket
  kind := .method
  start := 8
  ancestors := [⟨1, false⟩]
  parent := .objectLiteral (some [.property, .method]) 1
  annotation := none

/-- C138, hazard: the text before the member is read without skipping comments, and in an object literal a semicolon is a syntax error; the code says that a semicolon
too many is "always safe" -/
theorem C138_hazard_comment : AppliesTo (ascii "({ a: 1, /* b */ async [k]() { f() } })") (fixes commented false)
    (ascii "({ a: 1, /* b */ ;[k]() { f() } })") := by
  have h := (C138_text commented false (ascii "[k]() { f() } })")).1 rfl
  rw [show commented.before ++ commented.modifiers ++ commented.asyncText ++ ascii "[k]() { f() } })" =
    ascii "({ a: 1, /* b */ async [k]() { f() } })" by decide +kernel,
    show commented.before ++ commented.modifiers ++ (if semicolon commented then ascii ";" else []) ++ ascii "[k]() { f() } })" =
    ascii "({ a: 1, /* b */ ;[k]() { f() } })" by decide +kernel] at h
  exact h

/-- an arrow function after a line comment that ends with a semicolon: `f // g();\nasync () => {}` -/
def afterComment : Place where
  before := ascii "f // g();\n"
  modifiers := []
  asyncText := ascii "async "
  next := .openParen
  kind := .arrow
  start := 1
  ancestors := [⟨1, true⟩]
  parent := .other
  annotation := none

/-- C138, hazard: a comment that ends with one of the characters hides that the semicolon is needed: the arrow function's parameters become the arguments of a call -/
theorem C138_hazard_hidden : AppliesTo (ascii "f // g();\nasync () => { h() }") (fixes afterComment false) (ascii "f // g();\n() => { h() }") := by
  have h := (C138_text afterComment false (ascii "() => { h() }")).1 rfl
  rw [show afterComment.before ++ afterComment.modifiers ++ afterComment.asyncText ++ ascii "() => { h() }" = ascii "f // g();\nasync () => { h() }" by decide +kernel,
    show afterComment.before ++ afterComment.modifiers ++ (if semicolon afterComment then ascii ";" else []) ++ ascii "() => { h() }" =
    ascii "f // g();\n() => { h() }" by decide +kernel] at h
  exact h

/-! The hypotheses can be met. -/

/-- `f\nasync () => {}` as a statement -/
def arrowStatement : Place := { afterComment with before := ascii "f\n" }

example : Joins arrowStatement ∧ BeginsStatement arrowStatement ∧ semicolon arrowStatement = true ∧ LastChar (ascii "f\n") 102 ∧ EndsExpression 102 := by
  refine ⟨by unfold Joins; decide, ⟨[], ⟨1, true⟩, [], rfl, rfl, by intro a ha; rw [List.mem_singleton.1 ha]; rfl⟩, by decide +kernel, ?_, by unfold EndsExpression; decide⟩
  exact ⟨[], [10], by decide, by unfold Blank; decide, by unfold Blank; decide⟩

example : (∃ f ∈ fixes arrowStatement false, f.text = ascii ";" ∧ f.pos = (arrowStatement.before ++ arrowStatement.modifiers).length) := by
  exact ⟨_, List.mem_cons_self, by decide +kernel, by decide +kernel⟩

/-- a method after another: no semicolon -/
def secondMethod : Place := { staticMethod with before := ascii "class A { f() {} ", modifiers := [], parent := .classLike (some [.method, .method]) 1 }

example : FollowsMethod secondMethod ∧ semicolon secondMethod = false ∧ LastChar (secondMethod.before) 125 := by
  refine ⟨⟨[.method, .method], 0, .method, .inl rfl, rfl, by decide, .inl rfl⟩, by decide +kernel, ascii "class A { f() {", [32], by decide +kernel, by unfold Blank; decide, by unfold Blank; decide⟩

example : named "Promise" (.qualified (some "globalThis") "Promise") = true ∧ named "Promise" (.qualified (some "Bluebird") "Promise") = false := by decide

end Tsgolint.RemoveAsync
