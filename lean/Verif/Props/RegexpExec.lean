import Verif.Spec.RegexpExec
import Verif.Proof.StableFix
/-! # C74: prefer-regexp-exec -/
namespace Tsgolint.RegexpExec
open Tsgolint.Fixer

/-! ## Flags of a literal -/

theorem readBody_text : ∀ (l : List Char) (k : Bool) body rest, readBody k l = some (body, rest) → l = body ++ '/' :: rest
  | [], k, body, rest, h => by simp [readBody] at h
  | [c], k, body, rest, h => by
    by_cases hc : c = '\\'
    · subst hc; simp [readBody] at h
    · rw [readBody.eq_4 _ _ _ (by simp [hc]) (by simp [hc])] at h
      split at h
      · simp at h
      · split at h
        · next h2 =>
          simp only [Bool.and_eq_true, decide_eq_true_eq] at h2
          simp at h; simp [h, h2.1]
        · simp [readBody] at h
  | c :: d :: l, k, body, rest, h => by
    by_cases hc : c = '\\'
    · subst hc
      rw [readBody] at h
      split at h
      · simp at h
      · simp only [Option.map_eq_some_iff, Prod.mk.injEq] at h
        obtain ⟨⟨b, r⟩, h1, rfl, rfl⟩ := h
        rw [readBody_text l k b r h1]; simp
    · rw [readBody.eq_4 _ _ _ (by simp [hc]) (by simp [hc])] at h
      split at h
      · simp at h
      · split at h
        · next h2 =>
          simp only [Bool.and_eq_true, decide_eq_true_eq] at h2
          simp at h; simp [h, h2.1]
        · simp only [Option.map_eq_some_iff, Prod.mk.injEq] at h
          obtain ⟨⟨b, r⟩, h1, rfl, rfl⟩ := h
          rw [readBody_text (d :: l) _ b r h1]; simp

theorem readBody_even : ∀ (l : List Char) (k : Bool) body rest, readBody k l = some (body, rest) → ∀ pre, backslashes pre % 2 = 0 →
    backslashes (body.reverse ++ pre) % 2 = 0
  | [], k, body, rest, h => by simp [readBody] at h
  | [c], k, body, rest, h => by
    by_cases hc : c = '\\'
    · subst hc; simp [readBody] at h
    · rw [readBody.eq_4 _ _ _ (by simp [hc]) (by simp [hc])] at h
      split at h
      · simp at h
      · split at h
        · simp at h; intro pre hp; simp [h, hp]
        · simp [readBody] at h
  | c :: d :: l, k, body, rest, h => by
    intro pre hp
    by_cases hc : c = '\\'
    · subst hc
      rw [readBody] at h
      split at h
      · simp at h
      · simp only [Option.map_eq_some_iff, Prod.mk.injEq] at h
        obtain ⟨⟨b, r⟩, h1, rfl, rfl⟩ := h
        have := readBody_even l k b r h1 (d :: '\\' :: pre) (by
          by_cases hd : d = '\\'
          · subst hd; simp only [backslashes]; omega
          · rw [backslashes]; simp [hd])
        simpa using this
    · rw [readBody.eq_4 _ _ _ (by simp [hc]) (by simp [hc])] at h
      split at h
      · simp at h
      · split at h
        · simp at h; simp [h, hp]
        · simp only [Option.map_eq_some_iff, Prod.mk.injEq] at h
          obtain ⟨⟨b, r⟩, h1, rfl, rfl⟩ := h
          have := readBody_even (d :: l) _ b r h1 (c :: pre) (by rw [backslashes]; simp [hc])
          simpa using this

theorem closingLoop_eq : ∀ (fr before after : List Char), '/' ∉ fr → before ≠ [] → isEscaped before = false →
    closingLoop (fr ++ '/' :: before) after = some (fr.reverse ++ after)
  | [], b :: before, after, _, _, he => by simp [closingLoop, he]
  | [], [], _, _, h, _ => absurd rfl h
  | c :: fr, before, after, hf, hb, he => by
    simp only [List.mem_cons, not_or] at hf
    have ih := closingLoop_eq fr before (c :: after) hf.2 hb he
    cases hfr : fr ++ '/' :: before with
    | nil => simp at hfr
    | cons d l =>
      rw [List.cons_append, hfr, closingLoop, if_neg (by simp [Ne.symm hf.1]), ← hfr, ih]
      simp

/-- C74 (flags).  For every well-formed regular expression literal, also with escaped slashes, slashes in classes and escaped backslashes, the flags found
are its flags. -/
theorem C74_flags (text body flags : List Char) (h : readLiteral text = some (body, flags)) (hf : '/' ∉ flags) : extractFlags text = some flags := by
  unfold readLiteral at h
  split at h
  · next l =>
    split at h
    · simp at h
    · next b r hr =>
      split at h
      · simp at h
      · next hne =>
        simp only [Option.some.injEq, Prod.mk.injEq] at h
        obtain ⟨rfl, rfl⟩ := h
        have ht := readBody_text l false _ _ hr
        have he := readBody_even l false _ _ hr ['/'] (by decide)
        have he' : isEscaped (b.reverse ++ ['/']) = false := by simp [isEscaped, he]
        subst ht
        have hc := closingLoop_eq r.reverse (b.reverse ++ ['/']) [] (by simpa using hf) (by simp) he'
        unfold extractFlags
        rw [if_neg (by simp; omega), if_neg (by simp)]
        simpa using hc
  · simp at h

/-! ## Static values -/

theorem evals_paren (E : Env) (e : Arg) (x : Val) : Evals E (skipParens e) x ↔ Evals E e x := by
  induction e with
  | paren e ih =>
    rw [skipParens, ih]
    exact ⟨.paren, fun h => by cases h; assumption⟩
  | _ => rfl

/-- The values a static value stands for. -/
def Static.Is : Static → Val → Prop
  | .unknown, _ => True
  | .string, v => ∃ s, v = .str s
  | .regExp f, v => v = .regex f
  | .other, v => v = .other

/-- C74 (static values).  What is found out statically about the argument is right: whatever value it has at run time, it is a string, or a regular
expression with just these flags, or neither. -/
theorem C74_static (E : Env) (fuel : Nat) : ∀ (visited : List Nat) (e : Arg) (st : Static), getStatic E fuel visited e = some st →
    ∀ x, Evals E e x → st.Is x := by
  have key : ∀ (follow : Nat → Arg → Option Static), (∀ s e st, follow s e = some st → ∀ x, Evals E e x → st.Is x) →
      ∀ visited e st, staticWith E follow visited e = some st → ∀ x, Evals E e x → st.Is x := by
    intro follow hf visited e
    induction e with
    | str s => intro st h x hx; simp [staticWith] at h; subst h; cases hx; exact ⟨_, rfl⟩
    | regex t =>
      intro st h x hx; simp [staticWith] at h; subst h; cases hx with
      | regex hr ha =>
        rw [C74_flags t _ _ hr (fun h => by simpa using ha _ h)]; rfl
    | literal => intro st h x hx; simp [staticWith] at h; subst h; cases hx; rfl
    | undef => intro st h x hx; simp [staticWith] at h; subst h; trivial
    | ident s =>
      intro st h x hx
      cases s with
      | none => simp [staticWith] at h; subst h; trivial
      | some s =>
        rw [staticWith] at h
        split at h
        · cases h; trivial
        · split at h
          · cases h; trivial
          · next v hv =>
            split at h
            · cases h; trivial
            · next e he =>
              split at h
              · next hc =>
                cases hx with
                | const h1 h2 _ h3 =>
                  rw [hv] at h1; cases h1
                  rw [he] at h2; cases h2
                  exact hf _ _ _ h _ h3
                | mutable h1 => rw [h1 v e hv he] at hc; cases hc
              · cases h; trivial
    | wrap e ih => intro st h x hx; rw [staticWith] at h; cases hx; exact ih st h x (by assumption)
    | paren e ih => intro st h x hx; rw [staticWith] at h; cases hx; exact ih st h x (by assumption)
    | regExp0 => intro st h x hx; simp [staticWith] at h; subst h; cases hx; rfl
    | regExp1 p _ =>
      intro st h x hx
      cases p with
      | str p =>
        simp only [staticWith, Option.some.injEq] at h
        subst h
        split
        · cases hx with
          | new1 => rfl
          | copy1 h => cases h
        · trivial
      | _ => simp only [staticWith, Option.some.injEq] at h; subst h; trivial
    | regExp2 p f _ _ =>
      intro st h x hx
      cases p with
      | str p =>
        cases f with
        | str f =>
          simp only [staticWith, Option.some.injEq] at h
          subst h
          split
          · cases hx with
            | new2 h => cases h; rfl
            | undef2 h => cases h
            | copy2 h => cases h
            | odd2 h h2 => cases h; exact absurd rfl (h2 _)
          · trivial
        | _ => simp only [staticWith, Option.some.injEq] at h; subst h; trivial
      | _ => simp only [staticWith, Option.some.injEq] at h; subst h; trivial
    | other => intro st h x hx; simp [staticWith] at h; subst h; trivial
  induction fuel with
  | zero => intro visited; exact key _ (by simp) visited
  | succ fuel ih => intro visited; exact key _ (fun s e st h => ih _ e st h) visited

theorem static_total (E : Env) (follow : Nat → Arg → Option Static) (visited : List Nat)
    (hf : ∀ s e, s ∉ visited → (E.var s).isSome → ∃ st, follow s e = some st) (e : Arg) : ∃ st, staticWith E follow visited e = some st := by
  induction e with
  | wrap e ih => rw [staticWith]; exact ih
  | paren e ih => rw [staticWith]; exact ih
  | ident s =>
    cases s with
    | none => exact ⟨_, rfl⟩
    | some s =>
      rw [staticWith]
      split
      · exact ⟨_, rfl⟩
      · next hn =>
        split
        · exact ⟨_, rfl⟩
        · next v hvar =>
          split
          · exact ⟨_, rfl⟩
          · split
            · exact hf _ _ (by simpa using hn) (by simp [hvar])
            · exact ⟨_, rfl⟩
  | regExp1 p _ => cases p <;> simp [staticWith]
  | regExp2 p f _ _ => cases p <;> cases f <;> simp [staticWith]
  | _ => exact ⟨_, rfl⟩

/-- C74 (termination).  Following constants ends, also for constants that refer to each other: with `n` variables at most `n` are followed. -/
theorem C74_terminates (E : Env) (symbols : List Nat) (hs : ∀ s, (E.var s).isSome → s ∈ symbols) (e : Arg) :
    ∃ st, getStatic E symbols.length [] e = some st := by
  suffices ∀ (fuel : Nat) (visited : List Nat), (symbols.filter fun s => !visited.contains s).length ≤ fuel →
      ∀ e, ∃ st, getStatic E fuel visited e = some st from
    this _ _ (List.length_filter_le _ _) e
  clear e
  intro fuel
  have hmem : ∀ (visited : List Nat) s, s ∉ visited → (E.var s).isSome → s ∈ symbols.filter fun s => !visited.contains s := by
    intro visited s hn hv
    rw [List.mem_filter]
    exact ⟨hs s hv, by simpa using hn⟩
  induction fuel with
  | zero =>
    intro visited hv
    refine static_total E _ visited fun s e hn hvar => ?_
    have := List.length_pos_of_mem (hmem visited s hn hvar)
    omega
  | succ fuel ih =>
    intro visited hv
    refine static_total E _ visited fun s e hn hvar => ih _ ?_ e
    have hsub : (symbols.filter fun r => !(s :: visited).contains r) = (symbols.filter fun r => !visited.contains r).filter (· != s) := by
      rw [List.filter_filter]
      refine List.filter_congr fun r _ => ?_
      simp only [List.contains_cons, Bool.not_or]
      rfl
    rw [hsub]
    have : ((symbols.filter fun r => !visited.contains r).filter (· != s)).length < (symbols.filter fun r => !visited.contains r).length :=
      List.length_filter_lt_length_iff_exists.2 ⟨s, hmem visited s hn hvar, by simp⟩
    omega

/-! ## Reports -/

theorem collect_iff (names : List String) : ((collect names).regExp = true ↔ "RegExp" ∈ names) ∧ ((collect names).string = true ↔ "string" ∈ names) := by
  unfold collect
  suffices ∀ r : Types,
      let r' := names.foldl (fun r n => if n = "RegExp" then { r with regExp := true } else if n = "string" then { r with string := true } else r) r
      (r'.regExp = true ↔ r.regExp = true ∨ "RegExp" ∈ names) ∧ (r'.string = true ↔ r.string = true ∨ "string" ∈ names) by
    simpa using this ⟨false, false⟩
  induction names with
  | nil => intro r; simp
  | cons n names ih =>
    intro r
    simp only [List.foldl_cons]
    split
    · next h =>
      subst h
      have := ih { r with regExp := true }
      simp only [true_or, iff_true] at this
      refine ⟨by simp [this.1], ?_⟩
      rw [this.2]; simp
    · next h =>
      split
      · next h2 =>
        subst h2
        have := ih { r with string := true }
        simp only [true_or, iff_true] at this
        refine ⟨?_, by simp [this.2]⟩
        rw [this.1]; simp
      · next h2 =>
        have := ih r
        simp only [List.mem_cons, Ne.symm h, Ne.symm h2, false_or]
        exact this

/-- C74 (no global flag).  Whenever a call is reported, its argument — unless it copies a regular expression with `RegExp(…)` — never is a regular
expression with the flag `g` at run time.  (The hypothesis `ht`: an argument that can be a regular expression has `RegExp` among the names of its type.) -/
theorem C74_no_global (E : Env) (fuel : Nat) (c : Call) (arg : Arg) (o : Outcome) (hc : c.arguments = [arg]) (h : check E fuel c = some o)
    (ho : o ≠ .nothing) (ht : ∀ f, Evals E arg (.regex f) → "RegExp" ∈ c.argumentNames) (hn : NoCopy E arg) :
    ∀ f, Evals E arg (.regex f) → 'g' ∉ f := by
  intro f hf hg
  simp only [check, hc] at h
  split at h
  · cases h; exact ho rfl
  · split at h
    · cases h; exact ho rfl
    · split at h
      · cases h
      · next st hst =>
        have hs := C74_static E fuel [] arg st hst _ hf
        split at h
        · cases h; exact ho rfl
        · next h1 =>
          split at h
          · cases h; exact ho rfl
          · next h2 =>
            have hty := (collect_iff c.argumentNames).1.2 (ht f hf)
            cases st with
            | string => obtain ⟨s, hs⟩ := hs; cases hs
            | other => cases hs
            | regExp f' => simp only [Static.Is, Val.regex.injEq] at hs; subst hs; simp [isGlobal, hg] at h1
            | unknown =>
              have hd : definitelyNotGlobal arg = true := by simpa [hty, isGlobal] using h2
              rw [← evals_paren] at hf
              unfold definitelyNotGlobal at hd
              unfold NoCopy at hn
              cases ha : skipParens arg with
              | regExp0 => rw [ha] at hf; cases hf; simp at hg
              | regExp1 p =>
                rw [ha] at hf
                cases hf with
                | new1 => simp at hg
                | copy1 h3 => exact hn p (.inl ha) _ h3
              | regExp2 p g =>
                rw [ha] at hf hd
                simp only [] at hd
                cases hsg : skipParens g with
                | undef =>
                  have hev : ∀ x, Evals E g x → x = .undefined := fun x hx => by
                    rw [← evals_paren, hsg] at hx; cases hx; rfl
                  cases hf with
                  | new2 h3 => cases hev _ h3
                  | undef2 => simp at hg
                  | copy2 _ h4 => exact hn p (.inr ⟨g, ha, hsg⟩) _ h4
                  | odd2 h3 _ h4 => exact h4 (hev _ h3)
                | str s =>
                  have hev : ∀ x, Evals E g x → x = .str s := fun x hx => by
                    rw [← evals_paren, hsg] at hx; cases hx; rfl
                  simp only [hsg] at hd
                  cases hf with
                  | new2 h3 =>
                    cases hev _ h3
                    simp [hg] at hd
                  | undef2 h3 => cases hev _ h3
                  | copy2 h3 => cases hev _ h3
                  | odd2 h3 h4 => exact h4 s (hev _ h3)
                | _ => simp [hsg] at hd
              | _ => simp [ha] at hd

/-- C74 (reports).  Only candidates are reported: with a literal for a string that is a valid pattern, as `r.exec(s)` if the argument can be a `RegExp` and
no string, as `RegExp(x).exec(s)` if it can be a string and no `RegExp`. -/
theorem C74_reports (E : Env) (fuel : Nat) (c : Call) (arg : Arg) (st : Static) (hc : c.arguments = [arg]) (hs : getStatic E fuel [] arg = some st) :
    (¬ Candidate c arg st → check E fuel c = some .nothing) ∧
    (Candidate c arg st →
      (∀ p, arg = .str p → check E fuel c = some (if E.compiles p then .literal (buildLiteral p) else .nothing)) ∧
      ((∀ p, arg ≠ .str p) → check E fuel c = some (if "RegExp" ∈ c.argumentNames ∧ "string" ∉ c.argumentNames then .exec
          else if "string" ∈ c.argumentNames ∧ "RegExp" ∉ c.argumentNames then .construct else .nothing))) := by
  have hcol := collect_iff c.argumentNames
  have hg : isGlobal st = false ↔ ∀ f, st = .regExp f → 'g' ∉ f := by
    cases st <;> simp [isGlobal]
  have hd : (decide (st = .unknown) && (collect c.argumentNames).regExp && !definitelyNotGlobal arg) = false ↔
      (st = .unknown → "RegExp" ∈ c.argumentNames → definitelyNotGlobal arg = true) := by
    rw [← hcol.1]
    cases definitelyNotGlobal arg <;> cases (collect c.argumentNames).regExp <;> simp
  have hb : byTypes (collect c.argumentNames) = if "RegExp" ∈ c.argumentNames ∧ "string" ∉ c.argumentNames then .exec
          else if "string" ∈ c.argumentNames ∧ "RegExp" ∉ c.argumentNames then .construct else .nothing := by
    simp only [← hcol.1, ← hcol.2]
    generalize collect c.argumentNames = ty
    obtain ⟨ts, tr⟩ := ty
    cases ts <;> cases tr <;> simp [byTypes]
  simp only [Candidate, ← hg, ← hd, check, hc, hs]
  by_cases h1 : c.calleeName = some "match"
  · by_cases h2 : c.objectName = "string"
    · simp only [h1, h2, ne_eq, not_true_eq_false, if_false, true_and]
      cases isGlobal st with
      | true => simp
      | false =>
        cases (decide (st = .unknown) && (collect c.argumentNames).regExp && !definitelyNotGlobal arg) with
        | true => simp
        | false =>
          simp only [Bool.false_eq_true, if_false, and_self, not_true_eq_false, false_implies, true_and, forall_const]
          constructor
          · rintro p rfl; rfl
          · intro hp
            rw [← hb]
            cases arg <;> first | rfl | exact absurd rfl (hp _)
    · simp [h1, h2]
  · simp [h1]

/-! ## The literal made from a string -/

theorem readBody_escape (rest : List Char) (k : Bool) (p : List Char) (h : Pattern k p) :
    readBody k (p.flatMap (fun c => if c = '/' then ['\\', '/'] else [c]) ++ '/' :: rest) =
      some (p.flatMap (fun c => if c = '/' then ['\\', '/'] else [c]), rest) := by
  induction h with
  | done => simp [readBody, isLineEnd]
  | escape h1 h2 _ ih => simp [h1, readBody, h2, ih]
  | openClass _ ih =>
    simp only [List.flatMap_cons, show ('[' = '/') = False by decide, if_false, List.cons_append, List.nil_append]
    rw [readBody.eq_4 _ _ _ (by simp) (by simp)]
    simp [isLineEnd, ih]
  | closeClass _ ih =>
    simp only [List.flatMap_cons, show (']' = '/') = False by decide, if_false, List.cons_append, List.nil_append]
    rw [readBody.eq_4 _ _ _ (by simp) (by simp)]
    simp [isLineEnd, ih]
  | @char k c l h1 h2 h3 h4 _ ih =>
    by_cases hc : c = '/'
    · subst hc
      simp [readBody, ih, isLineEnd]
    · simp only [List.flatMap_cons, if_neg hc, List.cons_append, List.nil_append]
      rw [readBody.eq_4 _ _ _ (by simp [h1]) (by simp [h1])]
      simp [hc, h2, h3, h4, ih]

theorem unslash_escape (k : Bool) (p : List Char) (h : Pattern k p) :
    unslash (p.flatMap (fun c => if c = '/' then ['\\', '/'] else [c])) = p := by
  induction h with
  | done => rfl
  | escape h1 h2 _ ih => simp [h1, unslash, ih]
  | openClass _ ih =>
    simp only [List.flatMap_cons, show ('[' = '/') = False by decide, if_false, List.cons_append, List.nil_append]
    rw [unslash.eq_2 _ _ (by simp), ih]
  | closeClass _ ih =>
    simp only [List.flatMap_cons, show (']' = '/') = False by decide, if_false, List.cons_append, List.nil_append]
    rw [unslash.eq_2 _ _ (by simp), ih]
  | @char k c l h1 h2 h3 h4 _ ih =>
    by_cases hc : c = '/'
    · subst hc
      simp [unslash, ih]
    · simp only [List.flatMap_cons, if_neg hc, List.cons_append, List.nil_append]
      rw [unslash.eq_2 _ _ (by simp [h1]), ih]

/-- C74 (the literal).  For a non-empty pattern with closed classes, without line ends and without escaped slashes, the text built reads, whatever follows it, as
one regular expression literal whose body stands for the pattern. -/
theorem C74_literal (p rest : List Char) (h : Pattern false p) (hne : p ≠ []) (hs : p.head? ≠ some '*') :
    ∃ body, readLiteral (buildLiteral p ++ rest) = some (body, rest) ∧ unslash body = p := by
  refine ⟨p.flatMap (fun c => if c = '/' then ['\\', '/'] else [c]), ?_, unslash_escape _ _ h⟩
  have := readBody_escape rest false p h
  simp only [buildLiteral, List.cons_append, List.append_assoc, List.nil_append, readLiteral, this]
  rw [if_neg]
  rintro (h1 | h1)
  · cases p with
    | nil => exact hne rfl
    | cons c p => by_cases hc : c = '/' <;> simp [hc] at h1
  · cases p with
    | nil => exact hne rfl
    | cons c p =>
      by_cases hc : c = '/'
      · subst hc; simp at h1
      · simp [hc] at h1; simp [h1] at hs

/-- C74 (findings).  `s.match('')` becomes `//.exec(s)`, a comment; a pattern with an escaped slash gives a literal that ends too early. -/
theorem C74_hazard_literal :
    readLiteral (buildLiteral [] ++ ".exec(s)".toList) = none ∧
    readLiteral (buildLiteral ['\\', '/', 'b'] ++ [';']) = some (['\\', '\\'], ['b', '/', ';']) := by
  decide

/-- C74 (finding).  `s.match(RegExp(/a/g))` is reported although the copy keeps the flag `g`. -/
theorem C74_hazard_copy (E : Env) : ∃ arg f, Evals E arg (.regex f) ∧ 'g' ∈ f ∧
    check E 0 ⟨[arg], some "match", "string", ["RegExp"]⟩ = some .exec := by
  refine ⟨.regExp1 (.regex "/a/g".toList), ['g'], .copy1 (.regex (body := ['a']) (by decide) (by decide)), by decide, rfl⟩

/-- C74 (fix).  The call is replaced by `r.exec(s)`, `RegExp(x).exec(s)` or `/p/.exec(s)`: operands that bind loosely are put in parentheses, and so is
the result where its surroundings bind more tightly. -/
theorem C74_fix (pre call post object argument literal : Bytes) (l : List Char) (wo wa : Bool) :
    let apply := fun (o : Outcome) (wr : Bool) (out : Bytes) => AppliesTo (pre ++ call ++ post)
      [wrappingFix (fixText o wo wa wr object argument literal) pre.length (pre ++ call).length] (pre ++ out ++ post)
    let obj := if wo then ascii "(" ++ object ++ ascii ")" else object
    let arg := if wa then ascii "(" ++ argument ++ ascii ")" else argument
    apply .exec false (arg ++ ascii ".exec(" ++ obj ++ ascii ")") ∧
    apply .construct false (ascii "RegExp(" ++ arg ++ ascii ").exec(" ++ obj ++ ascii ")") ∧
    apply (.literal l) false (literal ++ ascii ".exec(" ++ obj ++ ascii ")") ∧
    apply .exec true (ascii "(" ++ (arg ++ ascii ".exec(" ++ obj ++ ascii ")") ++ ascii ")") ∧
    apply .construct true (ascii "(" ++ (ascii "RegExp(" ++ arg ++ ascii ").exec(" ++ obj ++ ascii ")") ++ ascii ")") ∧
    apply (.literal l) true (ascii "(" ++ (literal ++ ascii ".exec(" ++ obj ++ ascii ")") ++ ascii ")") := by
  have key : ∀ text, AppliesTo (pre ++ call ++ post) [⟨text, pre.length, (pre ++ call).length⟩] (pre ++ text ++ post) := by
    intro text
    have := Seg.applies_sorted [.keep pre, .sub call text, .keep post]
    simpa [Seg.old, Seg.new, Seg.edits, List.append_assoc] using this
  exact ⟨key _, key _, key _, key _, key _, key _⟩

/-! ## Cases -/

def sample : Env where
  var := fun s => if s = 0 then some ⟨some (.regex "/a/g".toList), true⟩ else if s = 1 then some ⟨some (.ident (some 1)), true⟩
    else if s = 2 then some ⟨some (.wrap (.regex "/[/]\\//i".toList)), true⟩ else none
  compiles := fun _ => true

example : check sample 4 ⟨[.ident (some 0)], some "match", "string", ["RegExp"]⟩ = some .nothing := by decide
example : check sample 4 ⟨[.ident (some 1)], some "match", "string", ["RegExp"]⟩ = some .nothing := by decide
example : check sample 4 ⟨[.ident (some 2)], some "match", "string", ["RegExp"]⟩ = some .exec := by decide
example : getStatic sample 4 [] (.ident (some 2)) = some (.regExp ['i']) := by decide
example : check sample 4 ⟨[.ident (some 5)], some "match", "string", ["string"]⟩ = some .construct := by decide
example : check sample 4 ⟨[.str ['a', '/']], some "match", "string", ["string"]⟩ = some (.literal "/a\\//".toList) := by decide
example : check sample 4 ⟨[.regExp2 (.ident none) (.str ['i'])], some "match", "string", ["RegExp"]⟩ = some .exec := by decide
example : Pattern false ['a', '[', '/', ']', '\\', 'd'] :=
  .char (by decide) (by decide) (by decide) (by decide) (.openClass (.char (by decide) (by decide) (by decide) (by decide)
    (.closeClass (.escape (by decide) (by decide) .done))))
example : Evals sample (.ident (some 2)) (.regex ['i']) :=
  .const (v := ⟨some (.wrap (.regex "/[/]\\//i".toList)), true⟩) rfl rfl rfl (.wrap (.regex (body := "[/]\\/".toList) (by decide) (by decide)))
example : NoCopy sample (.ident (some 2)) := by
  rintro p (h | ⟨f, h, _⟩) <;> simp [skipParens] at h
example : ∀ s, (sample.var s).isSome → s ∈ [0, 1, 2] := by
  intro s h
  simp only [sample] at h
  repeat' split at h
  all_goals simp_all

end Tsgolint.RegexpExec
