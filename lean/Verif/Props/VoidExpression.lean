import Verif.Spec.VoidExpression
import Verif.Proof.StableFix
/-! # C78: no-confusing-void-expression -/
namespace Tsgolint.VoidExpression
open Tsgolint.Fixer

theorem ancestor_spec (o : Opts) : ∀ (fs : List Frame) (n : Nat),
    match findInvalidAncestor o n fs with
    | .valid => (∃ pre f rest, fs = pre ++ f :: rest ∧ (∀ g ∈ pre, Passes g ∧ g ≠ .comma false) ∧ Drops f) ∨
        (∃ f, UsedBy fs f ∧ (f = .arrow ∧ o.ignoreArrowShorthand = true ∨ f = .voidOperator ∧ o.ignoreVoidOperator = true))
    | .invalid f _ => UsedBy fs f ∧ ¬ (f = .arrow ∧ o.ignoreArrowShorthand = true ∨ f = .voidOperator ∧ o.ignoreVoidOperator = true)
    | .offTree => ∀ g ∈ fs, Passes g ∧ g ≠ .comma false
  | [], n => by simp [findInvalidAncestor]
  | f :: fs, n => by
    rw [findInvalidAncestor]
    have stop : ¬ Drops f → (Passes f → f = .comma false) → UsedBy (f :: fs) f := fun h1 h2 => ⟨[], fs, rfl, by simp, h1, h2⟩
    cases hs : step o f with
    | some b =>
      cases b with
      | true =>
        cases f with
        | logical b => cases b <;> simp [step] at hs
        | comma b =>
          cases b
          · simp [step] at hs
          · exact .inl ⟨[], _, fs, rfl, by simp, by simp [Drops]⟩
        | conditional b => cases b <;> simp [step] at hs
        | expressionStatement => exact .inl ⟨[], _, fs, rfl, by simp, by simp [Drops]⟩
        | arrow => exact .inr ⟨_, stop (by simp [Drops]) (by simp [Passes]), .inl ⟨rfl, by simpa [step] using hs⟩⟩
        | voidOperator => exact .inr ⟨_, stop (by simp [Drops]) (by simp [Passes]), .inr ⟨rfl, by simpa [step] using hs⟩⟩
        | _ => simp [step] at hs
      | false =>
        refine ⟨stop ?_ ?_, ?_⟩
        · cases f with
          | comma b => cases b <;> simp [step, Drops] at hs ⊢
          | _ => simp [step, Drops] at hs ⊢
        · cases f with
          | comma b => cases b <;> simp [step, Passes] at hs ⊢
          | logical b => cases b <;> simp [step, Passes] at hs ⊢
          | conditional b => cases b <;> simp [step, Passes] at hs ⊢
          | _ => simp [step, Passes] at hs ⊢
        · rintro (⟨rfl, h⟩ | ⟨rfl, h⟩) <;> simp [step, h] at hs
    | none =>
      have hp : Passes f ∧ f ≠ .comma false := by
        cases f with
        | comma b => cases b <;> simp [step] at hs
        | logical b => cases b <;> simp [step, Passes] at hs ⊢
        | conditional b => cases b <;> simp [step, Passes] at hs ⊢
        | _ => simp [step, Passes] at hs ⊢
      have used : ∀ g, UsedBy fs g → UsedBy (f :: fs) g := by
        rintro g ⟨pre, rest, rfl, h1, h2⟩
        exact ⟨f :: pre, rest, rfl, List.forall_mem_cons.2 ⟨hp, h1⟩, h2⟩
      have ih := ancestor_spec o fs (n + 1)
      simp only
      cases ha : findInvalidAncestor o (n + 1) fs <;> simp only [ha] at ih ⊢
      · rcases ih with ⟨pre, g, rest, rfl, h1, h2⟩ | ⟨g, h1, h2⟩
        · exact .inl ⟨f :: pre, g, rest, rfl, List.forall_mem_cons.2 ⟨hp, h1⟩, h2⟩
        · exact .inr ⟨g, used g h1, h2⟩
      · exact ⟨used _ ih.1, ih.2⟩
      · exact List.forall_mem_cons.2 ⟨hp, ih⟩

/-- What an expression is used by is determined by its surroundings. -/
theorem UsedBy.unique {fs : List Frame} {f g : Frame} (h : UsedBy fs f) (h' : UsedBy fs g) : f = g := by
  obtain ⟨pre, rest, rfl, h1, h2, h3⟩ := h
  obtain ⟨pre', rest', h0, h1', h2', h3'⟩ := h'
  rcases List.append_eq_append_iff.1 h0 with ⟨as, rfl, h⟩ | ⟨as, rfl, h⟩
  · cases as with
    | nil => exact (List.cons.inj h).1
    | cons a as =>
      have : f = a := (List.cons.inj h).1
      subst this
      have := h1' f (by simp)
      exact absurd (h3 this.1) this.2
  · cases as with
    | nil => exact (List.cons.inj h).1.symm
    | cons a as =>
      have : g = a := (List.cons.inj h).1
      subst this
      have := h1 g (by simp)
      exact absurd (h3' this.1) this.2

theorem UsedBy.not_dropped {fs : List Frame} {f : Frame} (h : UsedBy fs f) : ¬ ∃ pre g rest, fs = pre ++ g :: rest ∧ (∀ x ∈ pre, Passes x ∧ x ≠ .comma false) ∧ Drops g := by
  rintro ⟨pre', g, rest', h0, h1', h2'⟩
  obtain ⟨pre, rest, rfl, h1, h2, h3⟩ := h
  rcases List.append_eq_append_iff.1 h0 with ⟨as, rfl, h⟩ | ⟨as, rfl, h⟩
  · cases as with
    | nil => have := (List.cons.inj h).1; subst this; exact h2 h2'
    | cons a as =>
      have : f = a := (List.cons.inj h).1
      subst this
      have := h1' f (by simp)
      exact absurd (h3 this.1) this.2
  · cases as with
    | nil => have := (List.cons.inj h).1; subst this; exact h2 h2'
    | cons a as =>
      have : g = a := (List.cons.inj h).1
      subst this
      have := (h1 g (by simp)).1
      cases g with
      | comma b => cases b <;> simp [Drops, Passes] at this h2'
      | _ => simp [Drops, Passes] at this h2'

/-- C78 (void functions). -/
theorem C78_void_function (f : Function) : isVoidReturning f = true ↔ ReturnsVoid f := by
  unfold isVoidReturning ReturnsVoid
  cases f.annotation with
  | some parts => simp
  | none =>
    cases f.isExpression with
    | false => simp
    | true =>
      cases f.contextual with
      | none => simp
      | some ts =>
        simp only [Bool.not_true, Bool.false_eq_true, if_false, List.any_eq_true, id_eq]
        constructor
        · rintro ⟨s, hs, r, hr, b, hb, rfl⟩; exact .inr ⟨by simp, by simp, ts, s, r, rfl, hs, hr, hb⟩
        · rintro (⟨_, h, -⟩ | ⟨-, -, ts', s, r, h, hs, hr, hb⟩)
          · cases h
          · cases h; exact ⟨s, hs, r, hr, true, hb, rfl⟩

/-- C78 (reports).  An expression is reported exactly if its type includes `void`, its value is used and the options do not allow this use; the message is the one for the
use. -/
theorem C78_reports (o : Opts) (e : Expr) (r : Report) :
    check o e = some r ↔ e.isVoid = true ∧ ∃ f, UsedBy e.frames f ∧ ¬ Allowed o e f ∧ r = Message o e f := by
  have h := ancestor_spec o e.frames 0
  unfold check
  have hfun : e.function.any isVoidReturning = true ↔ ∃ g, e.function = some g ∧ ReturnsVoid g := by
    cases e.function <;> simp [C78_void_function]
  cases ha : findInvalidAncestor o 0 e.frames with
  | valid =>
    simp only [ha] at h
    simp only [reduceCtorEq, false_iff]
    rintro ⟨-, f, hf, hna, -⟩
    rcases h with h | ⟨g, hg, h⟩
    · exact hf.not_dropped h
    · cases hf.unique hg
      rcases h with h | h
      · exact hna (.inl h)
      · exact hna (.inr (.inl h))
  | offTree =>
    simp only [ha] at h
    simp only [reduceCtorEq, false_iff]
    rintro ⟨-, f, ⟨pre, rest, h0, h1, h2, h3⟩, -, -⟩
    have := h f (by simp [h0])
    exact this.2 (h3 this.1)
  | invalid f n =>
    simp only [ha] at h
    obtain ⟨hu, hn⟩ := h
    have huniq : (∃ f, UsedBy e.frames f ∧ ¬ Allowed o e f ∧ r = Message o e f) ↔ ¬ Allowed o e f ∧ r = Message o e f :=
      ⟨by rintro ⟨g, hg, h⟩; cases hu.unique hg; exact h, fun h => ⟨f, hu, h⟩⟩
    rw [huniq]
    have hall : Allowed o e f ↔ (f = .arrow ∨ f = .return_) ∧ o.ignoreVoidReturningFunctions = true ∧ e.function.any isVoidReturning = true := by
      rw [hfun]
      constructor
      · rintro (h | h | h)
        · exact absurd (.inl h) hn
        · exact absurd (.inr h) hn
        · exact h
      · exact fun h => .inr (.inr h)
    rw [hall]
    simp only
    cases e.isVoid with
    | false => simp
    | true =>
      generalize e.function.any isVoidReturning = v
      simp only [Bool.not_true, Bool.false_eq_true, if_false, true_and]
      cases o.ignoreVoidReturningFunctions <;> cases v <;> cases h3 : o.ignoreVoidOperator <;> cases h4 : e.final <;> cases f <;>
        simp [Message, h3, h4, eq_comm]

/-- C78.  An expression statement on its own is never reported, however the expression is built from parentheses, logical operators and conditional branches. -/
theorem C78_statement (o : Opts) (e : Expr) (pre rest : List Frame) (he : e.frames = pre ++ .expressionStatement :: rest)
    (hp : ∀ g ∈ pre, g = .parens ∨ g = .logical true ∨ g = .conditional true) : check o e = none := by
  cases h : check o e with
  | none => rfl
  | some r =>
    obtain ⟨-, f, hf, -⟩ := (C78_reports o e r).1 h
    refine absurd ⟨pre, _, rest, he, fun g hg => ?_, by simp [Drops]⟩ hf.not_dropped
    rcases hp g hg with rfl | rfl | rfl <;> simp [Passes]

/-- C78 (finding).  The right operand of a comma is reported even if the value is not used: `(0, f());`. -/
theorem C78_hazard_comma (o : Opts) : ∃ e : Expr, Unused e.frames ∧ check o e ≠ none := by
  refine ⟨⟨[.comma false, .parens, .expressionStatement], true, none, false⟩, ⟨[.comma false, .parens], .expressionStatement, [], rfl, by simp [Passes], by simp [Drops]⟩, ?_⟩
  cases o with
  | mk a b c => cases a <;> cases b <;> cases c <;> decide

/-- C78 (final returns).  A return statement is final exactly if it is the last statement of the body of a function. -/
theorem C78_final {α : Type} [DecidableEq α] (block : Option (List α × Bool)) (self : α) :
    isFinalReturn block self = true ↔ ∃ before, block = some (before ++ [self], true) := by
  unfold isFinalReturn
  cases block with
  | none => simp
  | some q =>
    obtain ⟨l, b⟩ := q
    simp [List.getLast?_eq_some_iff, and_comm]

/-! ## Fixes -/

/-- C78 (fixes).  `void` is put before the expression; the body of an arrow function is put in braces, without its parentheses; the last `return` is removed;
another return statement is followed by `return;`, in braces where only one statement can stand.  A `;` protects expressions that start with a parenthesis or bracket. -/
theorem C78_fix_void (pre post : Bytes) : AppliesTo (pre ++ post) (insertVoid pre.length) (pre ++ ascii "void " ++ post) := by
  have := Seg.applies_sorted [.keep pre, .sub [] (ascii "void "), .keep post]
  simpa [Seg.old, Seg.new, Seg.edits, insertVoid, List.append_assoc, Nat.add_assoc] using this

theorem C78_fix_arrow (pre opened body closed post : Bytes) :
    AppliesTo (pre ++ opened ++ body ++ closed ++ post) (fixArrow true pre.length (pre ++ opened).length (pre ++ opened ++ body).length (pre ++ opened ++ body ++ closed).length)
      (pre ++ ascii "{ " ++ body ++ ascii "; }" ++ post) := by
  have := Seg.applies_sorted [.keep pre, .sub opened (ascii "{ "), .keep body, .sub closed (ascii "; }"), .keep post]
  simpa [Seg.old, Seg.new, Seg.edits, fixArrow, List.append_assoc, Nat.add_assoc] using this

theorem C78_fix_last (pre word value post : Bytes) (t : Token) :
    AppliesTo (pre ++ word ++ value ++ post) (fixReturnLast true t pre.length (pre ++ word).length)
      (pre ++ (if t = .openParen ∨ t = .openBracket then ascii ";" else []) ++ value ++ post) := by
  have := Seg.applies_sorted [.keep pre, .sub word (replacement t), .keep value, .keep post]
  cases t <;> simpa [Seg.old, Seg.new, Seg.edits, fixReturnLast, replacement, List.append_assoc, Nat.add_assoc] using this

theorem C78_fix_return (pre word value post : Bytes) (t : Token) (inBlock : Bool) (hw : word ≠ []) (hv : value ≠ []) :
    AppliesTo (pre ++ word ++ value ++ post) (fixReturn inBlock t pre.length (pre ++ word).length (pre ++ word ++ value).length)
      (pre ++ (if inBlock then [] else ascii "{ ") ++ (if t = .openParen ∨ t = .openBracket then ascii ";" else []) ++ value ++ ascii "; return;" ++
        (if inBlock then [] else ascii " }") ++ post) := by
  have ht : (if t = .openParen ∨ t = .openBracket then ascii ";" else []) = replacement t := by cases t <;> simp [replacement]
  rw [ht]
  have hlw := List.length_pos_iff.2 hw
  have hlv := List.length_pos_iff.2 hv
  cases inBlock
  · have := Seg.applies_shuffle [.keep pre, .sub [] (ascii "{ "), .sub word (replacement t), .keep value, .sub [] (ascii "; return;"), .sub [] (ascii " }"), .keep post]
      (fixReturn false t pre.length (pre ++ word).length (pre ++ word ++ value).length) (by
      have e : Seg.edits 0 [.keep pre, .sub [] (ascii "{ "), .sub word (replacement t), .keep value, .sub [] (ascii "; return;"), .sub [] (ascii " }"), .keep post]
        = [⟨ascii "{ ", pre.length, pre.length⟩, ⟨replacement t, pre.length, (pre ++ word).length⟩, ⟨ascii "; return;", (pre ++ word ++ value).length, (pre ++ word ++ value).length⟩,
            ⟨ascii " }", (pre ++ word ++ value).length, (pre ++ word ++ value).length⟩] := by
        simp [Seg.edits, Nat.add_assoc]
      rw [e]
      refine (Shuffle.cons _ (Shuffle.swap _ _ _ (.inl ?_))).trans (Shuffle.swap _ _ _ (.inr ?_)) <;>
        simp only [List.length_append] <;> omega)
    simpa [Seg.old, Seg.new, List.append_assoc] using this
  · have := Seg.applies_sorted [.keep pre, .sub word (replacement t), .keep value, .sub [] (ascii "; return;"), .keep post]
    simpa [Seg.old, Seg.new, Seg.edits, fixReturn, List.append_assoc, Nat.add_assoc] using this

/-! ## Cases -/

def none_ : Opts := ⟨false, false, false⟩
example : check none_ ⟨[.parens, .logical true, .return_], true, none, true⟩ = some .returnLast := by decide
example : check none_ ⟨[.logical false, .expressionStatement], true, none, true⟩ = some .plain := by decide
example : check ⟨false, true, false⟩ ⟨[.voidOperator], true, none, false⟩ = none := by decide
example : check ⟨false, false, true⟩ ⟨[.arrow], true, some ⟨none, true, some [[[false], [false, true]]]⟩, false⟩ = none := by decide
example : check none_ ⟨[.conditional true, .parens, .expressionStatement], true, none, false⟩ = none := by decide
example : isFinalReturn (some ([1, 2], true)) 2 = true := by decide

end Tsgolint.VoidExpression
