import Verif.Model.Wrapping
import Verif.Proof.Expression

/-! # C139: expressions copied into a replacement stay what they are -/

namespace Tsgolint.Wrapping

open Expression

theorem fill_mono (f : Frame) (a b : Expr) (h : WF (f.fill a)) (hb : WF b) (hl : lvl a ≤ lvl b) : WF (f.fill b) ∧ lvl (f.fill a) ≤ lvl (f.fill b) := by
  cases f <;> simp only [Frame.fill, WF, lvl] at h ⊢ <;>
    first
    | exact ⟨hb, Nat.le_refl _⟩
    | (refine ⟨?_, by omega⟩
       first
       | exact ⟨hb, by omega⟩
       | exact ⟨hb, h.2.1, by omega⟩
       | exact ⟨h.1, hb, h.2.2⟩
       | exact ⟨hb, h.2.1, by omega, by omega⟩
       | exact ⟨h.1, hb, by omega, by omega⟩
       | exact ⟨h.1, hb, by omega⟩
       | exact ⟨hb, h.2.1, h.2.2.1, by omega, by omega, by omega⟩
       | exact ⟨h.1, hb, h.2.2.1, by omega, by omega, by omega⟩
       | exact ⟨h.1, h.2.1, hb, by omega, by omega, by omega⟩)

theorem plug_mono (fs : List Frame) : ∀ (a b : Expr), WF (plug fs a) → WF b → lvl a ≤ lvl b → WF (plug fs b) := by
  induction fs with
  | nil => exact fun a b _ hb _ => hb
  | cons f fs ih =>
    intro a b h hb hl
    have hf : WF (f.fill a) := by
      have : ∀ (fs : List Frame) (x : Expr), WF (plug fs x) → WF x := by
        intro fs
        induction fs with
        | nil => exact fun x h => h
        | cons g gs ih' =>
          intro x hx
          have := ih' _ hx
          cases g <;> simp only [Frame.fill, WF] at this <;> first | exact this | exact this.1 | exact this.2.1 | exact this.2.2.1
      exact this fs _ h
    obtain ⟨h1, h2⟩ := fill_mono f a b hf hb hl
    exact ih _ _ h h1 h2

theorem WF_of_plug (fs : List Frame) : ∀ (x : Expr), WF (plug fs x) → WF x := by
  induction fs with
  | nil => exact fun x h => h
  | cons g gs ih' =>
    intro x hx
    have := ih' _ hx
    cases g <;> simp only [Frame.fill, WF] at this <;> first | exact this | exact this.1 | exact this.2.1 | exact this.2.2.1

theorem toks_fill (f : Frame) (x : Expr) : toks (f.fill x) = f.before ++ toks x ++ f.after := by
  cases f <;> simp [Frame.fill, Frame.before, Frame.after, toks]

theorem toks_plug (fs : List Frame) : ∀ x, toks (plug fs x) = around fs (toks x) := by
  induction fs with
  | nil => exact fun _ => rfl
  | cons f fs ih => intro x; rw [plug, ih, toks_fill, around]

theorem strip_fill (f : Frame) (a b : Expr) (h : strip a = strip b) : strip (f.fill a) = strip (f.fill b) := by
  cases f <;> simp [Frame.fill, strip, h]

theorem strip_plug (fs : List Frame) : ∀ (a b : Expr), strip a = strip b → strip (plug fs a) = strip (plug fs b) := by
  induction fs with
  | nil => exact fun _ _ h => h
  | cons f fs ih => exact fun a b h => ih _ _ (strip_fill f a b h)

/-- the tree an operand is copied as -/
def copiedTree (e : Expr) : Expr := if isStrong e then e else .paren e

theorem toks_copied (e : Expr) : toks (copiedTree e) = copied e := by
  unfold copiedTree copied
  cases isStrong e <;> simp [toks, inParens]

theorem strip_copied (e : Expr) : strip (copiedTree e) = strip e := by
  unfold copiedTree
  cases isStrong e <;> simp [strip]

theorem WF_copied {e : Expr} (h : WF e) : WF (copiedTree e) := by
  unfold copiedTree
  cases isStrong e
  · exact h
  · exact h

/-- what is copied without parentheses binds like a call, or is `new` without arguments -/
theorem lvl_copied {e : Expr} (h : WF e) : 16 ≤ lvl (copiedTree e) ∧ ((∀ c, e ≠ .newBare c) → 17 ≤ lvl (copiedTree e)) := by
  unfold copiedTree
  cases hs : isStrong e with
  | false => exact ⟨by simp [lvl], by simp [lvl]⟩
  | true =>
    simp only [if_true]
    cases e <;> simp only [isStrong, Bool.false_eq_true, reduceCtorEq] at hs <;> simp only [WF] at h <;> simp only [lvl] <;>
      first
      | exact ⟨by omega, fun _ => by omega⟩
      | exact ⟨by omega, fun h' => absurd rfl (h' _)⟩

/-- C139: grammar and parser of the specification agree: what is written by the grammar is read as it was meant, and nothing is read in two ways -/
theorem C139_reads (e : Expr) (h : WF e) : ReadsAs (toks e) e ∧ ∀ e', ReadsAs (toks e) e' → e' = e :=
  ⟨readsAs e h, fun _ h' => h'.unique (readsAs e h)⟩

theorem swap_in (fs : List Frame) (node new intended : Expr) (text : List Tok) (h : WF (plug fs node)) (hw : WF new) (hl : lvl node ≤ lvl new) (ht : toks new = text)
    (hs : strip new = strip intended) : ∃ T, ReadsAs (around fs text) T ∧ strip T = strip (plug fs intended) := by
  refine ⟨plug fs new, ?_, strip_plug fs _ _ hs⟩
  rw [← ht, ← toks_plug]
  exact readsAs _ (plug_mono fs _ _ h hw hl)

theorem placed_cases (fs : List Frame) (node new intended : Expr) (text : List Tok) (h : WF (plug fs node)) (hw : WF new) (hl : lvl node ≤ lvl new) (hn : lvl node ≤ 18)
    (ht : toks new = text) (hs : strip new = strip intended) : ∃ T, ReadsAs (around fs (placed fs.head? text)) T ∧ strip T = strip (plug fs intended) := by
  have direct := swap_in fs node new intended text h hw hl ht hs
  have parens := swap_in fs node (.paren new) intended (inParens text) h hw (by simp only [lvl]; exact hn) (by simp [toks, inParens, ht]) hs
  cases fs with
  | nil => exact direct
  | cons f fs =>
    simp only [List.head?_cons, placed]
    cases isWeakParent f && !isParenthesized f
    · exact direct
    · exact parens

/-- C139: prefer-regexp-exec. Wherever the call stood and whatever the object and the argument are (but `new C` without arguments), the replacement is read as the call of `exec` on
the argument, in the same surroundings -/
theorem C139_exec (fs : List Frame) (object argument : Expr) (match_ exec regExp literal : Nat) (h : WF (plug fs (.call (.dot object match_) argument))) :
    ((∀ c, argument ≠ .newBare c) → ∃ T, ReadsAs (around fs (execFix exec fs.head? object argument)) T ∧ strip T = strip (plug fs (.call (.dot argument exec) object))) ∧
    (∃ T, ReadsAs (around fs (constructFix regExp exec fs.head? object argument)) T ∧
      strip T = strip (plug fs (.call (.dot (.call (.atom .identifier regExp) argument) exec) object))) ∧
    (∃ T, ReadsAs (around fs (literalFix literal exec fs.head? object)) T ∧ strip T = strip (plug fs (.call (.dot (.atom .literal literal) exec) object))) := by
  have hw := WF_of_plug fs _ h
  simp only [WF] at hw
  obtain ⟨⟨hwo, _⟩, hwa, _⟩ := hw
  have ho := lvl_copied hwo
  have ha := lvl_copied hwa
  refine ⟨fun hn => ?_, ?_, ?_⟩
  · refine placed_cases fs _ (.call (.dot (copiedTree argument) exec) (copiedTree object)) _ _ h ?_ (by simp [lvl]) (by simp [lvl]) ?_ ?_
    · have := ha.2 hn
      exact ⟨⟨WF_copied hwa, this⟩, WF_copied hwo, by simpa [lvl] using this, by omega⟩
    · simp [toks, toks_copied]
    · simp [strip, strip_copied]
  · refine placed_cases fs _ (.call (.dot (.call (.atom .identifier regExp) (copiedTree argument)) exec) (copiedTree object)) _ _ h ?_ (by simp [lvl]) (by simp [lvl]) ?_ ?_
    · exact ⟨⟨⟨trivial, WF_copied hwa, by simp [lvl], by omega⟩, by simp [lvl]⟩, WF_copied hwo, by simp [lvl], by omega⟩
    · simp [toks, toks_copied]
    · simp [strip, strip_copied]
  · refine placed_cases fs _ (.call (.dot (.atom .literal literal) exec) (copiedTree object)) _ _ h ?_ (by simp [lvl]) (by simp [lvl]) ?_ ?_
    · exact ⟨⟨trivial, by simp [lvl]⟩, WF_copied hwo, by simp [lvl], by omega⟩
    · simp [toks, toks_copied]
    · simp [strip, strip_copied]

/-- C139, hazard: `new C` without arguments is copied without parentheses: `s.match(new RegExp)` becomes `new RegExp.exec(s)`, which constructs `RegExp.exec` -/
theorem C139_hazard_new (object c : Expr) (exec : Nat) (ho : WF object) (hc : WF c) (hl : 18 ≤ lvl c) :
    ∃ T, ReadsAs (execFix exec none object (.newBare c)) T ∧ strip T = strip (.newArgs (.dot c exec) object) ∧ strip T ≠ strip (.call (.dot (.newBare c) exec) object) := by
  have hle := (lvl_copied ho).1
  refine ⟨.newArgs (.dot c exec) (copiedTree object), ?_, by simp [strip, strip_copied], by simp [strip]⟩
  have : execFix exec none object (.newBare c) = toks (.newArgs (.dot c exec) (copiedTree object)) := by
    simp [execFix, placed, copied, isStrong, toks, toks_copied]
  rw [this]
  exact readsAs _ ⟨⟨hc, by omega⟩, WF_copied ho, hl, by omega⟩

/-- C139: no-unnecessary-type-conversion, removing the conversion. The conversion is `String(x)` or `x.toString()` (binds like a call), `+x`, `!!x`, `~~x`, `x + ''` or `x += ''`
(bind weaker): its operand is read in its place -/
theorem C139_removed (fs : List Frame) (node inner : Expr) (h : WF (plug fs node)) (hi : WF inner) (hn : lvl node ≤ 17) (hb : (∀ c, inner ≠ .newBare c) ∨ lvl node ≤ 16) :
    ∃ T, ReadsAs (around fs (removeFix inner)) T ∧ strip T = strip (plug fs inner) := by
  refine swap_in fs node (copiedTree inner) inner _ h (WF_copied hi) ?_ (toks_copied inner) (strip_copied inner)
  obtain ⟨h1, h2⟩ := lvl_copied hi
  rcases hb with hb | hb
  · have := h2 hb; omega
  · omega

/-- C139: no-unnecessary-boolean-literal-compare. `!` before the compared expression is read as its negation -/
theorem C139_negated (fs : List Frame) (node inner : Expr) (h : WF (plug fs node)) (hi : WF inner) (hn : lvl node ≤ 14) :
    ∃ T, ReadsAs (around fs (negateFix inner)) T ∧ strip T = strip (plug fs (.pre .sign inner)) := by
  have h1 := (lvl_copied hi).1
  exact swap_in fs node (.pre .sign (copiedTree inner)) _ _ h ⟨WF_copied hi, by omega⟩ (by simpa [lvl] using hn) (by simp [toks, toks_copied, negateFix]) (by simp [strip, strip_copied])

/-- parents the code does not list as binding stronger than `satisfies`, though they do -/
def Overlooked : Frame → Prop
  | .pre .typeOf | .pre .voidOp | .pre .deleteOp | .nonNull => True
  | _ => False

/-- C139: no-unnecessary-type-conversion, writing `satisfies`. The replacement is read as `x satisfies T` in the place of the conversion, unless that is the operand of `typeof`, `void`,
`delete` or `!` after it -/
theorem C139_satisfies (fs : List Frame) (node inner : Expr) (h : WF (plug fs node)) (hi : WF inner) (ho : ∀ f, fs.head? = some f → ¬ Overlooked f) :
    ∃ T, ReadsAs (around fs (satisfiesFix fs.head? inner)) T ∧ strip T = strip (plug fs (.sat inner)) := by
  have hc := (lvl_copied hi).1
  have hw : WF (.sat (copiedTree inner)) := ⟨WF_copied hi, by omega⟩
  have ht : toks (.sat (copiedTree inner)) = copied inner ++ [.sat] := by simp [toks, toks_copied]
  have hs : strip (.sat (copiedTree inner)) = strip (.sat inner) := by simp [strip, strip_copied]
  have hparens := swap_in fs node (.paren (.sat (copiedTree inner))) (.sat inner) (inParens (copied inner ++ [.sat])) h hw (by simp only [lvl]; exact lvl_le _)
    (by simp [inParens, toks, toks_copied]) hs
  unfold satisfiesFix
  cases fs with
  | nil => exact ⟨.sat (copiedTree inner), by rw [← ht]; exact readsAs _ hw, hs⟩
  | cons f fs =>
    simp only [List.head?_cons, placed]
    by_cases hf : (isWeakParent f && !isParenthesized f) = true
    · rw [if_pos hf]; exact hparens
    · rw [if_neg hf]
      have hff : WF (f.fill node) := WF_of_plug fs _ h
      have hno := ho f rfl
      have hfill : WF (f.fill (.sat (copiedTree inner))) ∧ lvl (f.fill node) ≤ lvl (f.fill (.sat (copiedTree inner))) := by
        have h10 : lvl (.sat (copiedTree inner)) = 10 := rfl
        generalize Expr.sat (copiedTree inner) = x at hw h10
        cases f <;> simp [isWeakParent, isParenthesized] at hf <;> simp only [Frame.fill, WF, lvl] at hff ⊢
        case paren => exact ⟨hw, Nat.le_refl _⟩
        case indexArg e => exact ⟨⟨hff.1, hw, hff.2.2⟩, Nat.le_refl _⟩
        case arg e => exact ⟨⟨hff.1, hw, hff.2.2.1, by omega⟩, Nat.le_refl _⟩
        case newArg c => exact ⟨⟨hff.1, hw, hff.2.2.1, by omega⟩, Nat.le_refl _⟩
        case nonNull => exact absurd trivial hno
        case pre op => cases op <;> simp [isWeakParent, isParenthesized] at hf <;> exact absurd trivial hno
        case sat => exact ⟨⟨hw, by omega⟩, Nat.le_refl _⟩
        case arrow => exact ⟨⟨hw, by omega⟩, Nat.le_refl _⟩
      refine ⟨plug (f :: fs) (.sat (copiedTree inner)), ?_, strip_plug (f :: fs) _ _ hs⟩
      rw [← ht, ← toks_plug]
      exact readsAs _ (plug_mono fs _ _ h hfill.1 hfill.2)

/-- C139, hazard: below `typeof`, `void` and `delete` the replacement is read as `(typeof x) satisfies T` -/
theorem C139_hazard_typeof (inner : Expr) (op : Prefix) (hi : WF inner) (ho : op = .typeOf ∨ op = .voidOp ∨ op = .deleteOp) :
    ∃ T, ReadsAs (around [.pre op] (satisfiesFix (some (.pre op)) inner)) T ∧ strip T = strip (.sat (.pre op inner)) := by
  have hc := (lvl_copied hi).1
  refine ⟨.sat (.pre op (copiedTree inner)), ?_, by simp [strip, strip_copied]⟩
  have : around [.pre op] (satisfiesFix (some (.pre op)) inner) = toks (.sat (.pre op (copiedTree inner))) := by
    rcases ho with rfl | rfl | rfl <;> simp [around, Frame.before, Frame.after, satisfiesFix, placed, isWeakParent, toks, toks_copied]
  rw [this]
  exact readsAs _ ⟨⟨WF_copied hi, by omega⟩, by simp [lvl]⟩

/-- C139, hazard: before `!` the replacement is no expression -/
theorem C139_hazard_nonNull (inner : Expr) (hi : WF inner) : ¬ ∃ T, ReadsAs (around [.nonNull] (satisfiesFix (some .nonNull) inner)) T := by
  rintro ⟨T, n, hT⟩
  have hc := (lvl_copied hi).1
  have e : around [.nonNull] (satisfiesFix (some .nonNull) inner) = toks (copiedTree inner) ++ [.sat, .bang] := by
    simp [around, Frame.before, Frame.after, satisfiesFix, placed, isWeakParent, toks_copied]
  rw [e] at hT
  have stuck : ∀ k, parse (k + 2) (.loop 0 (copiedTree inner)) [.sat, .bang] = none := by
    intro k
    simp [parse, goesOn, lbp, lvl]
  have key := reads (copiedTree inner) 0 [.sat, .bang] none (WF_copied hi) (Nat.zero_le _) (by
    intro t r b h1 h2
    obtain ⟨rfl, _⟩ := List.cons.inj h1
    obtain rfl := Option.some.inj h2
    have := le_absorb (lvl_le (copiedTree inner))
    omega) ⟨2, fun k hk => by obtain ⟨j, rfl⟩ : ∃ j, k = j + 2 := ⟨k - 2, by omega⟩; exact stuck j⟩
  obtain ⟨m, hm⟩ := key
  have h1 := hT (max n m) (by omega)
  rw [hm (max n m) (by omega)] at h1
  exact nomatch h1

/-! The hypotheses can be met. -/

/-- `s`, `r`, `a ? r : q`, `new RegExp`, and `!s.match(a ? r : q).length` -/
def s : Expr := .atom .identifier 0
def r : Expr := .atom .identifier 1
def choice : Expr := .cond (.atom .identifier 2) r (.atom .identifier 3)
def surroundings : List Frame := [.dot 9, .pre .sign, .binLeft 3 s]

example : WF (plug surroundings (.call (.dot s 5) choice)) ∧ (∀ c, choice ≠ .newBare c) := by
  refine ⟨?_, fun c => by simp [choice]⟩
  simp only [surroundings, plug, Frame.fill, WF, s, choice, r, lvl, prec]
  decide

/-- `((a ? r : q).exec(s)).length` -/
example : execFix 6 (some (.dot 9)) s choice =
    [.lp, .lp, .atom .identifier 2, .quest, .atom .identifier 1, .colon, .atom .identifier 3, .rp, .dot 6, .lp, .atom .identifier 0, .rp, .rp] := by decide

example : WF (plug [.arg r] (.call r s)) ∧ ∀ f, ([Frame.arg r] : List Frame).head? = some f → ¬ Overlooked f := by
  refine ⟨?_, fun f hf => ?_⟩
  · simp only [plug, Frame.fill, WF, s, r, lvl]; decide
  · obtain rfl := Option.some.inj hf; exact id

example : WF (plug [.binLeft 0 s] (.bin 4 r s)) ∧ lvl (.bin 4 r s) ≤ 14 := by
  refine ⟨?_, by decide⟩
  simp only [plug, Frame.fill, WF, s, r, lvl, prec]; decide

example : WF (.atom .identifier 7) ∧ 18 ≤ lvl (.atom .identifier 7) := ⟨trivial, by decide⟩

end Tsgolint.Wrapping
