import Verif.Spec.BooleanCompare
import Verif.Proof.StableFix
/-! # C54: unnecessary comparisons with boolean literals -/
namespace Tsgolint.BooleanCompare
open Fixer (Fix Bytes ascii Seg AppliesTo StableSorted)

/-- The replacement chosen for a comparison (`isUnaryNegation`: the comparison is the operand of a `!`). -/
def resultOf (c : Comparison) (isUnaryNegation : Bool) : Result :=
  ⟨(c.negated != c.literal) == isUnaryNegation, c.nullable && !c.literal⟩

theorem foldl_flags (ps : List Flags) (f : Flags) :
    ps.foldl (fun acc p => (⟨acc.booleanLike || p.booleanLike, acc.nullable || p.nullable⟩ : Flags)) f
      = ⟨f.booleanLike || ps.any (·.booleanLike), f.nullable || ps.any (·.nullable)⟩ := by
  induction ps generalizing f with
  | nil => simp
  | cons p ps ih => simp [ih, Bool.or_assoc]

/-- C54 (which).  A comparison is reported exactly if it is an (in)equality with a literal `true`/`false` on one side (the right
one if both are) whose other side has a boolean type, or a union with a boolean and a nullish constituent, the latter only if
the option for that literal is off. -/
theorem C54_reported_iff (o : Options) (op : Op) (left right : Operand) (typeOf : Side → ExprTy) :
    (check o op left right typeOf).isSome = true ↔
      op ≠ .other ∧ ∃ side lit,
        ((side = .left ∧ (right = .tru ∧ lit = true ∨ right = .fls ∧ lit = false)) ∨
         (side = .right ∧ right = .expr ∧ (left = .tru ∧ lit = true ∨ left = .fls ∧ lit = false))) ∧
        ∃ t, (typeOf side).constraint = some t ∧
          (t.own.booleanLike = true ∨
           ((∃ ps, t.union = some ps ∧ (∃ p ∈ ps, p.nullable = true) ∧ ∃ p ∈ ps, p.booleanLike = true) ∧
             (lit = true → o.allowNullableTrue = false) ∧ (lit = false → o.allowNullableFalse = false))) := by
  have key : ∀ (side : Side) (lit neg : Bool),
      ((judge (typeOf side) side lit neg).any
          (fun c => !(c.nullable && ((c.literal && o.allowNullableTrue) || (!c.literal && o.allowNullableFalse))))) = true ↔
      ∃ t, (typeOf side).constraint = some t ∧
          (t.own.booleanLike = true ∨
           ((∃ ps, t.union = some ps ∧ (∃ p ∈ ps, p.nullable = true) ∧ ∃ p ∈ ps, p.booleanLike = true) ∧
             (lit = true → o.allowNullableTrue = false) ∧ (lit = false → o.allowNullableFalse = false))) := by
    intro side lit neg
    unfold judge
    cases hc : (typeOf side).constraint with
    | none => cases (typeOf side).isTypeParameter <;> simp [isBooleanType, isNullableBoolean]
    | some t =>
      obtain ⟨own, union⟩ := t
      cases hb : own.booleanLike
      · cases union with
        | none => simp [isBooleanType, isNullableBoolean, hb]
        | some ps =>
          simp only [isBooleanType, hb, isNullableBoolean, foldl_flags, Option.isNone_some, Bool.and_false, Bool.false_eq_true,
            if_false, Bool.false_or]
          cases h1 : ps.any (·.nullable) <;> cases h2 : ps.any (·.booleanLike) <;> cases lit <;>
            cases o.allowNullableTrue <;> cases o.allowNullableFalse <;>
            simp_all
      · simp [isBooleanType, hb]
  have hcheck : (check o op left right typeOf).isSome
      = (getBooleanComparison op left right typeOf).any
          (fun c => !(c.nullable && ((c.literal && o.allowNullableTrue) || (!c.literal && o.allowNullableFalse)))) := by
    unfold check
    cases getBooleanComparison op left right typeOf with
    | none => rfl
    | some c => simp only [Option.any_some]; split <;> next h => (simp only [h]; rfl)
  rw [hcheck]
  unfold getBooleanComparison
  cases op <;> cases right <;> cases left <;>
    simp [deconstruct, - Bool.not_eq_true', -Option.any_eq_true, -Bool.not_and, key]

theorem comparison_facts {op : Op} {left right : Operand} {typeOf : Side → ExprTy} {c : Comparison}
    (h : getBooleanComparison op left right typeOf = some c) :
    op ≠ .other ∧ c.negated = (op == .ne || op == .neeq) ∧
    (c.side = .left ∧ (right = .tru ∧ c.literal = true ∨ right = .fls ∧ c.literal = false) ∨
      c.side = .right ∧ right = .expr ∧ (left = .tru ∧ c.literal = true ∨ left = .fls ∧ c.literal = false)) ∧
    ∃ t, (typeOf c.side).constraint = some t ∧
      (c.nullable = false → t.own.booleanLike = true) ∧
      (c.nullable = true → ∃ ps, t.union = some ps) := by
  have key : ∀ (side : Side) (lit neg : Bool), judge (typeOf side) side lit neg = some c →
      c.side = side ∧ c.literal = lit ∧ c.negated = neg ∧ ∃ t, (typeOf side).constraint = some t ∧
        (c.nullable = false → t.own.booleanLike = true) ∧ (c.nullable = true → ∃ ps, t.union = some ps) := by
    intro side lit neg h
    unfold judge at h
    cases hc : (typeOf side).constraint with
    | none => rw [hc] at h; cases hp : (typeOf side).isTypeParameter <;> simp [isBooleanType, isNullableBoolean] at h
    | some t =>
      rw [hc] at h
      obtain ⟨own, union⟩ := t
      simp only [Option.isNone_some, Bool.and_false, Bool.false_eq_true, if_false] at h
      split at h
      · next hb => cases h; simp_all [isBooleanType]
      · split at h
        · next hn =>
          cases h
          cases union with
          | none => simp [isNullableBoolean] at hn
          | some ps => simp
        · cases h
  unfold getBooleanComparison at h
  cases op <;> cases right <;> cases left <;> simp [deconstruct] at h <;>
    (obtain ⟨h1, h2, h3, t, h4, h5⟩ := key _ _ _ (by simpa using h); rw [h1, h2, h3]; refine ⟨by simp, by simp, by simp, t, h4, h5⟩)

/-- The value of the comparison expression or, if it is the operand of a `!`, of that `!` expression. -/
def Js.original (js : Js) (op : Op) (isUnaryNegation : Bool) (v : Val) (lit : Bool) : Bool :=
  if isUnaryNegation then !js.compare op v lit else js.compare op v lit

/-- C54 (meaning).  Whenever the rule accepts a comparison and the compared expression can only be a boolean, null or undefined,
then for every value of the expression the replacement is truthy exactly when the original (the comparison, or its negation
when the enclosing `!` is replaced too) was true. -/
theorem C54_same_condition (js : Js) (op : Op) (left right : Operand) (typeOf : Side → ExprTy) (c : Comparison) (t : Ty)
    (isUnaryNegation : Bool) (v : Val)
    (h : getBooleanComparison op left right typeOf = some c) (ht : (typeOf c.side).constraint = some t)
    (honly : t.OnlyNullableBoolean) (hv : t.Denotes v) :
    js.toBoolean (js.result (resultOf c isUnaryNegation) v) = js.original op isUnaryNegation v c.literal := by
  obtain ⟨h1, h2, -, t', h4, h5, h6⟩ := comparison_facts h
  obtain rfl : t = t' := by rw [ht] at h4; exact Option.some.inj h4
  have hv' : ∃ b, v = .bool b ∨ c.nullable = true ∧ (v = .null ∨ v = .undefined) := by
    cases hn : c.nullable with
    | false => obtain ⟨b, hb⟩ := hv.1.1 (h5 hn); exact ⟨b, .inl hb⟩
    | true =>
      obtain ⟨ps, hps⟩ := h6 hn
      obtain ⟨p, hp, hd⟩ := hv.2 ps hps
      cases hb : p.booleanLike with
      | true => obtain ⟨b, hb⟩ := hd.1 hb; exact ⟨b, .inl hb⟩
      | false =>
        have := (honly ps hps p hp).resolve_left (by simp [hb])
        exact ⟨true, .inr ⟨rfl, hd.2 hb this⟩⟩
  obtain ⟨cs, cl, cn, cu⟩ := c
  simp only at h2 hv'
  obtain ⟨b, rfl | ⟨rfl, rfl | rfl⟩⟩ := hv' <;>
    (subst h2; cases op <;> simp at h1 <;> cases cl <;> cases isUnaryNegation <;> first | (cases cu <;> cases b <;> rfl) | (cases b <;> rfl))

/-- C54 (value).  The replacement even has the same boolean value, except that for a nullable expression compared to `true` and
not negated it is the expression itself, which may be null or undefined instead of false. -/
theorem C54_same_value (js : Js) (op : Op) (left right : Operand) (typeOf : Side → ExprTy) (c : Comparison) (t : Ty)
    (isUnaryNegation : Bool) (v : Val)
    (h : getBooleanComparison op left right typeOf = some c) (ht : (typeOf c.side).constraint = some t)
    (honly : t.OnlyNullableBoolean) (hv : t.Denotes v) :
    js.result (resultOf c isUnaryNegation) v = .bool (js.original op isUnaryNegation v c.literal) ∨
    (c.nullable = true ∧ c.literal = true ∧ (resultOf c isUnaryNegation).negate = false ∧ (v = .null ∨ v = .undefined) ∧
      js.result (resultOf c isUnaryNegation) v = v ∧ js.original op isUnaryNegation v c.literal = false) := by
  have hc := C54_same_condition js op left right typeOf c t isUnaryNegation v h ht honly hv
  have hneg : ∀ r : Result, r.negate = true → ∃ b, js.result r v = .bool b := by
    intro r hr; simp [Js.result, hr]
  cases hr : (resultOf c isUnaryNegation).negate with
  | true =>
    obtain ⟨b, hb⟩ := hneg _ hr
    left
    rw [hb] at hc ⊢
    simpa [Js.toBoolean] using hc
  | false =>
    obtain ⟨-, -, -, t', h4, h5, h6⟩ := comparison_facts h
    obtain rfl : t = t' := by rw [ht] at h4; exact Option.some.inj h4
    cases v with
    | bool b =>
      left
      have : js.result (resultOf c isUnaryNegation) (.bool b) = .bool b := by simp [Js.result, hr]
      rw [this] at hc ⊢
      simpa [Js.toBoolean] using hc
    | other n =>
      exfalso
      cases hn : c.nullable with
      | false => obtain ⟨b, hb⟩ := hv.1.1 (h5 hn); cases hb
      | true =>
        obtain ⟨ps, hps⟩ := h6 hn
        obtain ⟨p, hp, hd⟩ := hv.2 ps hps
        cases hb : p.booleanLike with
        | true => obtain ⟨b, hb⟩ := hd.1 hb; cases hb
        | false =>
          have := (honly ps hps p hp).resolve_left (by simp [hb])
          rcases hd.2 hb this with h | h <;> cases h
    | null =>
      cases hn : c.nullable with
      | false => obtain ⟨b, hb⟩ := hv.1.1 (h5 hn); cases hb
      | true =>
        cases hl : c.literal with
        | false =>
          left
          have hs : js.result (resultOf c isUnaryNegation) .null = .bool true := by
            simp [Js.result, hr]; simp [resultOf, hn, hl]
          rw [hs] at hc ⊢
          rw [← hl, ← hc]; rfl
        | true =>
          right
          have hs : js.result (resultOf c isUnaryNegation) .null = .null := by
            simp [Js.result, hr]; simp [resultOf, hl]
          rw [hs] at hc
          refine ⟨rfl, rfl, rfl, .inl rfl, hs, ?_⟩
          rw [← hl, ← hc]; rfl
    | undefined =>
      cases hn : c.nullable with
      | false => obtain ⟨b, hb⟩ := hv.1.1 (h5 hn); cases hb
      | true =>
        cases hl : c.literal with
        | false =>
          left
          have hs : js.result (resultOf c isUnaryNegation) .undefined = .bool true := by
            simp [Js.result, hr]; simp [resultOf, hn, hl]
          rw [hs] at hc ⊢
          rw [← hl, ← hc]; rfl
        | true =>
          right
          have hs : js.result (resultOf c isUnaryNegation) .undefined = .undefined := by
            simp [Js.result, hr]; simp [resultOf, hl]
          rw [hs] at hc
          refine ⟨rfl, rfl, rfl, .inr rfl, hs, ?_⟩
          rw [← hl, ← hc]; rfl

/-- C54 (text).  The edits of the fix turn the replaced node, wherever it stands in the file, into the source text of the
replacement, everything else staying as it is. -/
theorem C54_fix_text (c : Comparison) (isUnaryNegation strong : Bool) (pre node post text : Bytes) (hne : node ≠ []) :
    AppliesTo (pre ++ node ++ post) (fixes c isUnaryNegation strong text pre.length (pre.length + node.length))
      (pre ++ (resultOf c isUnaryNegation).text strong text ++ post) := by
  have hlen : 0 < node.length := List.length_pos_iff.2 hne
  have h1 : ¬((pre.length : Int) + node.length = pre.length) := by omega
  have h2 : ¬((pre.length : Int) = pre.length + node.length) := by omega
  obtain ⟨side, literal, negated, nullable⟩ := c
  have key := Fixer.surround_applies pre node post text
    (fixes ⟨side, literal, negated, nullable⟩ isUnaryNegation strong text pre.length (pre.length + node.length)) _ _ rfl rfl hne ?_ ?_
  · refine cast (congrArg _ ?_) key
    simp only [Fixer.textsAt, fixes, resultOf, Result.text]
    cases literal <;> cases negated <;> cases nullable <;> cases isUnaryNegation <;> cases strong <;> simp [h1, h2, ascii]
  · simp only [fixes]
    cases literal <;> cases negated <;> cases nullable <;> cases isUnaryNegation <;> cases strong <;> simp
  · simp only [Fixer.textsAt, fixes]
    cases literal <;> cases negated <;> cases nullable <;> cases isUnaryNegation <;> cases strong <;> simp [h1, h2]

/-- C54 (operators).  An operand of an equality binds at least as tightly as `===`, and a node treated as strong at least as
tightly as `!`.  Then the operators written by the fix apply to the compared expression as a whole. -/
theorem C54_operands (c : Comparison) (isUnaryNegation strong : Bool) (p : Prec) (hp : Prec.equality.level ≤ p.level)
    (hs : strong = true → Prec.unary.level ≤ p.level) : (resultOf c isUnaryNegation).Operands strong p := by
  generalize resultOf c isUnaryNegation = r
  obtain ⟨n, o⟩ := r
  cases n <;> cases o <;> cases strong <;> simp_all [Result.Operands, Prec.level] <;> omega

/-- C54 (surroundings).  The replacement binds at least as tightly as the node it replaces (the comparison, or the `!`
expression) — so that it cannot be torn apart by the surrounding code — except exactly when a `!` expression is replaced by the
bare expression and that binds less tightly than `!`. -/
theorem C54_surroundings (c : Comparison) (isUnaryNegation : Bool) (p : Prec) (hp : Prec.equality.level ≤ p.level) :
    (if isUnaryNegation then Prec.unary else Prec.equality).level ≤ ((resultOf c isUnaryNegation).prec p).level ↔
      ¬(isUnaryNegation = true ∧ c.negated = c.literal ∧ ¬(c.nullable = true ∧ c.literal = false) ∧ p.level < Prec.unary.level) := by
  obtain ⟨s, l, n, u⟩ := c
  cases l <;> cases n <;> cases u <;> cases isUnaryNegation <;> simp_all [resultOf, Result.prec, Prec.level] <;> omega

/-- C54 (hazard).  The exception is real: in `!!(a < b === false)` the inner `!` expression is replaced by `a < b`, giving
`!a < b`, which compares the negation of `a` with `b`. -/
theorem C54_hazard_precedence :
    getBooleanComparison .eqeq .expr .fls (fun _ => ⟨false, some ⟨⟨true, false⟩, some [⟨true, false⟩, ⟨true, false⟩]⟩⟩)
      = some ⟨.left, false, false, false⟩ ∧
    AppliesTo (ascii "!!(a < b === false)") (fixes ⟨.left, false, false, false⟩ true false (ascii "a < b") 1 19) (ascii "!a < b") := by
  refine ⟨by decide, ?_⟩
  exact C54_fix_text ⟨.left, false, false, false⟩ true false (ascii "!") (ascii "!(a < b === false)") [] (ascii "a < b") (by decide)

/-- C54 (hazard).  Contrary to the rule's comment, unions with further constituents count as nullable booleans: for
`x: string | boolean | null` the test `x === true` is reported and replaced by `x`, which is truthy for every non-empty string. -/
theorem C54_hazard_other_types :
    ∃ (t : Ty) (v : Val) (js : Js), ¬t.OnlyNullableBoolean ∧ t.Denotes v ∧
      check ⟨false, false⟩ .eqeq .expr .tru (fun _ => ⟨false, some t⟩) = some (⟨.left, true, false, true⟩, .comparingNullableToTrueDirect) ∧
      js.original .eqeq false v true = false ∧ js.toBoolean (js.result (resultOf ⟨.left, true, false, true⟩ false) v) = true := by
  refine ⟨⟨⟨false, false⟩, some [⟨false, false⟩, ⟨true, false⟩, ⟨false, true⟩]⟩, .other 0, ⟨fun _ => true, fun _ _ => false⟩, ?_, ?_, by decide, rfl, rfl⟩
  · intro h
    have := h _ rfl ⟨false, false⟩ (by simp)
    simp at this
  · refine ⟨⟨by simp, by simp⟩, ?_⟩
    intro ps h
    cases h
    exact ⟨⟨false, false⟩, by simp, by simp, by simp⟩

/-- The type `boolean | null`. -/
example : getBooleanComparison .neeq .fls .expr (fun _ => ⟨false, some ⟨⟨false, false⟩, some [⟨true, false⟩, ⟨true, false⟩, ⟨false, true⟩]⟩⟩)
    = some ⟨.right, false, true, true⟩ := by decide
example : (⟨⟨false, false⟩, some [⟨true, false⟩, ⟨false, true⟩]⟩ : Ty).OnlyNullableBoolean := by
  intro ps h; cases h; simp
example : (⟨⟨false, false⟩, some [⟨true, false⟩, ⟨false, true⟩]⟩ : Ty).Denotes .null := by
  refine ⟨⟨by simp, by simp⟩, fun ps h => ?_⟩
  cases h
  exact ⟨⟨false, true⟩, by simp, by simp, by simp⟩
/-- `false !== x` becomes `(x ?? true)`, `!(x === false)` becomes `(x ?? true)`, `x === false` becomes `!(x ?? true)`. -/
example : (resultOf ⟨.right, false, true, true⟩ false).text true (ascii "x") = ascii "(x ?? true)" := by decide
example : (resultOf ⟨.left, false, false, true⟩ true).text true (ascii "x") = ascii "(x ?? true)" := by decide
example : (resultOf ⟨.left, false, false, true⟩ false).text false (ascii "a < b") = ascii "!((a < b) ?? true)" := by decide
example : (check ⟨true, false⟩ .eqeq .expr .tru (fun _ => ⟨true, some ⟨⟨true, false⟩, none⟩⟩)).isSome = true := by decide
example : (check ⟨true, false⟩ .eqeq .expr .tru (fun _ => ⟨true, none⟩)).isSome = false := by decide

end Tsgolint.BooleanCompare
