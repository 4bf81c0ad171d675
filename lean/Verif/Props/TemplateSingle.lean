import Verif.Spec.TemplateSingle
import Verif.Proof.StableFix
/-! # C129 -/
namespace Tsgolint.TemplateSingle
open Tsgolint.Fixer
variable {K T V : Type}

theorem ofAll_append (M : Meaning K V) (a b : List (Expr K)) : M.ofAll (a ++ b) = M.ofAll a ++ M.ofAll b := by
  induction a with
  | nil => rfl
  | cons e a ih =>
    show M.of e :: M.ofAll (a ++ b) = M.of e :: (M.ofAll a ++ M.ofAll b)
    rw [ih]

theorem of_plug (M : Meaning K V) (fs : List (Frame K)) : ∀ e e' : Expr K, M.of e = M.of e' → M.of (plug fs e) = M.of (plug fs e') := by
  induction fs with
  | nil => intro e e' h; exact h
  | cons f fs ih =>
    intro e e' h
    refine ih _ _ ?_
    cases f with
    | node k before after =>
      show M.node k (M.ofAll (before ++ e :: after)) = M.node k (M.ofAll (before ++ e' :: after))
      rw [ofAll_append, ofAll_append]
      show M.node k (M.ofAll before ++ M.of e :: M.ofAll after) = M.node k (M.ofAll before ++ M.of e' :: M.ofAll after)
      rw [h]
    | paren => exact h
    | template =>
      show M.str (M.of e) = M.str (M.of e')
      rw [h]

/-- C129 (meaning).  If a template leaves its only interpolation as it is — it is a string — then replacing the template by it keeps the
meaning of everything around. -/
theorem C129_meaning (G : Grammar K) (M : Meaning K V) (parent : Frame K) (outer : List (Frame K)) (e : Expr K) (h : M.str (M.of e) = M.of e) :
    M.of (fixed G parent outer e) = M.of (plug (parent :: outer) (.template e)) := by
  refine of_plug M _ _ _ ?_
  show M.of (replacement G parent e) = M.str (M.of e)
  rw [h]
  unfold replacement
  cases needsParentheses G parent e <;> rfl

theorem needsParentheses_iff (G : Grammar K) (parent : Frame K) (e : Expr K) :
    needsParentheses G parent e = true ↔ (parent.isNullish G = true ∧ e.isLogical G = true) ∨ (parent.isExpression G = true ∧ e.prec G ≤ parent.prec G) := by
  simp [needsParentheses]

/-- C129 (parentheses).  The interpolation is put in parentheses exactly if it is `||` or `&&` below `??`, or the parent is an expression
that binds at least as tight. -/
theorem C129_parentheses (G : Grammar K) (parent : Frame K) (e : Expr K) :
    (replacement G parent e = .paren e ∨ replacement G parent e = e) ∧
    (replacement G parent e = .paren e ↔ (parent.isNullish G = true ∧ e.isLogical G = true) ∨ (parent.isExpression G = true ∧ e.prec G ≤ parent.prec G)) := by
  rw [← needsParentheses_iff]
  unfold replacement
  have hne : e ≠ .paren e := by
    intro h
    have := congrArg sizeOf h
    simp at this
  cases needsParentheses G parent e with
  | true => simp
  | false => simp [hne]

theorem legal_plug_inner (A : Accepts K) (fs : List (Frame K)) : ∀ e : Expr K, Legal A (plug fs e) → Legal A e := by
  induction fs with
  | nil => intro e h; exact h
  | cons f fs ih =>
    intro e h
    have h' := ih _ h
    cases f with
    | node k before after =>
      have h'' : Legal A (.node k (before ++ e :: after)) := h'
      cases h'' with
      | node h1 h2 => exact h1 e (by simp)
    | paren =>
      have h'' : Legal A (.paren e) := h'
      cases h'' with
      | paren h => exact h
    | template =>
      have h'' : Legal A (.template e) := h'
      cases h'' with
      | template h => exact h

/-- Replacing a legal node by another, of the same kind of root. -/
theorem legal_plug_congr (A : Accepts K) (fs : List (Frame K)) : ∀ e e' : Expr K, Legal A e' →
    (∀ k i, (∀ j cs, e = .node j cs → A k i j) → ∀ j cs, e' = .node j cs → A k i j) → Legal A (plug fs e) → Legal A (plug fs e') := by
  induction fs with
  | nil => intro e e' h _ _; exact h
  | cons f fs ih =>
    intro e e' he hk h
    refine ih (f.plug e) (f.plug e') ?_ ?_ h
    · have h' := legal_plug_inner A fs _ h
      cases f with
      | node k before after =>
        have h'' : Legal A (.node k (before ++ e :: after)) := h'
        show Legal A (.node k (before ++ e' :: after))
        cases h'' with
        | node h1 h2 =>
          refine .node ?_ ?_
          · intro x hx
            rcases List.mem_append.1 hx with hx | hx
            · exact h1 x (by simp [hx])
            · rcases List.mem_cons.1 hx with rfl | hx
              · exact he
              · exact h1 x (by simp [hx])
          · intro i j cs hi
            by_cases hlt : i < before.length
            · refine h2 i j cs ?_
              rw [List.getElem?_append_left hlt] at hi ⊢
              exact hi
            · by_cases heq : i = before.length
              · subst heq
                rw [List.getElem?_append_right (Nat.le_refl _)] at hi
                simp only [Nat.sub_self, List.getElem?_cons_zero, Option.some.injEq] at hi
                refine hk k before.length ?_ j cs hi
                intro j' cs' he'
                refine h2 before.length j' cs' ?_
                rw [List.getElem?_append_right (Nat.le_refl _)]
                simp [he']
              · refine h2 i j cs ?_
                have hge : before.length ≤ i := by omega
                rw [List.getElem?_append_right hge] at hi ⊢
                obtain ⟨m, hm⟩ : ∃ m, i - before.length = m + 1 := ⟨i - before.length - 1, by omega⟩
                rw [hm] at hi ⊢
                simpa using hi
      | paren => exact .paren he
      | template => exact .template he
    · intro k i hA j cs hj
      cases f with
      | node k' before after =>
        cases hj
        exact hA _ _ rfl
      | paren => exact absurd hj (by simp [Frame.plug])
      | template => exact absurd hj (by simp [Frame.plug])

/-- C129 (grammar).  If the parent is an expression (or a template, or parentheses), or a statement or type that accepts the
interpolation without parentheses, the program stays one that can be written down as it is: the interpolation is still one
operand. -/
theorem C129_grammar (G : Grammar K) (A : Accepts K) (hA : Lawful G A) (parent : Frame K) (outer : List (Frame K)) (e : Expr K)
    (h : Legal A (plug (parent :: outer) (.template e)))
    (hs : ∀ k before after j cs, parent = .node k before after → G.isExpression k = false → e = .node j cs → A k before.length j) :
    Legal A (fixed G parent outer e) := by
  have hin : Legal A e := by
    have h1 : Legal A (.template e) := legal_plug_inner A _ _ h
    cases h1 with
    | template h => exact h
  -- the parent with the replacement is legal
  have hpar : Legal A (parent.plug (replacement G parent e)) := by
    have h2 : Legal A (parent.plug (.template e)) := legal_plug_inner A outer _ h
    cases hn : needsParentheses G parent e with
    | true =>
      have hr : replacement G parent e = .paren e := by unfold replacement; rw [hn]; rfl
      rw [hr]
      refine legal_plug_congr A [parent] (.template e) (.paren e) (.paren hin) ?_ h2
      intro k i _ j cs hj
      exact absurd hj (by simp)
    | false =>
      have hr : replacement G parent e = e := by unfold replacement; rw [hn]; rfl
      rw [hr]
      cases parent with
      | paren => exact .paren hin
      | template => exact .template hin
      | node k before after =>
        have h3 : Legal A (.node k (before ++ .template e :: after)) := h2
        show Legal A (.node k (before ++ e :: after))
        cases h3 with
        | node h1 h2 =>
          refine .node ?_ ?_
          · intro x hx
            rcases List.mem_append.1 hx with hx | hx
            · exact h1 x (by simp [hx])
            · rcases List.mem_cons.1 hx with rfl | hx
              · exact hin
              · exact h1 x (by simp [hx])
          · intro i j cs hi
            by_cases hlt : i < before.length
            · refine h2 i j cs ?_
              rw [List.getElem?_append_left hlt] at hi ⊢
              exact hi
            · by_cases heq : i = before.length
              · subst heq
                rw [List.getElem?_append_right (Nat.le_refl _)] at hi
                simp only [Nat.sub_self, List.getElem?_cons_zero, Option.some.injEq] at hi
                have hneg : ¬((G.isNullish k = true ∧ e.isLogical G = true) ∨ (G.isExpression k = true ∧ e.prec G ≤ G.prec k)) := by
                  intro hc
                  have := (needsParentheses_iff G (.node k before after) e).2 hc
                  rw [hn] at this
                  exact absurd this (by decide)
                cases hx : G.isExpression k with
                | true =>
                  refine hA k _ j hx ?_ ?_
                  · have : ¬ e.prec G ≤ G.prec k := fun hle => hneg (.inr ⟨hx, hle⟩)
                    rw [hi] at this
                    exact Int.not_le.1 this
                  · rintro ⟨h5, h6⟩
                    exact hneg (.inl ⟨h5, by rw [hi]; exact h6⟩)
                | false => exact hs k before after j cs rfl hx hi
              · refine h2 i j cs ?_
                have hge : before.length ≤ i := by omega
                rw [List.getElem?_append_right hge] at hi ⊢
                obtain ⟨m, hm⟩ : ∃ m, i - before.length = m + 1 := ⟨i - before.length - 1, by omega⟩
                rw [hm] at hi ⊢
                simpa using hi
  refine legal_plug_congr A outer (parent.plug (.template e)) (parent.plug (replacement G parent e)) hpar ?_ h
  intro k i hk j cs hj
  cases parent with
  | node k' before after =>
    cases hj
    exact hk _ _ rfl
  | paren => exact absurd hj (by simp [Frame.plug])
  | template => exact absurd hj (by simp [Frame.plug])

/-- C129 (which templates).  A template, not tagged, is replaced by its interpolation exactly if that is all there is in it, without
comments, and all values of its type are strings — in a type: it is no type parameter and no enum member. -/
theorem C129_reported (Y : Types T) (s : Site T) :
    listen Y s = .single ↔ (s.isType = false → s.tagged = false) ∧ s.spans = 1 ∧ s.head = [] ∧ s.tail = [] ∧ s.comments = false ∧
      ∃ t, s.constraint = some t ∧ AllStrings Y t ∧ (s.isType = true → s.isTypeParameter = false ∧ ∀ l ∈ Y.leaves t, Y.enumMember l = false) := by
  have hstr : ∀ t, isUnderlyingString Y t = true ↔ AllStrings Y t := by
    intro t; simp [isUnderlyingString, AllStrings]
  have henum : ∀ t, isEnumMember Y t = false ↔ ∀ l ∈ Y.leaves t, Y.enumMember l = false := by
    intro t; simp [isEnumMember]
  have htype : typeTest Y s = true ↔ ∃ t, s.constraint = some t ∧ AllStrings Y t ∧
      (s.isType = true → s.isTypeParameter = false ∧ ∀ l ∈ Y.leaves t, Y.enumMember l = false) := by
    unfold typeTest
    cases s.constraint with
    | none => simp
    | some t =>
      simp only [← hstr, ← henum, Option.some.injEq, exists_eq_left']
      cases s.isType <;> cases s.isTypeParameter <;> cases isUnderlyingString Y t <;> cases isEnumMember Y t <;> simp
  have htriv : isTrivial s = true ↔ s.spans = 1 ∧ s.head = [] ∧ s.tail = [] ∧ s.comments = false := by
    simp [isTrivial, and_assoc]
  rw [← htype]
  unfold listen
  have h1 : (s.spans = 1 ∧ s.head = [] ∧ s.tail = [] ∧ s.comments = false ∧ typeTest Y s = true) ↔ (isTrivial s = true ∧ typeTest Y s = true) := by
    rw [htriv]; simp [and_assoc]
  rw [h1]
  cases s.isType <;> cases s.tagged <;> cases isTrivial s <;> cases typeTest Y s <;> simp

/-- C129 (otherwise).  A tagged template is left alone; the interpolations of any other are judged one by one (C47). -/
theorem C129_otherwise (Y : Types T) (s : Site T) :
    (listen Y s = .nothing ↔ s.isType = false ∧ s.tagged = true) ∧ (listen Y s = .spans ↔ listen Y s ≠ .single ∧ ¬(s.isType = false ∧ s.tagged = true)) := by
  unfold listen
  cases s.isType <;> cases s.tagged <;> cases isTrivial s <;> cases typeTest Y s <;> simp

/-- C129 (edit).  The fix replaces the template by the text of the interpolation, in parentheses if they are needed, and nothing else. -/
theorem C129_text (parens : Bool) (pre template text post : Fixer.Bytes) :
    AppliesTo (pre ++ template ++ post) (singleFix parens text pre.length (pre ++ template).length)
      (pre ++ (if parens then ascii "(" ++ text ++ ascii ")" else text) ++ post) := by
  have := Seg.applies_sorted [.keep pre, .sub template (if parens then ascii "(" ++ text ++ ascii ")" else text), .keep post]
  simpa [Seg.old, Seg.new, Seg.edits, singleFix, List.append_assoc] using this

/-! ## Hazards -/

/-- Some kinds of nodes. -/
inductive Sort'
  | initializer
  | comma
  | arrayType
  | unionType
  | plus
  | times
  | coalesce
  | or
deriving DecidableEq

/-- Precedences for them, in the order of JavaScript (typescript-go ranks `??` below `||`, which the rule works around). -/
def kinds : Grammar Sort' where
  isExpression
    | .initializer => false
    | .arrayType => false
    | .unionType => false
    | _ => true
  prec
    | .comma => 0
    | .coalesce => 4
    | .or => 5
    | .plus => 12
    | .times => 13
    | _ => -1
  primary := 19
  isNullish k := k == .coalesce
  isLogical k := k == .or

/-- The grammar: an initialiser takes no comma, `T[]` no union; `+` and `*` take operators that bind as tight on the left. -/
def grammar : Accepts Sort' := fun k i j =>
  match k with
  | .initializer => j ≠ .comma
  | .arrayType => j ≠ .unionType
  | _ => (kinds.prec k < kinds.prec j ∨ (kinds.prec k = kinds.prec j ∧ i = 0)) ∧ ¬(k = .coalesce ∧ j = .or)

theorem grammar_lawful : Lawful kinds grammar := by
  intro k i j hk hp hn
  cases k with
  | initializer => exact absurd hk (by decide)
  | arrayType => exact absurd hk (by decide)
  | unionType => exact absurd hk (by decide)
  | coalesce => exact ⟨.inl hp, fun h => hn ⟨rfl, by rw [h.2]; rfl⟩⟩
  | _ => exact ⟨.inl hp, fun h => absurd h.1 (by decide)⟩

/-- C129 (hazard).  The parent need not be an expression: ``const s = `${a, b}` `` becomes `const s = a, b` and the type
``` `${A | B}`[] ``` becomes `A | B[]`; both are no longer what they were. -/
theorem C129_hazard_parent :
    (Legal grammar (.node .initializer [.template (.node .comma [.atom 0, .atom 1])]) ∧
      fixed kinds (.node .initializer [] []) [] (.node .comma [.atom 0, .atom 1]) = .node .initializer [.node .comma [.atom 0, .atom 1]] ∧
      ¬Legal grammar (fixed kinds (.node .initializer [] []) [] (.node .comma [.atom 0, .atom 1]))) ∧
    (Legal grammar (.node .arrayType [.template (.node .unionType [.atom 0, .atom 1])]) ∧
      fixed kinds (.node .arrayType [] []) [] (.node .unionType [.atom 0, .atom 1]) = .node .arrayType [.node .unionType [.atom 0, .atom 1]] ∧
      ¬Legal grammar (fixed kinds (.node .arrayType [] []) [] (.node .unionType [.atom 0, .atom 1]))) := by
  have atoms : ∀ k, Legal grammar (.node k [.atom 0, .atom 1]) := by
    intro k
    refine .node ?_ ?_
    · intro e he
      rcases List.mem_cons.1 he with rfl | he
      · exact .atom
      · rcases List.mem_cons.1 he with rfl | he
        · exact .atom
        · exact absurd he List.not_mem_nil
    · intro i j cs hi
      match i with
      | 0 => simp at hi
      | 1 => simp at hi
      | n + 2 => simp at hi
  have whole : ∀ k k', Legal grammar (.node k [.template (.node k' [.atom 0, .atom 1])]) := by
    intro k k'
    refine .node ?_ ?_
    · intro e he
      rw [List.mem_singleton.1 he]
      exact .template (atoms k')
    · intro i j cs hi
      match i with
      | 0 => simp at hi
      | n + 1 => simp at hi
  refine ⟨⟨whole _ _, rfl, ?_⟩, ⟨whole _ _, rfl, ?_⟩⟩
  · intro h
    have h' : Legal grammar (.node .initializer [.node .comma [.atom 0, .atom 1]]) := h
    cases h' with
    | node _ h2 => exact h2 0 .comma _ rfl rfl
  · intro h
    have h' : Legal grammar (.node .arrayType [.node .unionType [.atom 0, .atom 1]]) := h
    cases h' with
    | node _ h2 => exact h2 0 .unionType _ rfl rfl

/-- C129 (hazard).  A template may follow a keyword directly; its replacement then becomes part of it: ``return`${x}` `` becomes `returnx`. -/
theorem C129_hazard_keyword : AppliesTo (ascii "return`${x}`") (singleFix false (ascii "x") 6 12) (ascii "returnx") :=
  C129_text false (ascii "return") (ascii "`${x}`") (ascii "x") []

example : fixed kinds (.node .plus [.atom 7] []) [] (.node .plus [.atom 0, .atom 1]) = .node .plus [.atom 7, .paren (.node .plus [.atom 0, .atom 1])] := rfl
example : fixed kinds (.node .plus [.atom 7] []) [] (.node .times [.atom 0, .atom 1]) = .node .plus [.atom 7, .node .times [.atom 0, .atom 1]] := rfl
example : fixed kinds (.node .coalesce [] [.atom 7]) [] (.node .or [.atom 0, .atom 1]) = .node .coalesce [.paren (.node .or [.atom 0, .atom 1]), .atom 7] := rfl
example : listen (T := Nat) ⟨fun t => [t], fun t => [t], fun t => t == 1, fun t => [t], fun _ => false⟩ ⟨false, false, 1, [], [], false, some 1, false⟩ = .single := by decide
example : listen (T := Nat) ⟨fun t => [t], fun t => [t], fun t => t == 1, fun t => [t], fun _ => false⟩ ⟨true, false, 1, [], [], false, some 1, true⟩ = .spans := by decide

end Tsgolint.TemplateSingle
