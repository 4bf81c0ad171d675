import Verif.Spec.TypeConversion
import Verif.Proof.StableFix
/-! # C88 -/
namespace Tsgolint.TypeConversion
open Tsgolint.Fixer (Fix Bytes ascii AppliesTo Seg)
variable {T : Type}

theorem isAll_iff (E : Env T) (p : Prim) (t : T) : isAll E p t = true ↔ ∀ x ∈ E.parts t, E.like p x = true := by
  simp [isAll]

theorem allIntegers_iff (E : Env T) (t : T) : allIntegers E t = true ↔
    E.parts t ≠ [] ∧ ∀ p ∈ E.parts t, (∃ n, E.literal p = some (some (.int n))) ∨ E.literal p = some (some .infinite) := by
  have main : ∀ ts : List T, integerParts E ts = true ↔ ∀ p ∈ ts, (∃ n, E.literal p = some (some (.int n))) ∨ E.literal p = some (some .infinite) := by
    intro ts
    induction ts with
    | nil => simp [integerParts]
    | cons t ts ih =>
      rw [integerParts, List.forall_mem_cons]
      cases E.literal t with
      | none => simp
      | some o => cases o with
        | none => simp
        | some v => cases v <;> simp [Float64.truncated, ih]
  unfold allIntegers
  cases h : E.parts t with
  | nil => simp
  | cons a as => simp only [List.isEmpty_cons, Bool.false_eq_true, if_false, main]; simp

/-- C88 (reports).  An expression is reported exactly if it is one of the conversions and what it converts is already of the type it converts to. -/
theorem C88_reported (E : Env T) (e : Expr T) : (∃ r, report E e = some r) ↔ ∃ c t, Converts e c t ∧ Already E c t := by
  have flag : ∀ c (t : T), c ≠ .doubleTilde → c ≠ .toStringCall → (Already E c t ↔ isAll E c.prim t = true) := by
    intro c t h h'
    rw [isAll_iff]
    constructor
    · intro ha
      cases ha with
      | flag _ _ ha => exact ha
      | toString => exact absurd rfl h'
      | tilde => exact absurd rfl h
    · exact .flag h h'
  cases e with
  | plus l r =>
    simp only [report, reportPlus]
    have : (∃ c t, Converts (.plus l r) c t ∧ Already E c t) ↔ (r.empty = true ∧ isAll E .string l.type = true) ∨ (l.empty = true ∧ r.empty = false ∧ isAll E .string r.type = true) := by
      constructor
      · rintro ⟨c, t, hc, ha⟩
        cases hc with
        | appendEmpty h => rw [flag _ _ (by simp) (by simp)] at ha; exact .inl ⟨h, ha⟩
        | prependEmpty h h' => rw [flag _ _ (by simp) (by simp)] at ha; exact .inr ⟨h, h', ha⟩
      · rintro (⟨h, ha⟩ | ⟨h, h', ha⟩)
        · exact ⟨_, _, .appendEmpty h, (flag _ _ (by simp) (by simp)).2 ha⟩
        · exact ⟨_, _, .prependEmpty h h', (flag _ _ (by simp) (by simp)).2 ha⟩
    rw [this]
    generalize isAll E .string l.type = x
    generalize isAll E .string r.type = y
    cases r.empty <;> cases l.empty <;> cases x <;> cases y <;> simp
  | plusEquals id l r =>
    simp only [report]
    have : (∃ c t, Converts (.plusEquals id l r) c t ∧ Already E c t) ↔ id = true ∧ r.empty = true ∧ isAll E .string l.type = true := by
      constructor
      · rintro ⟨c, t, hc, ha⟩
        cases hc with
        | plusEquals h => rw [flag _ _ (by simp) (by simp)] at ha; exact ⟨rfl, h, ha⟩
      · rintro ⟨rfl, h, ha⟩; exact ⟨_, _, .plusEquals h, (flag _ _ (by simp) (by simp)).2 ha⟩
    rw [this]
    generalize isAll E .string l.type = x
    cases r.empty <;> cases id <;> cases x <;> simp
  | call name builtin args =>
    simp only [report]
    have n1 : ("Boolean" : String) ≠ "BigInt" := by decide
    have n2 : ("Number" : String) ≠ "BigInt" := by decide
    have n3 : ("Number" : String) ≠ "Boolean" := by decide
    have n4 : ("String" : String) ≠ "BigInt" := by decide
    have n5 : ("String" : String) ≠ "Boolean" := by decide
    have n6 : ("String" : String) ≠ "Number" := by decide
    have conv : ∀ p, conversionOf name = some p ↔ (name = "BigInt" ∧ p = .bigint) ∨ (name = "Boolean" ∧ p = .boolean) ∨ (name = "Number" ∧ p = .number) ∨ (name = "String" ∧ p = .string) := by
      intro p
      unfold conversionOf
      by_cases h1 : name = "BigInt"
      · subst h1; simp [n1.symm, n2.symm, n4.symm, eq_comm]
      · by_cases h2 : name = "Boolean"
        · subst h2; simp [n1, n3.symm, n5.symm, eq_comm]
        · by_cases h3 : name = "Number"
          · subst h3; simp [n2, n3, n6.symm, eq_comm]
          · by_cases h4 : name = "String"
            · subst h4; simp [n4, n5, n6, eq_comm]
            · simp [h1, h2, h3, h4]
    have spec : (∃ c t, Converts (.call name builtin args) c t ∧ Already E c t) ↔ ∃ p t, conversionOf name = some p ∧ builtin = true ∧ args = [(false, t)] ∧ isAll E p t = true := by
      constructor
      · rintro ⟨c, t, hc, ha⟩
        generalize hn : name = n at hc conv
        cases hc with
        | string => rw [flag _ _ (by simp) (by simp)] at ha; exact ⟨_, t, by decide, rfl, rfl, ha⟩
        | number => rw [flag _ _ (by simp) (by simp)] at ha; exact ⟨_, t, by decide, rfl, rfl, ha⟩
        | boolean => rw [flag _ _ (by simp) (by simp)] at ha; exact ⟨_, t, by decide, rfl, rfl, ha⟩
        | bigint => rw [flag _ _ (by simp) (by simp)] at ha; exact ⟨_, t, by decide, rfl, rfl, ha⟩
      · rintro ⟨p, t, hp, rfl, rfl, ha⟩
        rcases (conv p).1 hp with ⟨rfl, rfl⟩ | ⟨rfl, rfl⟩ | ⟨rfl, rfl⟩ | ⟨rfl, rfl⟩
        · exact ⟨_, t, .bigint, (flag _ _ (by simp) (by simp)).2 ha⟩
        · exact ⟨_, t, .boolean, (flag _ _ (by simp) (by simp)).2 ha⟩
        · exact ⟨_, t, .number, (flag _ _ (by simp) (by simp)).2 ha⟩
        · exact ⟨_, t, .string, (flag _ _ (by simp) (by simp)).2 ha⟩
    rw [spec]
    unfold reportCall
    split
    · next spread t =>
      cases spread with
      | true => simp
      | false =>
        simp only [Bool.false_eq_true, if_false]
        cases hc : conversionOf name with
        | none => simp
        | some p =>
          cases builtin with
          | false => simp
          | true =>
            by_cases ha : isAll E p t = true
            · simp only [Bool.not_true, Bool.false_eq_true, if_false, ha, if_true]
              exact ⟨fun _ => ⟨p, t, rfl, trivial, rfl, ha⟩, fun _ => ⟨_, rfl⟩⟩
            · simp only [Bool.not_true, Bool.false_eq_true, if_false, ha, reduceCtorEq, exists_false, false_iff]
              rintro ⟨p', t', h1, -, h2, h3⟩
              cases h1; cases h2; exact ha h3
    · next h =>
      simp only [reduceCtorEq, exists_false, false_iff]
      rintro ⟨p, t, -, -, rfl, -⟩
      exact h _ _ rfl
  | method object name args =>
    simp only [report, reportMethod]
    have : (∃ c t, Converts (.method object name args) c t ∧ Already E c t) ↔ name = "toString" ∧ args = 0 ∧ E.enum object = false ∧ isAll E .string object = true := by
      rw [isAll_iff]
      constructor
      · rintro ⟨c, t, hc, ha⟩
        generalize hn : name = n at hc
        cases hc with
        | toString =>
          cases ha with
          | flag _ h => exact absurd rfl h
          | toString h h' => exact ⟨rfl, rfl, h, h'⟩
      · rintro ⟨rfl, rfl, h, h'⟩; exact ⟨_, _, .toString, .toString h h'⟩
    rw [this]
    generalize isAll E .string object = x
    by_cases h1 : args = 0
    · by_cases h2 : name = "toString"
      · cases E.enum object <;> cases x <;> simp [h1, h2]
      · simp [h1, h2]
    · simp [h1]
  | unary op t parent =>
    simp only [report, reportUnary]
    cases op with
    | plus =>
      have : (∃ c t', Converts (.unary .plus t parent) c t' ∧ Already E c t') ↔ isAll E .number t = true := by
        constructor
        · rintro ⟨c, t', hc, ha⟩
          cases hc
          exact (flag _ _ (by simp) (by simp)).1 ha
        · intro h; exact ⟨_, _, .plus, (flag _ _ (by simp) (by simp)).2 h⟩
      rw [this]
      cases isAll E .number t <;> simp
    | bang =>
      have : (∃ c t', Converts (.unary .bang t parent) c t' ∧ Already E c t') ↔ parent = some .bang ∧ isAll E .boolean t = true := by
        constructor
        · rintro ⟨c, t', hc, ha⟩
          cases hc
          exact ⟨rfl, (flag _ _ (by simp) (by simp)).1 ha⟩
        · rintro ⟨rfl, h⟩; exact ⟨_, _, .bang, (flag _ _ (by simp) (by simp)).2 h⟩
      rw [this]
      by_cases hp : parent = some .bang
      · cases isAll E .boolean t <;> simp [hp]
      · simp [hp]
    | tilde =>
      have : (∃ c t', Converts (.unary .tilde t parent) c t' ∧ Already E c t') ↔ parent = some .tilde ∧ allIntegers E t = true := by
        rw [allIntegers_iff]
        constructor
        · rintro ⟨c, t', hc, ha⟩
          cases hc
          cases ha with
          | flag h => exact absurd rfl h
          | tilde h h' => exact ⟨rfl, h, h'⟩
        · rintro ⟨rfl, h, h'⟩; exact ⟨_, _, .tilde, .tilde h h'⟩
      rw [this]
      by_cases hp : parent = some .tilde
      · cases allIntegers E t <;> simp [hp]
      · simp [hp]
    | other =>
      simp only [reduceCtorEq, exists_false, false_iff]
      rintro ⟨c, t', hc, -⟩; cases hc
  | other =>
    simp only [report, reduceCtorEq, exists_false, false_iff]
    rintro ⟨c, t', hc, -⟩; cases hc

/-- C88 (which).  The report names the primitive type converted to and the operand converted. -/
theorem C88_names (E : Env T) (e : Expr T) (r : Report) (c : Conversion) (t : T) (h : report E e = some r) (hc : Converts e c t) :
    r.prim = c.prim ∧ (r.which = .left ↔ c = .appendEmpty) ∧ (r.which = .right ↔ c = .prependEmpty) := by
  cases hc with
  | appendEmpty h' => simp [report, reportPlus, h'] at h; rw [← h.2]; simp [Conversion.prim]
  | prependEmpty h' h'' => simp [report, reportPlus, h', h''] at h; rw [← h.2]; simp [Conversion.prim]
  | plusEquals h' => simp [report, h'] at h; rw [← h.2]; simp [Conversion.prim]
  | string => simp [report, reportCall, show conversionOf "String" = some .string by decide] at h; rw [← h.2]; simp [Conversion.prim]
  | number => simp [report, reportCall, show conversionOf "Number" = some .number by decide] at h; rw [← h.2]; simp [Conversion.prim]
  | boolean => simp [report, reportCall, show conversionOf "Boolean" = some .boolean by decide] at h; rw [← h.2]; simp [Conversion.prim]
  | bigint => simp [report, reportCall, show conversionOf "BigInt" = some .bigint by decide] at h; rw [← h.2]; simp [Conversion.prim]
  | toString => simp [report, reportMethod] at h; rw [← h.2.2]; simp [Conversion.prim]
  | plus => simp [report, reportUnary] at h; rw [← h.2]; simp [Conversion.prim]
  | bang => simp [report, reportUnary] at h; rw [← h.2]; simp [Conversion.prim]
  | tilde => simp [report, reportUnary] at h; rw [← h.2]; simp [Conversion.prim]

/-- C88 (harmless).  A reported conversion does not change the value, whatever value of its type it gets — provided, for `~~`, that the literals fit into 32 bits. -/
theorem C88_keeps_value (E : Env T) (has : Val → T → Prop) (hs : Sound E has) (J : Js) (c : Conversion) (t : T) (ha : Already E c t)
    (h32 : c = .doubleTilde → Fits32 E t) (v : Val) (hv : has v t) : J.eval c v = v := by
  obtain ⟨p, hp, hvp⟩ := hs.part v t hv
  have str : (∀ p ∈ E.parts t, E.like .string p = true) → ∃ s, v = .str s := fun h => hs.string v p hvp (h p hp)
  cases ha with
  | toString _ h =>
    obtain ⟨s, rfl⟩ := str h
    rfl
  | tilde _ h =>
    obtain ⟨h1, h2⟩ := h32 rfl p hp
    rcases h p hp with ⟨n, hn⟩ | hn
    · rw [hs.literal v p n hvp hn]
      have := h2 n hn
      simp only [Js.eval, Js.int32, Val.int.injEq, bitNot, wrap]
      omega
    · exact absurd hn h1
  | flag h1 h2 h =>
    cases c with
    | appendEmpty => obtain ⟨s, rfl⟩ := str h; simp [Js.eval, Js.string]
    | prependEmpty => obtain ⟨s, rfl⟩ := str h; simp [Js.eval, Js.string]
    | stringCall => obtain ⟨s, rfl⟩ := str h; rfl
    | toStringCall => exact absurd rfl h2
    | numberCall => rcases hs.number v p hvp (h p hp) with ⟨n, rfl⟩ | ⟨n, rfl⟩ <;> rfl
    | unaryPlus => rcases hs.number v p hvp (h p hp) with ⟨n, rfl⟩ | ⟨n, rfl⟩ <;> rfl
    | booleanCall => obtain ⟨s, rfl⟩ := hs.boolean v p hvp (h p hp); rfl
    | doubleBang => obtain ⟨s, rfl⟩ := hs.boolean v p hvp (h p hp); simp [Js.eval, Js.boolean]
    | bigintCall => obtain ⟨s, rfl⟩ := hs.bigint v p hvp (h p hp); rfl
    | doubleTilde => exact absurd rfl h1

/-- C88 (finding).  `~~` on a literal that does not fit into 32 bits is reported although it changes the value. -/
theorem C88_hazard_range (E : Env T) (J : Js) (t : T) (n : Int) (parent_t : E.parts t = [t]) (hl : E.literal t = some (some (.int n))) (hn : 2 ^ 31 ≤ n ∨ n < -2 ^ 31) :
    report E (.unary .tilde t (some .tilde)) = some ⟨.number, .only⟩ ∧ J.eval .doubleTilde (.int n) ≠ .int n := by
  constructor
  · simp [report, reportUnary, allIntegers, parent_t, integerParts, hl, Float64.truncated]
  · simp only [Js.eval, Js.int32, ne_eq, Val.int.injEq, bitNot, wrap]
    omega

/-- C88 (suggestions).  Both suggestions replace the conversion and nothing else. -/
theorem C88_fix (pre node post text : Bytes) (r : Nat × Nat) (h1 : r.1 = pre.length) (h2 : r.2 = pre.length + node.length) :
    AppliesTo (pre ++ node ++ post) (fix text r) (pre ++ text ++ post) := by
  have := Seg.applies_sorted [.keep pre, .sub node text, .keep post]
  simpa [Seg.old, Seg.new, Seg.edits, fix, h1, h2] using this

/-- C88 (texts).  The first suggestion's text is the converted expression, in parentheses unless it is of strong precedence and no object literal that would become a function body; the
second adds `satisfies` and the type, all in parentheses below an operator, call or access. -/
theorem C88_texts (prim : Prim) (p : Place) :
    (removed p = p.inner ∧ p.strong = true ∧ ¬(p.arrowBody = true ∧ p.object = true) ∨
      removed p = ascii "(" ++ p.inner ++ ascii ")" ∧ (p.strong = false ∨ (p.arrowBody = true ∧ p.object = true))) ∧
    (p.weakParent = true → satisfied prim p = ascii "(" ++ removed p ++ ascii " satisfies " ++ prim.text ++ ascii ")") ∧
    (p.weakParent = false → satisfied prim p = removed p ++ ascii " satisfies " ++ prim.text) := by
  refine ⟨?_, ?_, ?_⟩
  · unfold removed innerCode
    cases p.strong <;> cases p.arrowBody <;> cases p.object <;> simp
  · intro h; simp [satisfied, removed, h]
  · intro h; simp [satisfied, removed, h]

/-- C88 (finding).  Without a space before the conversion the suggestion may join two words: `return!!ok` becomes `returnok`. -/
theorem C88_hazard_join : AppliesTo (ascii "return!!ok") (fix (removed ⟨ascii "ok", true, false, false, false⟩) (6, 10)) (ascii "returnok") := by
  have := C88_fix (ascii "return") (ascii "!!ok") [] (removed ⟨ascii "ok", true, false, false, false⟩) (6, 10) (by decide) (by decide)
  have e : ascii "return" ++ ascii "!!ok" ++ [] = ascii "return!!ok" := by decide
  have e' : ascii "return" ++ removed ⟨ascii "ok", true, false, false, false⟩ ++ [] = ascii "returnok" := by decide
  rwa [e, e'] at this

/-- C88 (`x += ""`).  As a statement it is removed; otherwise it is replaced by `x`. -/
theorem C88_plusEquals (p : Place) (pre node post : Bytes) (r : Nat × Nat) (h1 : r.1 = pre.length) (h2 : r.2 = pre.length + node.length) :
    AppliesTo (pre ++ node ++ post) (plusEqualsRemoval (some r) p r) (pre ++ post) ∧
    AppliesTo (pre ++ node ++ post) (plusEqualsRemoval none p r) (pre ++ removed p ++ post) := by
  have a := C88_fix pre node post [] r h1 h2
  have b := C88_fix pre node post (removed p) r h1 h2
  exact ⟨by simpa [plusEqualsRemoval, fix] using a, by simpa [plusEqualsRemoval] using b⟩

/-- C88 (finding).  Removing the statement below an `if` makes the next statement conditional. -/
theorem C88_hazard_if : AppliesTo (ascii "if(a)x+='';b();") (plusEqualsRemoval (some (5, 11)) ⟨ascii "x", true, false, false, false⟩ (5, 10)) (ascii "if(a)b();") := by
  have := (C88_plusEquals ⟨ascii "x", true, false, false, false⟩ (ascii "if(a)") (ascii "x+='';") (ascii "b();") (5, 11) (by decide) (by decide)).1
  have e : ascii "if(a)" ++ ascii "x+='';" ++ ascii "b();" = ascii "if(a)x+='';b();" := by decide
  have e' : ascii "if(a)" ++ ascii "b();" = ascii "if(a)b();" := by decide
  rw [e, e'] at this
  exact this

/-! ## Cases -/

/-- Types: 0 `string`, 1 `number`, 2 `"a" | number`, 3 `5`, 4 `4294967296`, 5 `boolean`, 6 a string enum. -/
def sample : Env Nat where
  parts t := if t = 2 then [0, 1] else [t]
  like p t := match p with
    | .string => t == 0 || t == 6
    | .number => t == 1 || t == 3 || t == 4
    | .boolean => t == 5
    | .bigint => false
  enum t := t == 6
  literal t := if t = 3 then some (some (.int 5)) else if t = 4 then some (some (.int 4294967296)) else none

def sampleHas (v : Val) (t : Nat) : Prop := match t with
  | 0 | 6 => ∃ s, v = .str s
  | 1 => ∃ n, v = .int n
  | 2 => (∃ s, v = .str s) ∨ ∃ n, v = .int n
  | 3 => v = .int 5
  | 4 => v = .int 4294967296
  | 5 => ∃ b, v = .bool b
  | _ => False

example : Sound sample sampleHas := by
  constructor
  · intro v t h
    by_cases h2 : t = 2
    · subst h2
      rcases h with h | h
      · exact ⟨0, by simp [sample], h⟩
      · exact ⟨1, by simp [sample], h⟩
    · exact ⟨t, by simp [sample, h2], h⟩
  · intro v t h hl
    simp only [sample, Bool.or_eq_true, beq_iff_eq] at hl
    rcases hl with rfl | rfl <;> exact h
  · intro v t h hl
    simp only [sample, Bool.or_eq_true, beq_iff_eq] at hl
    rcases hl with (rfl | rfl) | rfl
    · exact .inl h
    · exact .inl ⟨_, h⟩
    · exact .inl ⟨_, h⟩
  · intro v t h hl
    simp only [sample, beq_iff_eq] at hl
    subst hl; exact h
  · intro v t h hl
    simp [sample] at hl
  · intro v t n h hl
    simp only [sample] at hl
    split at hl
    · next ht => subst ht; cases hl; exact h
    · split at hl
      · next ht => subst ht; cases hl; exact h
      · cases hl

example : report sample (.plus ⟨false, 0⟩ ⟨true, 0⟩) = some ⟨.string, .left⟩ := by decide
example : report sample (.plus ⟨true, 0⟩ ⟨false, 0⟩) = some ⟨.string, .right⟩ := by decide
example : report sample (.plus ⟨false, 2⟩ ⟨true, 0⟩) = none := by decide
example : report sample (.call "Number" true [(false, 3)]) = some ⟨.number, .only⟩ := by decide
example : report sample (.call "Number" false [(false, 3)]) = none := by decide
example : report sample (.method 6 "toString" 0) = none := by decide
example : report sample (.unary .tilde 3 (some .tilde)) = some ⟨.number, .only⟩ := by decide
example : report sample (.unary .tilde 1 (some .tilde)) = none := by decide
example : report sample (.unary .bang 5 (some .bang)) = some ⟨.boolean, .only⟩ := by decide
example : Already sample .doubleTilde 3 ∧ Fits32 sample 3 := by
  refine ⟨.tilde (by simp [sample]) (by simp [sample]), ?_⟩
  intro p hp
  simp [sample] at hp
  subst hp
  refine ⟨by simp [sample], fun n h => ?_⟩
  simp [sample] at h
  omega
example : satisfied .string ⟨ascii "a || b", false, false, false, true⟩ = ascii "((a || b) satisfies string)" := by decide

end Tsgolint.TypeConversion
