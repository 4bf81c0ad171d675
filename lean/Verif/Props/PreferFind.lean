import Verif.Spec.PreferFind
import Verif.Props.Switch
import Verif.Props.TypeGraph
import Verif.Proof.StableFix
/-! # C79: prefer-find -/
namespace Tsgolint.PreferFind
open Tsgolint.Fixer
open Tsgolint.TypeGraph (Shape unionParts UnionPart mem_unionParts)
open Tsgolint.Switch (intersectionParts)
variable {T : Type}

/-! ## Static values -/

/-- A string among the values is read as the same number. -/
def Value.Plain (E : Env T) (J : Js) (v : Value) : Prop := ∀ s, v = .str s → numberOfString E s = J.number s

theorem toNumber_iff (E : Env T) (J : Js) (v : Value) (n : Num) (hv : v.Plain E J) : toNumber E v = some n ↔ ToNumber J v n := by
  constructor
  · intro h
    cases v with
    | str s => simp [toNumber] at h; subst h; rw [hv s rfl]; exact .str
    | num m => simp [toNumber] at h; subst h; exact .num
    | bool b => cases b <;> simp [toNumber] at h <;> subst h <;> constructor
    | null => simp [toNumber] at h; subst h; exact .null
    | undefined => simp [toNumber] at h; subst h; exact .undefined
    | bigint i => simp [toNumber] at h
    | symbol => simp [toNumber] at h
  · intro h
    cases h <;> simp [toNumber]
    exact hv _ rfl

theorem symbolObject_iff (e : Expr) : (match skipParens e with
    | .ident o _ => decide (o = "Symbol") && decide ("for" = "for")
    | _ => false) = true ↔ SymbolObject e := by
  induction e with
  | paren e ih => rw [skipParens, ih]; exact ⟨.paren, fun h => by cases h; assumption⟩
  | ident name s =>
    simp only [skipParens]
    constructor
    · intro h; simp at h; subst h; exact .symbol
    · intro h; cases h; simp
  | _ => simp [skipParens]; intro h; cases h

theorem symbolCallee_iff (e : Expr) : isSymbolCallee e = true ↔ SymbolFunction e := by
  unfold isSymbolCallee
  induction e with
  | paren e ih => rw [skipParens, ih]; exact ⟨.paren, fun h => by cases h; assumption⟩
  | ident name s =>
    simp only [skipParens]
    constructor
    · intro h; simp at h; subst h; exact .symbol
    · intro h; cases h; simp
  | prop id q o name =>
    simp only [skipParens]
    have := symbolObject_iff o
    constructor
    · intro h
      have hn : name = "for" := by
        split at h
        · simp at h; exact h.2
        · simp at h
      subst hn
      exact .symbolFor (this.1 h)
    · intro h; cases h with
      | symbolFor h => exact this.2 h
  | _ => simp [skipParens]; intro h; cases h

theorem plain_of_evaluates (E : Env T) (J : Js) {e : Expr} {v : Value} (h : Evaluates E J e v)
    (hl : Literals (fun s => numberOfString E s = J.number s) e)
    (hc : ∀ s i, E.init s = some i → Literals (fun s => numberOfString E s = J.number s) i) : v.Plain E J := by
  induction h with
  | str => intro s hs; cases hs; exact hl
  | const _ _ _ hi _ ih => exact ih (hc _ _ hi)
  | wrap _ ih => exact ih hl
  | paren _ ih => exact ih hl
  | _ => intro s hs; cases hs

theorem static_sound (E : Env T) (J : Js) (hc : ∀ s i, E.init s = some i → Literals (fun s => numberOfString E s = J.number s) i) (fuel : Nat) :
    ∀ visited e v, Literals (fun s => numberOfString E s = J.number s) e → getStatic E fuel visited e = some (some v) → Evaluates E J e v := by
  have key : ∀ (follow : Nat → Expr → Option (Option Value)),
      (∀ s e v, E.init s = some e → follow s e = some (some v) → Evaluates E J e v) →
      ∀ visited e v, Literals (fun s => numberOfString E s = J.number s) e → staticWith E follow visited e = some (some v) → Evaluates E J e v := by
    intro follow hf visited e
    induction e with
    | str s => intro v _ h; simp [staticWith] at h; subst h; exact .str
    | num n => intro v _ h; simp [staticWith] at h; obtain ⟨a, rfl, rfl⟩ := h; exact .num
    | bool b => intro v _ h; simp [staticWith] at h; subst h; exact .bool
    | null => intro v _ h; simp [staticWith] at h; subst h; exact .null
    | bigint i => intro v _ h; simp [staticWith] at h; obtain ⟨a, rfl, rfl⟩ := h; exact .bigint
    | ident name s =>
      intro v _ h
      simp only [staticWith] at h
      split at h
      · next hn => subst hn; simp at h; subst h; exact .undefined
      · next h1 =>
        split at h
        · next hn => subst hn; simp at h; subst h; exact .nan
        · next h2 =>
          split at h
          · next hn => subst hn; simp at h; subst h; exact .infinity
          · next h3 =>
            split at h
            · simp at h
            · next s =>
              split at h
              · simp at h
              · split at h
                · simp at h
                · next e hi => exact .const h1 h2 h3 hi (hf _ _ _ hi h)
    | unary op e ih =>
      intro v hl h
      simp only [staticWith, Option.map_eq_some_iff] at h
      obtain ⟨w, hw, h⟩ := h
      cases w with
      | none => simp at h
      | some w =>
        have he := ih w hl hw
        have hp := plain_of_evaluates E J he hl hc
        simp only [Option.bind_some] at h
        cases op with
        | other => simp [applyOp] at h
        | plus =>
          simp only [applyOp, Option.map_eq_some_iff] at h
          obtain ⟨n, hn, rfl⟩ := h
          exact .plus he ((toNumber_iff E J w n hp).1 hn)
        | minus =>
          cases w with
          | bigint i => simp only [applyOp, Option.some.injEq] at h; subst h; exact .minusBig he
          | _ =>
            simp only [applyOp, Option.map_eq_some_iff] at h
            obtain ⟨n, hn, rfl⟩ := h
            exact .minus he ((toNumber_iff E J _ n hp).1 hn)
    | wrap e ih => intro v hl h; exact .wrap (ih v hl h)
    | paren e ih => intro v hl h; exact .paren (ih v hl h)
    | call1 q callee arg _ _ =>
      intro v hl h
      simp only [staticWith, Option.some.injEq] at h
      split at h
      · next hq =>
        simp only [Bool.and_eq_true, Bool.not_eq_true'] at hq
        obtain ⟨rfl, hq⟩ := hq
        simp at h; subst h; exact .symbol1 ((symbolCallee_iff _).1 hq)
      · simp at h
    | callN q callee _ =>
      intro v hl h
      simp only [staticWith, Option.some.injEq] at h
      split at h
      · next hq =>
        simp only [Bool.and_eq_true, Bool.not_eq_true'] at hq
        obtain ⟨rfl, hq⟩ := hq
        simp at h; subst h; exact .symbolN ((symbolCallee_iff _).1 hq)
      · simp at h
    | _ => intro v _ h; simp [staticWith] at h
  induction fuel with
  | zero => exact fun visited e v hl h => key _ (by simp) visited e v hl h
  | succ n ih => exact fun visited e v hl h => key _ (fun s i w hi hw => ih _ i w (hc s i hi) hw) visited e v hl h

theorem static_mono (E : Env T) : ∀ fuel fuel' visited e r, fuel ≤ fuel' → getStatic E fuel visited e = some r → getStatic E fuel' visited e = some r := by
  have key : ∀ (f g : Nat → Expr → Option (Option Value)), (∀ s e r, f s e = some r → g s e = some r) →
      ∀ visited e r, staticWith E f visited e = some r → staticWith E g visited e = some r := by
    intro f g hfg visited e
    induction e with
    | ident name s =>
      intro r h
      simp only [staticWith] at h ⊢
      repeat' (split at h <;> first | (simp_all; done) | skip)
    | unary op e ih =>
      intro r h
      simp only [staticWith, Option.map_eq_some_iff] at h ⊢
      obtain ⟨w, hw, rfl⟩ := h
      exact ⟨w, ih w hw, rfl⟩
    | wrap e ih => exact fun r h => ih r h
    | paren e ih => exact fun r h => ih r h
    | _ => intro r h; simpa [staticWith] using h
  intro fuel
  induction fuel with
  | zero =>
    intro fuel' visited e r _ h
    cases fuel' with
    | zero => exact h
    | succ m => exact key _ _ (by simp) visited e r h
  | succ n ih =>
    intro fuel' visited e r hle h
    cases fuel' with
    | zero => omega
    | succ m => exact key _ _ (fun s e r h => ih m _ e r (by omega) h) visited e r h

/-- `Evaluates` with the height of the derivation. -/
inductive EvN (E : Env T) (J : Js) : Nat → Expr → Value → Prop
  | str {s} : EvN E J 0 (.str s) (.str s)
  | num {n} : EvN E J 0 (.num (some n)) (.num n)
  | bool {b} : EvN E J 0 (.bool b) (.bool b)
  | null : EvN E J 0 .null .null
  | bigint {i} : EvN E J 0 (.bigint (some i)) (.bigint i)
  | undefined {s} : EvN E J 0 (.ident "undefined" s) .undefined
  | nan {s} : EvN E J 0 (.ident "NaN" s) (.num .nan)
  | infinity {s} : EvN E J 0 (.ident "Infinity" s) (.num (.inf false))
  | const {k name s e v} : name ≠ "undefined" → name ≠ "NaN" → name ≠ "Infinity" → E.init s = some e → EvN E J k e v →
      EvN E J (k + 1) (.ident name (some s)) v
  | minus {k e v n} : EvN E J k e v → ToNumber J v n → EvN E J (k + 1) (.unary .minus e) (.num n.neg)
  | minusBig {k e i} : EvN E J k e (.bigint i) → EvN E J (k + 1) (.unary .minus e) (.bigint (-i))
  | plus {k e v n} : EvN E J k e v → ToNumber J v n → EvN E J (k + 1) (.unary .plus e) (.num n)
  | wrap {k e v} : EvN E J k e v → EvN E J (k + 1) (.wrap e) v
  | paren {k e v} : EvN E J k e v → EvN E J (k + 1) (.paren e) v
  | symbol1 {callee arg} : SymbolFunction callee → EvN E J 0 (.call1 false callee arg) .symbol
  | symbolN {callee} : SymbolFunction callee → EvN E J 0 (.callN false callee) .symbol

theorem EvN.of {E : Env T} {J : Js} {e : Expr} {v : Value} (h : Evaluates E J e v) : ∃ k, EvN E J k e v := by
  induction h with
  | str => exact ⟨_, .str⟩
  | num => exact ⟨_, .num⟩
  | bool => exact ⟨_, .bool⟩
  | null => exact ⟨_, .null⟩
  | bigint => exact ⟨_, .bigint⟩
  | undefined => exact ⟨_, .undefined⟩
  | nan => exact ⟨_, .nan⟩
  | infinity => exact ⟨_, .infinity⟩
  | const a b c d _ ih => obtain ⟨k, ih⟩ := ih; exact ⟨_, .const a b c d ih⟩
  | minus _ a ih => obtain ⟨k, ih⟩ := ih; exact ⟨_, .minus ih a⟩
  | minusBig _ ih => obtain ⟨k, ih⟩ := ih; exact ⟨_, .minusBig ih⟩
  | plus _ a ih => obtain ⟨k, ih⟩ := ih; exact ⟨_, .plus ih a⟩
  | wrap _ ih => obtain ⟨k, ih⟩ := ih; exact ⟨_, .wrap ih⟩
  | paren _ ih => obtain ⟨k, ih⟩ := ih; exact ⟨_, .paren ih⟩
  | symbol1 a => exact ⟨_, .symbol1 a⟩
  | symbolN a => exact ⟨_, .symbolN a⟩

theorem EvN.to {E : Env T} {J : Js} {k : Nat} {e : Expr} {v : Value} (h : EvN E J k e v) : Evaluates E J e v := by
  induction h with
  | const a b c d _ ih => exact .const a b c d ih
  | minus _ a ih => exact .minus ih a
  | minusBig _ ih => exact .minusBig ih
  | plus _ a ih => exact .plus ih a
  | wrap _ ih => exact .wrap ih
  | paren _ ih => exact .paren ih
  | symbol1 a => exact .symbol1 a
  | symbolN a => exact .symbolN a
  | _ => constructor

theorem ToNumber.unique {J : Js} {v : Value} {m n : Num} (h : ToNumber J v m) (g : ToNumber J v n) : m = n := by
  cases h <;> cases g <;> rfl

theorem EvN.ident_inv {E : Env T} {J : Js} {k : Nat} {name : String} {s : Option Nat} {v : Value} (h : EvN E J k (.ident name s) v) :
    (name = "undefined" ∧ k = 0 ∧ v = .undefined) ∨ (name = "NaN" ∧ k = 0 ∧ v = .num .nan) ∨ (name = "Infinity" ∧ k = 0 ∧ v = .num (.inf false)) ∨
    (name ≠ "undefined" ∧ name ≠ "NaN" ∧ name ≠ "Infinity") := by
  cases h with
  | undefined => exact .inl ⟨rfl, rfl, rfl⟩
  | nan => exact .inr (.inl ⟨rfl, rfl, rfl⟩)
  | infinity => exact .inr (.inr (.inl ⟨rfl, rfl, rfl⟩))
  | const a b c => exact .inr (.inr (.inr ⟨a, b, c⟩))

theorem EvN.unique {E : Env T} {J : Js} {k : Nat} {e : Expr} {v : Value} (h : EvN E J k e v) : ∀ {m w}, EvN E J m e w → k = m ∧ v = w := by
  induction h with
  | const a b c d _ ih =>
    intro m w g
    cases g with
    | const _ _ _ d' g => rw [d] at d'; cases d'; have := ih g; exact ⟨by omega, this.2⟩
    | _ => contradiction
  | undefined => intro m w g; have := g.ident_inv; simp at this; exact ⟨this.1.symm, this.2.symm⟩
  | nan => intro m w g; have := g.ident_inv; simp at this; exact ⟨this.1.symm, this.2.symm⟩
  | infinity => intro m w g; have := g.ident_inv; simp at this; exact ⟨this.1.symm, this.2.symm⟩
  | minus _ a ih =>
    intro m w g
    cases g with
    | minus g b => obtain ⟨rfl, rfl⟩ := ih g; exact ⟨rfl, by rw [a.unique b]⟩
    | minusBig g => obtain ⟨rfl, rfl⟩ := ih g; cases a
  | minusBig _ ih =>
    intro m w g
    cases g with
    | minus g b => obtain ⟨rfl, rfl⟩ := ih g; cases b
    | minusBig g => obtain ⟨rfl, h⟩ := ih g; cases h; exact ⟨rfl, rfl⟩
  | plus _ a ih =>
    intro m w g
    cases g with
    | plus g b => obtain ⟨rfl, rfl⟩ := ih g; exact ⟨rfl, by rw [a.unique b]⟩
  | wrap _ ih => intro m w g; cases g with | wrap g => obtain ⟨rfl, rfl⟩ := ih g; exact ⟨rfl, rfl⟩
  | paren _ ih => intro m w g; cases g with | paren g => obtain ⟨rfl, rfl⟩ := ih g; exact ⟨rfl, rfl⟩
  | _ => intro m w g; cases g; exact ⟨rfl, rfl⟩

theorem getStatic_eq (E : Env T) (fuel : Nat) (visited : List Nat) : getStatic E fuel visited =
    staticWith E (match fuel with | 0 => fun _ _ => none | n + 1 => fun s e => getStatic E n (s :: visited) e) visited := by
  cases fuel <;> rfl

theorem static_complete (E : Env T) (J : Js) (hc : ∀ s i, E.init s = some i → Literals (fun s => numberOfString E s = J.number s) i)
    {k : Nat} {e : Expr} {v : Value} (h : EvN E J k e v) : ∀ fuel visited, Literals (fun s => numberOfString E s = J.number s) e → k ≤ fuel →
      (∀ s ∈ visited, ∀ i, E.init s = some i → ∀ m w, EvN E J m i w → k ≤ m) → getStatic E fuel visited e = some (some v) := by
  induction h with
  | @const k name s i v a b c d g ih =>
    intro fuel visited _ hf hv
    cases fuel with
    | zero => omega
    | succ n =>
      have hs : s ∉ visited := fun hs => by have := hv s hs i d k v g; omega
      rw [getStatic_eq]
      simp only [staticWith, if_neg a, if_neg b, if_neg c, List.contains_eq_mem, decide_eq_true_eq, if_neg hs, d]
      refine ih n (s :: visited) (hc _ _ d) (by omega) ?_
      intro s' hs' i' hi' m w g'
      rcases List.mem_cons.1 hs' with rfl | hs'
      · rw [d] at hi'; cases hi'; have := (g.unique g').1; omega
      · have := hv s' hs' i' hi' m w g'; omega
  | @minus k e v n g a ih =>
    intro fuel visited hl hf hv
    have := ih fuel visited hl (by omega) fun s hs i hi m w g => by have := hv s hs i hi m w g; omega
    rw [getStatic_eq] at this ⊢
    have hn := (toNumber_iff E J v n (plain_of_evaluates E J g.to hl hc)).2 a
    rw [staticWith, this]
    cases v <;> simp_all [applyOp, toNumber]
  | @minusBig k e i g ih =>
    intro fuel visited hl hf hv
    have := ih fuel visited hl (by omega) fun s hs i hi m w g => by have := hv s hs i hi m w g; omega
    rw [getStatic_eq] at this ⊢
    rw [staticWith, this]
    rfl
  | @plus k e v n g a ih =>
    intro fuel visited hl hf hv
    have := ih fuel visited hl (by omega) fun s hs i hi m w g => by have := hv s hs i hi m w g; omega
    rw [getStatic_eq] at this ⊢
    have hn := (toNumber_iff E J v n (plain_of_evaluates E J g.to hl hc)).2 a
    rw [staticWith, this]
    simp [applyOp, hn]
  | wrap g ih =>
    intro fuel visited hl hf hv
    have := ih fuel visited hl (by omega) fun s hs i hi m w g => by have := hv s hs i hi m w g; omega
    rw [getStatic_eq] at this ⊢
    exact this
  | paren g ih =>
    intro fuel visited hl hf hv
    have := ih fuel visited hl (by omega) fun s hs i hi m w g => by have := hv s hs i hi m w g; omega
    rw [getStatic_eq] at this ⊢
    exact this
  | symbol1 a => intro fuel visited _ _ _; rw [getStatic_eq]; simp [staticWith, (symbolCallee_iff _).2 a]
  | symbolN a => intro fuel visited _ _ _; rw [getStatic_eq]; simp [staticWith, (symbolCallee_iff _).2 a]
  | _ => intro fuel visited _ _ _; rw [getStatic_eq]; simp [staticWith]

/-- C79 (static values).  What the rule finds out about an expression is exactly its value as a constant expression: literals, signs, assertions, the
global constants and constants declared by `const`, however they refer to each other. -/
theorem C79_static (E : Env T) (J : Js) (e : Expr) (fuel : Nat) (r : Option Value) (hp : Plain E J e) (h : getStatic E fuel [] e = some r) (v : Value) :
    r = some v ↔ Evaluates E J e v := by
  constructor
  · rintro rfl; exact static_sound E J hp.constants fuel [] e v hp.here h
  · intro hv
    obtain ⟨k, hk⟩ := EvN.of hv
    have h1 := static_complete E J hp.constants hk (max k fuel) [] hp.here (by omega) (by simp)
    have h2 := static_mono E fuel (max k fuel) [] e r (by omega) h
    rw [h1] at h2
    exact (Option.some.inj h2).symm

theorem static_total (E : Env T) (follow : Nat → Expr → Option (Option Value)) (visited : List Nat)
    (hf : ∀ s e, s ∉ visited → (E.init s).isSome → ∃ r, follow s e = some r) (e : Expr) : ∃ r, staticWith E follow visited e = some r := by
  induction e with
  | wrap e ih => rw [staticWith]; exact ih
  | paren e ih => rw [staticWith]; exact ih
  | unary op e ih => obtain ⟨r, h⟩ := ih; exact ⟨_, by rw [staticWith, h]; rfl⟩
  | ident name s =>
    simp only [staticWith]
    split
    · exact ⟨_, rfl⟩
    · split
      · exact ⟨_, rfl⟩
      · split
        · exact ⟨_, rfl⟩
        · split
          · exact ⟨_, rfl⟩
          · split
            · exact ⟨_, rfl⟩
            · next hn =>
              split
              · exact ⟨_, rfl⟩
              · next hi => exact hf _ _ (by simpa using hn) (by simp [hi])
  | _ => exact ⟨_, rfl⟩

/-- C79 (termination).  Following constants ends, also for constants that refer to each other: with `n` constants at most `n` are followed. -/
theorem C79_terminates (E : Env T) (symbols : List Nat) (hs : ∀ s, (E.init s).isSome → s ∈ symbols) (e : Expr) :
    ∃ r, getStatic E symbols.length [] e = some r := by
  suffices ∀ (fuel : Nat) (visited : List Nat), (symbols.filter fun s => !visited.contains s).length ≤ fuel →
      ∀ e, ∃ r, getStatic E fuel visited e = some r from
    this _ _ (List.length_filter_le _ _) e
  clear e
  intro fuel
  have hmem : ∀ (visited : List Nat) s, s ∉ visited → (E.init s).isSome → s ∈ symbols.filter fun s => !visited.contains s := by
    intro visited s hn hv
    rw [List.mem_filter]
    exact ⟨hs s hv, by simpa using hn⟩
  induction fuel with
  | zero =>
    intro visited hv
    refine static_total E _ visited fun s e hn hvar => ?_
    have := List.length_pos_of_mem (hmem visited s hn hvar)
    omega
  | succ fuel ih =>
    intro visited hv
    refine static_total E _ visited fun s e hn hvar => ih _ ?_ e
    have hsub : (symbols.filter fun r => !(s :: visited).contains r) = (symbols.filter fun r => !visited.contains r).filter (· != s) := by
      rw [List.filter_filter]
      refine List.filter_congr fun r _ => ?_
      simp only [List.contains_cons, Bool.not_or]
      rfl
    rw [hsub]
    have : ((symbols.filter fun r => !visited.contains r).filter (· != s)).length < (symbols.filter fun r => !visited.contains r).length :=
      List.length_filter_lt_length_iff_exists.2 ⟨s, hmem visited s hn hvar, by simp⟩
    omega

/-! ## Zero -/

theorem toInteger_zero (n : Num) : ToInteger n 0 ↔ (decide (n = .nan) || truncZero n) = true := by
  cases n with
  | nan => simp; exact .nan
  | inf b => simp [truncZero]; intro h; cases h
  | fin q =>
    simp only [truncZero, Bool.or_eq_true, decide_eq_true_eq, Bool.and_eq_true, reduceCtorEq, false_or]
    constructor
    · intro h
      cases h with
      | down a b c => constructor <;> grind
      | up a b c => constructor <;> grind
    · rintro ⟨a, b⟩
      by_cases h : 0 ≤ q
      · exact .down h (by grind) (by grind)
      · exact .up (by grind) (by grind) (by grind)

/-- C79 (zero for `at`).  An argument counts as zero exactly if `at` truncates it to zero: numbers between -1 and 1, what is not a number, and what
converts to such; bigints and symbols never. -/
theorem C79_zero_at (E : Env T) (J : Js) (v : Value) (hv : v.Plain E J) : zeroForAt E v = true ↔ ∃ n, ToNumber J v n ∧ ToInteger n 0 := by
  unfold zeroForAt
  cases h : toNumber E v with
  | none =>
    simp only [Bool.false_eq_true, false_iff]
    rintro ⟨n, hn, _⟩
    rw [(toNumber_iff E J v n hv).2 hn] at h
    cases h
  | some n =>
    simp only []
    rw [← toInteger_zero]
    have hn := (toNumber_iff E J v n hv).1 h
    exact ⟨fun h => ⟨n, hn, h⟩, fun ⟨m, hm, h⟩ => hn.unique hm ▸ h⟩

theorem int_text (i : Int) : toString i = "0" ↔ i = 0 := by
  constructor
  · intro h
    rw [Int.toString_eq_repr, Int.repr_eq_if] at h
    split at h
    · next hi =>
      have h1 := congrArg String.toList h
      rw [Nat.toList_repr] at h1
      have h2 := Nat.ofDigitChars_ten_toDigits (n := i.toNat)
      rw [h1] at h2
      have : i.toNat = 0 := by rw [← h2]; rfl
      omega
    · have h1 := congrArg String.toList h
      simp at h1
  · rintro rfl; rfl

/-- C79 (zero for brackets).  An index counts as zero exactly if it is the property key "0". -/
theorem C79_zero_member (E : Env T) (J : Js) (hd : Digits E J) (v : Value) : zeroForMember v = true ↔ PropertyKey J v "0" := by
  cases v with
  | str s =>
    simp only [zeroForMember, decide_eq_true_eq]
    exact ⟨fun h => h ▸ .str, fun h => by cases h; rfl⟩
  | num n =>
    simp only [zeroForMember, decide_eq_true_eq]
    constructor
    · rintro rfl; have := PropertyKey.num (J := J) (n := .fin 0); rwa [(hd.zero _).2 rfl] at this
    · intro h
      generalize hz : "0" = z at h
      cases h with
      | num => exact (hd.zero n).1 hz.symm
  | bigint i =>
    simp only [zeroForMember, decide_eq_true_eq]
    constructor
    · rintro rfl; exact .bigint (i := 0)
    · intro h
      generalize hz : "0" = z at h
      cases h with
      | bigint => exact (int_text i).1 hz.symm
  | bool b => cases b <;> simp [zeroForMember] <;> intro h <;> generalize hz : "0" = z at h <;> cases h <;> simp at hz
  | null => simp [zeroForMember]; intro h; generalize hz : "0" = z at h; cases h; simp at hz
  | undefined => simp [zeroForMember]; intro h; generalize hz : "0" = z at h; cases h; simp at hz
  | symbol => simp [zeroForMember]; intro h; cases h

/-! ## Accesses and arrays -/

theorem propertyName_iff (E : Env T) (J : Js) (hd : Digits E J) (v : Value) (name : String) (hn : name = "filter" ∨ name = "at") :
    propertyName E v = some name ↔ PropertyKey J v name := by
  have hi : ∀ i : Int, toString i ≠ name := by
    intro i h
    rw [Int.toString_eq_repr, Int.repr_eq_if] at h
    split at h
    · have h1 := congrArg String.toList h
      rw [Nat.toList_repr] at h1
      have h2 := Nat.ofDigitChars_ten_toDigits (n := i.toNat)
      have hd : ∀ c ∈ Nat.toDigits 10 i.toNat, c.isDigit = true := fun c hc => Nat.isDigit_of_mem_toDigits (by omega) (by omega) hc
      rw [h1] at hd
      rcases hn with rfl | rfl
      · exact absurd (hd 'f' (by decide)) (by decide)
      · exact absurd (hd 'a' (by decide)) (by decide)
    · have h1 := congrArg String.toList h
      rcases hn with rfl | rfl <;> simp at h1
  cases v with
  | str s =>
    simp only [propertyName, Option.some.injEq]
    exact ⟨fun h => h ▸ .str, fun h => by cases h; rfl⟩
  | num n =>
    constructor
    · intro h
      simp only [propertyName, Option.some.injEq] at h
      exfalso
      unfold numberToString at h
      have hf := fun q => hd.rule q
      split at h
      · rcases hn with rfl | rfl <;> simp at h
      · rcases hn with rfl | rfl <;> simp at h
      · rcases hn with rfl | rfl <;> simp at h
      · next q =>
        split at h
        · rcases hn with rfl | rfl <;> simp at h
        · rcases hn with rfl | rfl
          · exact (hf q).1 h
          · exact (hf q).2 h
    · intro h
      cases h with
      | num => rcases hn with hn | hn
               · exact absurd hn (hd.language n).1
               · exact absurd hn (hd.language n).2
  | bigint i =>
    constructor
    · intro h; simp only [propertyName, Option.some.injEq] at h; exact absurd h (hi i)
    · intro h; cases h; exact absurd rfl (hi i)
  | bool b =>
    constructor
    · intro h; rcases hn with rfl | rfl <;> cases b <;> simp [propertyName] at h
    · intro h; generalize hz : name = z at h; cases h <;> subst hz <;> rcases hn with hn | hn <;> simp at hn
  | null =>
    constructor
    · intro h; rcases hn with rfl | rfl <;> simp [propertyName] at h
    · intro h; cases h; rcases hn with hn | hn <;> simp at hn
  | undefined =>
    constructor
    · intro h; rcases hn with rfl | rfl <;> simp [propertyName] at h
    · intro h; cases h; rcases hn with hn | hn <;> simp at hn
  | symbol => simp [propertyName]; intro h; cases h

theorem arrayPart_iff (E : Env T) (p : T) : arrayPart E p = true ↔ IsArrayPart E p := by
  unfold arrayPart IsArrayPart intersectionParts
  cases E.shape p <;> simp

theorem arrayishLoop_iff (E : Env T) : ∀ (ps : List T) (found : Bool), arrayishLoop E ps found = true ↔
    (∀ p ∈ ps, skipped E p = true ∨ arrayPart E p = true) ∧ (found = true ∨ ∃ p ∈ ps, skipped E p = false)
  | [], found => by simp [arrayishLoop]
  | p :: ps, found => by
    rw [arrayishLoop]
    split
    · next h => rw [arrayishLoop_iff E ps found]; simp [h]
    · next h =>
      split
      · next h2 => simp at h2; simp [h, h2]
      · next h2 => rw [arrayishLoop_iff E ps true]; simp at h h2; simp [h, h2]

/-- C79 (arrays).  A type counts as an array exactly if each of its parts is nullish, an array, a tuple or an intersection of those, and not all are
nullish. -/
theorem C79_arrayish (E : Env T) (t : T) : isArrayish E t = true ↔ Arrayish E t := by
  unfold isArrayish Arrayish
  rw [arrayishLoop_iff]
  simp only [Bool.false_eq_true, false_or, mem_unionParts, arrayPart_iff, skipped, Bool.or_eq_true, Bool.or_eq_false_iff, or_assoc]

theorem isAccessOf_iff (E : Env T) (J : Js) (hd : Digits E J) (hc : ∀ s i, E.init s = some i → Literals (fun s => numberOfString E s = J.number s) i)
    (fuel : Nat) (name : String) (hn : name = "filter" ∨ name = "at") (e : Expr) (hl : Literals (fun s => numberOfString E s = J.number s) e)
    (b : Bool) (h : isAccessOf E fuel e name = some b) : b = true ↔ ∃ id br o, Accesses E J name e id br o := by
  unfold isAccessOf at h
  induction e with
  | paren e ih =>
    rw [skipParens] at h
    rw [ih hl h]
    constructor
    · rintro ⟨id, br, o, h⟩; exact ⟨id, br, o, .paren h⟩
    · rintro ⟨id, br, o, h⟩; cases h with | paren h => exact ⟨id, br, o, h⟩
  | prop id q e n =>
    simp only [skipParens, Option.some.injEq] at h
    subst h
    simp only [decide_eq_true_eq]
    constructor
    · rintro rfl; exact ⟨_, _, _, .prop⟩
    · rintro ⟨_, _, _, h⟩; cases h; rfl
  | elem id q e i =>
    simp only [skipParens, Option.map_eq_some_iff] at h
    obtain ⟨r, hr, rfl⟩ := h
    have hs := C79_static E J i fuel r ⟨hl.2, hc⟩ hr
    simp only [decide_eq_true_eq, Option.bind_eq_some_iff]
    constructor
    · rintro ⟨v, hv, hk⟩; exact ⟨_, _, _, .elem ((hs v).1 hv) ((propertyName_iff E J hd v name hn).1 hk)⟩
    · rintro ⟨_, _, _, h⟩
      cases h with
      | elem hv hk => exact ⟨_, (hs _).2 hv, (propertyName_iff E J hd _ name hn).2 hk⟩
  | _ =>
    simp only [skipParens, Option.some.injEq] at h
    subst h
    simp only [Bool.false_eq_true, false_iff]
    rintro ⟨_, _, _, h⟩
    cases h

/-! ## Reports -/

theorem Accesses.paren_iff (E : Env T) (J : Js) (name : String) (e : Expr) (id : Nat) (b : Bool) (o : Expr) :
    Accesses E J name (skipParens e) id b o ↔ Accesses E J name e id b o := by
  induction e with
  | paren e ih => rw [skipParens, ih]; exact ⟨.paren, fun h => by cases h; assumption⟩
  | _ => rfl

theorem skipParens_ne (e i : Expr) : skipParens e ≠ .paren i := by
  induction e with
  | paren e ih => exact ih
  | _ => simp [skipParens]

theorem literals_skip (P : String → Prop) (e : Expr) (h : Literals P e) : Literals P (skipParens e) := by
  induction e with
  | paren e ih => exact ih h
  | _ => exact h

theorem callSites_iff (E : Env T) (J : Js) (hd : Digits E J) (hc : ∀ s i, E.init s = some i → Literals (fun s => numberOfString E s = J.number s) i)
    (fuel : Nat) (callee : Expr) (hl : Literals (fun s => numberOfString E s = J.number s) callee) (l : List Site)
    (h : callSites E fuel callee = some l) :
    (∀ s, s ∈ l ↔ ∃ o, Accesses E J "filter" callee s.id s.bracket o ∧ Arrayish E (E.typeOf s.id)) := by
  intro s
  simp only [← Accesses.paren_iff E J "filter" callee]
  have hl' := literals_skip _ _ hl
  unfold callSites at h
  split at h
  · next id q e name heq =>
    rw [heq] at hl' ⊢
    simp only [Option.map_eq_some_iff] at h
    obtain ⟨ok, hok, rfl⟩ := h
    have := isAccessOf_iff E J hd hc fuel "filter" (.inl rfl) _ hl' ok hok
    split
    · next hb =>
      simp only [Bool.and_eq_true, C79_arrayish] at hb
      simp only [List.mem_singleton]
      constructor
      · rintro rfl
        obtain ⟨id', br, o, ho⟩ := this.1 hb.1
        cases ho; exact ⟨_, .prop, hb.2⟩
      · rintro ⟨o, ho, _⟩
        obtain ⟨sid, sb⟩ := s
        cases ho; rfl
    · next hb =>
      simp only [Bool.and_eq_true, C79_arrayish, this] at hb
      simp only [List.not_mem_nil, false_iff]
      rintro ⟨o, ho, ha⟩
      obtain ⟨sid, sb⟩ := s
      cases ho
      exact hb ⟨⟨_, _, _, .prop⟩, ha⟩
  · next id q e i heq =>
    rw [heq] at hl' ⊢
    simp only [Option.map_eq_some_iff] at h
    obtain ⟨ok, hok, rfl⟩ := h
    have := isAccessOf_iff E J hd hc fuel "filter" (.inl rfl) _ hl' ok hok
    split
    · next hb =>
      simp only [Bool.and_eq_true, C79_arrayish] at hb
      simp only [List.mem_singleton]
      constructor
      · rintro rfl
        obtain ⟨id', br, o, ho⟩ := this.1 hb.1
        cases ho with | elem a b => exact ⟨_, .elem a b, hb.2⟩
      · rintro ⟨o, ho, _⟩
        obtain ⟨sid, sb⟩ := s
        cases ho; rfl
    · next hb =>
      simp only [Bool.and_eq_true, C79_arrayish, this] at hb
      simp only [List.not_mem_nil, false_iff]
      rintro ⟨o, ho, ha⟩
      obtain ⟨sid, sb⟩ := s
      cases ho with | elem a b => exact hb ⟨⟨_, _, _, .elem a b⟩, ha⟩
  · next h1 h2 =>
    simp only [Option.some.injEq] at h
    subst h
    simp only [List.not_mem_nil, false_iff]
    rintro ⟨o, ho, _⟩
    have h3 := skipParens_ne callee
    obtain ⟨sid, sb⟩ := s
    generalize skipParens callee = c at ho h1 h2 h3
    cases ho with
    | prop => exact h1 _ _ _ _ rfl
    | elem => exact h2 _ _ _ _ rfl
    | paren => exact h3 _ rfl

theorem filterCall_call1 (E : Env T) (J : Js) (callee arg : Expr) (s : Site) : FilterCall E J (.call1 false callee arg) s ↔
    ∃ o, Accesses E J "filter" callee s.id s.bracket o ∧ Arrayish E (E.typeOf s.id) := by
  obtain ⟨i, b⟩ := s
  exact ⟨fun h => by cases h with | call1 a b => exact ⟨_, a, b⟩, fun ⟨o, a, b⟩ => .call1 a b⟩

theorem filterCall_callN (E : Env T) (J : Js) (callee : Expr) (s : Site) : FilterCall E J (.callN false callee) s ↔
    ∃ o, Accesses E J "filter" callee s.id s.bracket o ∧ Arrayish E (E.typeOf s.id) := by
  obtain ⟨i, b⟩ := s
  exact ⟨fun h => by cases h with | callN a b => exact ⟨_, a, b⟩, fun ⟨o, a, b⟩ => .callN a b⟩

theorem source_paren {e x : Expr} : Source (.paren e) x ↔ Source e x :=
  ⟨fun h => by cases h with
    | paren h => exact h
    | self a => exact absurd rfl (a _), .paren⟩

theorem source_comma {l r x : Expr} : Source (.comma l r) x ↔ Source r x :=
  ⟨fun h => by cases h with
    | comma h => exact h
    | self _ a => exact absurd rfl (a _ _), .comma⟩

theorem source_cond {c t f x : Expr} : Source (.cond c t f) x ↔ Source t x ∨ Source f x :=
  ⟨fun h => by cases h with
    | whenTrue h => exact .inl h
    | whenFalse h => exact .inr h
    | self _ _ a => exact absurd rfl (a _ _ _), fun h => h.elim .whenTrue .whenFalse⟩

theorem source_self {e : Expr} (h1 : ∀ i, e ≠ .paren i) (h2 : ∀ l r, e ≠ .comma l r) (h3 : ∀ c t f, e ≠ .cond c t f) (x : Expr) : Source e x ↔ x = e := by
  constructor
  · intro h
    cases h with
    | paren => exact absurd rfl (h1 _)
    | comma => exact absurd rfl (h2 _ _)
    | whenTrue => exact absurd rfl (h3 _ _ _)
    | whenFalse => exact absurd rfl (h3 _ _ _)
    | self => rfl
  · rintro rfl; exact .self h1 h2 h3

/-- C79 (filters).  Filters are found exactly if every expression the value may come from, whichever way conditions go, is a call of `filter` on an
array; and then all of them are found and nothing else. -/
theorem C79_filters (E : Env T) (J : Js) (hd : Digits E J) (fuel : Nat) (e : Expr) (hp : Plain E J e) (l : List Site) (h : parse E fuel e = some l) :
    (l ≠ [] ↔ ∀ x, Source e x → ∃ s, FilterCall E J x s) ∧ (l ≠ [] → ∀ s, s ∈ l ↔ ∃ x, Source e x ∧ FilterCall E J x s) := by
  obtain ⟨hl, hc⟩ := hp
  have single : ∀ (e : Expr) (l : List Site), (∀ i, e ≠ .paren i) → (∀ l r, e ≠ .comma l r) → (∀ c t f, e ≠ .cond c t f) →
      (∀ s, s ∈ l ↔ FilterCall E J e s) →
      (l ≠ [] ↔ ∀ x, Source e x → ∃ s, FilterCall E J x s) ∧ (l ≠ [] → ∀ s, s ∈ l ↔ ∃ x, Source e x ∧ FilterCall E J x s) := by
    intro e l h1 h2 h3 hs
    simp only [source_self h1 h2 h3, forall_eq, exists_eq_left]
    refine ⟨?_, fun _ => hs⟩
    simp only [← hs]
    exact ⟨fun h => List.exists_mem_of_ne_nil _ h, fun ⟨s, hs⟩ => List.ne_nil_of_mem hs⟩
  induction e generalizing l with
  | paren e ih => simp only [source_paren]; exact ih l h hl
  | comma a b _ ih => simp only [source_comma]; exact ih l h hl.2
  | cond c t f _ iht ihf =>
    simp only [parse, Option.bind_eq_some_iff] at h
    obtain ⟨a, ha, h⟩ := h
    have ia := iht a ha hl.2.1
    simp only [source_cond]
    by_cases hae : a = []
    · subst hae
      simp at h
      subst h
      refine ⟨⟨fun h => absurd rfl h, fun h => ?_⟩, fun h => absurd rfl h⟩
      exact absurd rfl (ia.1.2 fun x hx => h x (.inl hx))
    · rw [if_neg (by simp [hae])] at h
      simp only [Option.map_eq_some_iff] at h
      obtain ⟨b, hb, h⟩ := h
      have ib := ihf b hb hl.2.2
      by_cases hbe : b = []
      · subst hbe
        simp at h
        subst h
        refine ⟨⟨fun h => absurd rfl h, fun h => ?_⟩, fun h => absurd rfl h⟩
        exact absurd rfl (ib.1.2 fun x hx => h x (.inr hx))
      · rw [if_neg (by simp [hbe])] at h
        subst h
        constructor
        · refine ⟨fun _ x hx => hx.elim (ia.1.1 hae x) (ib.1.1 hbe x), fun _ => by simp [hae]⟩
        · intro _ s
          rw [List.mem_append, ia.2 hae, ib.2 hbe]
          constructor
          · rintro (⟨x, h1, h2⟩ | ⟨x, h1, h2⟩)
            · exact ⟨x, .inl h1, h2⟩
            · exact ⟨x, .inr h1, h2⟩
          · rintro ⟨x, h1 | h1, h2⟩
            · exact .inl ⟨x, h1, h2⟩
            · exact .inr ⟨x, h1, h2⟩
  | call1 q callee arg _ _ =>
    refine single _ l (by simp) (by simp) (by simp) fun s => ?_
    simp only [parse] at h
    split at h
    · next hq => subst hq; simp at h; subst h; simp; intro h; cases h
    · next hq => simp at hq; subst hq; rw [callSites_iff E J hd hc fuel callee hl.1 l h, filterCall_call1]
  | callN q callee _ =>
    refine single _ l (by simp) (by simp) (by simp) fun s => ?_
    simp only [parse] at h
    split at h
    · next hq => subst hq; simp at h; subst h; simp; intro h; cases h
    · next hq => simp at hq; subst hq; rw [callSites_iff E J hd hc fuel callee hl l h, filterCall_callN]
  | _ =>
    refine single _ l (by simp) (by simp) (by simp) fun s => ?_
    simp [parse] at h
    subst h
    simp
    intro h
    cases h

theorem Accesses.functional {E : Env T} {J : Js} {name : String} {e : Expr} {id id' : Nat} {b b' : Bool} {o o' : Expr}
    (h : Accesses E J name e id b o) (g : Accesses E J name e id' b' o') : o = o' := by
  induction h generalizing b' with
  | prop => cases g; rfl
  | elem => cases g; rfl
  | paren _ ih => cases g with | paren g => exact ih g

theorem TakesFirst.functional {E : Env T} {J : Js} {e o o' : Expr} (h : TakesFirst E J e o) (g : TakesFirst E J e o') : o = o' := by
  cases h with
  | member => cases g; rfl
  | «at» a => cases g with | «at» b => exact a.functional b

theorem zero_at_iff (E : Env T) (J : Js) (arg : Expr) (hp : Plain E J arg) (fuel : Nat) (r : Option Value) (h : getStatic E fuel [] arg = some r) :
    (r.map (zeroForAt E)).getD false = true ↔ ∃ v n, Evaluates E J arg v ∧ ToNumber J v n ∧ ToInteger n 0 := by
  have hs := C79_static E J arg fuel r hp h
  constructor
  · intro hz
    cases r with
    | none => simp at hz
    | some v =>
      have hv := (hs v).1 rfl
      simp only [Option.map_some, Option.getD_some] at hz
      obtain ⟨n, h1, h2⟩ := (C79_zero_at E J v (plain_of_evaluates E J hv hp.here hp.constants)).1 hz
      exact ⟨v, n, hv, h1, h2⟩
  · rintro ⟨v, n, hv, h1, h2⟩
    obtain rfl := (hs v).2 hv
    exact (C79_zero_at E J v (plain_of_evaluates E J hv hp.here hp.constants)).2 ⟨n, h1, h2⟩

theorem objectOfAt_iff (E : Env T) (J : Js) (hd : Digits E J) (fuel : Nat) (q : Bool) (callee arg : Expr) (hp : Plain E J (.call1 q callee arg))
    (r : Option Expr) (h : objectOfAt E fuel q callee arg = some r) (o : Expr) : r = some o ↔ TakesFirst E J (.call1 q callee arg) o := by
  obtain ⟨hl, hc⟩ := hp
  unfold objectOfAt at h
  split at h
  · next hq => subst hq; simp at h; subst h; simp; intro h; cases h
  · next hq =>
    simp at hq; subst hq
    have hl' := literals_skip _ _ hl.1
    have takes : TakesFirst E J (.call1 false callee arg) o ↔
        (∃ id b, Accesses E J "at" (skipParens callee) id b o) ∧ ∃ v n, Evaluates E J arg v ∧ ToNumber J v n ∧ ToInteger n 0 := by
      constructor
      · intro h
        cases h with
        | «at» a b c d => exact ⟨⟨_, _, (Accesses.paren_iff ..).2 a⟩, _, _, b, c, d⟩
      · rintro ⟨⟨id, b, a⟩, v, n, h1, h2, h3⟩
        exact .at ((Accesses.paren_iff ..).1 a) h1 h2 h3
    rw [takes]
    clear takes
    have finish : ∀ (node e : Expr), Literals (fun s => numberOfString E s = J.number s) node →
        (∀ id b o, Accesses E J "at" node id b o → o = e) →
        ((isAccessOf E fuel node "at").bind fun ok => if !ok then some none else
          (getStatic E fuel [] arg).map fun v => if (v.map (zeroForAt E)).getD false then some e else none) = some r →
        (r = some o ↔ (∃ id b, Accesses E J "at" node id b o) ∧ ∃ v n, Evaluates E J arg v ∧ ToNumber J v n ∧ ToInteger n 0) := by
      intro node e hnode hobj h
      simp only [Option.bind_eq_some_iff] at h
      obtain ⟨ok, hok, h⟩ := h
      have ha := isAccessOf_iff E J hd hc fuel "at" (.inr rfl) node hnode ok hok
      cases ok with
      | false =>
        simp at h
        subst h
        simp only [reduceCtorEq, false_iff]
        rintro ⟨⟨id, b, h⟩, _⟩
        have := ha.2 ⟨id, b, o, h⟩
        simp at this
      | true =>
        simp only [Bool.not_true, Bool.false_eq_true, if_false, Option.map_eq_some_iff] at h
        obtain ⟨v, hv, rfl⟩ := h
        have hz := zero_at_iff E J arg ⟨hl.2, hc⟩ fuel v hv
        obtain ⟨id, b, o', ho'⟩ := ha.1 rfl
        rw [← hz]
        split
        · next hzz =>
          simp only [Option.some.injEq, hzz, and_true]
          constructor
          · rintro rfl; have := hobj _ _ _ ho'; subst this; exact ⟨_, _, ho'⟩
          · rintro ⟨_, _, h⟩; exact (hobj _ _ _ h).symm
        · next hzz => simp [hzz]
    split at h
    · next heq => rw [heq] at hl' ⊢; exact finish _ _ hl' (fun id b o h => by cases h; rfl) h
    · next heq => rw [heq] at hl' ⊢; exact finish _ _ hl' (fun id b o h => by cases h; rfl) h
    · next h1 h2 =>
      simp only [Option.some.injEq] at h
      subst h
      have h3 := skipParens_ne callee
      generalize skipParens callee = c at h1 h2 h3
      simp only [reduceCtorEq, false_iff]
      rintro ⟨⟨id, b, ho⟩, _⟩
      cases ho with
      | prop => exact h1 _ _ _ _ rfl
      | elem => exact h2 _ _ _ _ rfl
      | paren => exact h3 _ rfl

theorem memberZero_iff (E : Env T) (J : Js) (hd : Digits E J) (fuel id : Nat) (q : Bool) (e i : Expr) (hp : Plain E J (.elem id q e i))
    (b : Bool) (h : memberZero E fuel q i = some b) : b = true ↔ TakesFirst E J (.elem id q e i) e := by
  unfold memberZero at h
  split at h
  · next hq => subst hq; simp at h; subst h; simp; intro h; cases h
  · next hq =>
    simp at hq; subst hq
    simp only [Option.map_eq_some_iff] at h
    obtain ⟨r, hr, rfl⟩ := h
    have hs := C79_static E J i fuel r ⟨hp.here.2, hp.constants⟩ hr
    constructor
    · intro hz
      cases r with
      | none => simp at hz
      | some v => exact .member ((hs v).1 rfl) ((C79_zero_member E J hd v).1 (by simpa using hz))
    · intro h
      cases h with
      | member h1 h2 =>
        obtain rfl := (hs _).2 h1
        simpa using (C79_zero_member E J hd _).2 h2

/-- C79 (reports).  An expression is reported exactly if it takes the first element of an object all of whose possible sources are filters of arrays; the
filters to rewrite are then exactly those. -/
theorem C79_reports (E : Env T) (J : Js) (hd : Digits E J) (fuel : Nat) (node : Expr) (hp : Plain E J node) (r : Option (Expr × List Site))
    (h : check E fuel node = some r) :
    (r.isSome = true ↔ ∃ object, TakesFirst E J node object ∧ ∀ x, Source object x → ∃ s, FilterCall E J x s) ∧
    (∀ object l, r = some (object, l) → TakesFirst E J node object ∧ ∀ s, s ∈ l ↔ ∃ x, Source object x ∧ FilterCall E J x s) := by
  have finish : ∀ (object : Expr) (l : List Site), Plain E J object → TakesFirst E J node object → parse E fuel object = some l →
      r = (if l.isEmpty then none else some (object, l)) →
      (r.isSome = true ↔ ∃ object, TakesFirst E J node object ∧ ∀ x, Source object x → ∃ s, FilterCall E J x s) ∧
      (∀ object l, r = some (object, l) → TakesFirst E J node object ∧ ∀ s, s ∈ l ↔ ∃ x, Source object x ∧ FilterCall E J x s) := by
    intro object l hpo ht hl hr
    obtain ⟨h1, h2⟩ := C79_filters E J hd fuel object hpo l hl
    by_cases hle : l = []
    · subst hle
      simp at hr
      subst hr
      refine ⟨?_, by simp⟩
      simp only [Option.isSome_none, Bool.false_eq_true, false_iff]
      rintro ⟨o, ho, hall⟩
      obtain rfl := ht.functional ho
      exact h1.2 hall rfl
    · rw [if_neg (by simp [hle])] at hr
      subst hr
      refine ⟨⟨fun _ => ⟨object, ht, h1.1 hle⟩, fun _ => rfl⟩, ?_⟩
      intro o l' heq
      simp only [Option.some.injEq, Prod.mk.injEq] at heq
      obtain ⟨rfl, rfl⟩ := heq
      exact ⟨ht, h2 hle⟩
  have nothing : (∀ o, ¬ TakesFirst E J node o) → r = none →
      (r.isSome = true ↔ ∃ object, TakesFirst E J node object ∧ ∀ x, Source object x → ∃ s, FilterCall E J x s) ∧
      (∀ object l, r = some (object, l) → TakesFirst E J node object ∧ ∀ s, s ∈ l ↔ ∃ x, Source object x ∧ FilterCall E J x s) := by
    rintro hn rfl
    refine ⟨?_, by simp⟩
    simp only [Option.isSome_none, Bool.false_eq_true, false_iff]
    rintro ⟨o, ho, _⟩
    exact hn o ho
  cases node with
  | call1 q callee arg =>
    simp only [check, Option.bind_eq_some_iff] at h
    obtain ⟨o, ho, h⟩ := h
    have hi := objectOfAt_iff E J hd fuel q callee arg hp o ho
    cases o with
    | none => simp only [Option.some.injEq] at h; exact nothing (fun o ho => by have := (hi o).2 ho; simp at this) h.symm
    | some object =>
      simp only [Option.map_eq_some_iff] at h
      obtain ⟨l, hl, rfl⟩ := h
      have ht := (hi object).1 rfl
      refine finish object l ⟨?_, hp.constants⟩ ht hl rfl
      have hlit := hp.here.1
      cases ht with
      | «at» a =>
        clear hl ho hi finish nothing hp
        induction a with
        | prop => exact hlit
        | elem => exact hlit.1
        | paren _ ih => exact ih hlit
  | elem id q e i =>
    simp only [check, Option.bind_eq_some_iff] at h
    obtain ⟨ok, hok, h⟩ := h
    have hi := memberZero_iff E J hd fuel id q e i hp ok hok
    cases ok with
    | false =>
      simp at h
      refine nothing (fun o ho => ?_) h.symm
      have : o = e := by cases ho; rfl
      subst this
      exact absurd (hi.2 ho) (by simp)
    | true =>
      simp only [Bool.not_true, Bool.false_eq_true, if_false, Option.map_eq_some_iff] at h
      obtain ⟨l, hl, rfl⟩ := h
      exact finish e l ⟨hp.here.1, hp.constants⟩ (hi.1 rfl) hl rfl
  | _ => simp [check] at h; exact nothing (fun o ho => by cases ho) h.symm

theorem check_total (E : Env T) (fuel : Nat) (hf : ∀ e, ∃ r, getStatic E fuel [] e = some r) (node : Expr) : ∃ r, check E fuel node = some r := by
  have acc : ∀ e name, ∃ b, isAccessOf E fuel e name = some b := by
    intro e name
    unfold isAccessOf
    split
    · exact ⟨_, rfl⟩
    · next i _ => obtain ⟨r, hr⟩ := hf i; exact ⟨_, by rw [hr]; rfl⟩
    · exact ⟨_, rfl⟩
  have sites : ∀ c, ∃ l, callSites E fuel c = some l := by
    intro c
    unfold callSites
    split
    · obtain ⟨b, hb⟩ := acc (.prop ‹_› ‹_› ‹_› ‹_›) "filter"; exact ⟨_, by rw [hb]; rfl⟩
    · next id q e i _ => obtain ⟨b, hb⟩ := acc (.elem id q e i) "filter"; exact ⟨_, by rw [hb]; rfl⟩
    · exact ⟨_, rfl⟩
  have pars : ∀ e, ∃ l, parse E fuel e = some l := by
    intro e
    induction e with
    | paren e ih => exact ih
    | comma _ r _ ih => exact ih
    | cond _ t f _ it iff_ =>
      obtain ⟨a, ha⟩ := it
      obtain ⟨b, hb⟩ := iff_
      by_cases h : a.isEmpty = true
      · exact ⟨_, by simp only [parse, ha, Option.bind_some, h, if_true]; rfl⟩
      · exact ⟨_, by simp only [parse, ha, Option.bind_some, h, hb, Option.map_some]; rfl⟩
    | call1 q c a _ _ => cases q <;> simp only [parse] <;> first | exact ⟨_, rfl⟩ | exact sites c
    | callN q c _ => cases q <;> simp only [parse] <;> first | exact ⟨_, rfl⟩ | exact sites c
    | _ => exact ⟨_, rfl⟩
  have obj : ∀ q c a, ∃ o, objectOfAt E fuel q c a = some o := by
    intro q c a
    obtain ⟨v, hv⟩ := hf a
    unfold objectOfAt
    split
    · exact ⟨_, rfl⟩
    · split
      · obtain ⟨b, hb⟩ := acc (.prop ‹_› ‹_› ‹_› ‹_›) "at"
        cases b <;> simp [hb, hv]
      · next id q e i _ =>
        obtain ⟨b, hb⟩ := acc (.elem id q e i) "at"
        cases b <;> simp [hb, hv]
      · exact ⟨_, rfl⟩
  cases node with
  | call1 q c a =>
    obtain ⟨o, ho⟩ := obj q c a
    cases o with
    | none => exact ⟨none, by simp [check, ho]⟩
    | some o => obtain ⟨l, hl⟩ := pars o; exact ⟨_, by simp only [check, ho, Option.bind_some, hl, Option.map_some]; rfl⟩
  | elem id q e i =>
    obtain ⟨v, hv⟩ := hf i
    obtain ⟨l, hl⟩ := pars e
    cases q with
    | true => exact ⟨none, by simp [check, memberZero]⟩
    | false =>
      by_cases hz : (v.map zeroForMember).getD false = true
      · exact ⟨_, by simp only [check, memberZero, hv, Bool.false_eq_true, if_false, Option.map_some, Option.bind_some, hz, Bool.not_true, hl]; rfl⟩
      · exact ⟨none, by simp only [check, memberZero, hv, Bool.false_eq_true, if_false, Option.map_some, Option.bind_some]; simp [hz]⟩
  | _ => exact ⟨_, rfl⟩

/-- C79 (total).  In a file with finitely many constants every expression is judged. -/
theorem C79_total (E : Env T) (symbols : List Nat) (hs : ∀ s, (E.init s).isSome → s ∈ symbols) (node : Expr) :
    ∃ r, check E symbols.length node = some r :=
  check_total E _ (C79_terminates E symbols hs) node

/-! ## Meaning -/

/-- C79 (meaning).  On an array without holes the first element of the filtered array is what `find` finds. -/
theorem C79_value {V : Type} (undefined : V) (f : V → Bool) (a : List (Option V)) (ha : none ∉ a) :
    jsFirst undefined (jsFilter f a) = jsFind undefined f a := by
  induction a with
  | nil => rfl
  | cons x a ih =>
    cases x with
    | none => simp at ha
    | some x =>
      simp only [List.mem_cons, not_or] at ha
      rw [jsFilter, jsFind, Option.getD_some]
      split
      · rfl
      · exact ih ha.2

example : jsFirst 0 (jsFilter (fun n => decide (n > 1)) [some 1, some 2, some 3]) = 2 := by decide

/-- C79 (finding).  `[, 5].filter(() => true)[0]` is 5, `[, 5].find(() => true)` is undefined. -/
theorem C79_hazard_holes : ∃ (f : Option Nat → Bool) (a : List (Option (Option Nat))),
    jsFirst none (jsFilter f a) ≠ jsFind none f a := ⟨fun _ => true, [none, some (some 5)], by decide⟩

/-- C79 (finding).  A string `strconv.ParseFloat` refuses, be it only for being out of range as "1e999" is, counts as zero: `a.filter(f).at("1e999")`,
which is undefined, is rewritten to `a.find(f)`. -/
theorem C79_hazard_range (E : Env T) (s : String) (ht : E.trim s = s) (hr : E.parseFloat s = none) (hb : basePrefix (splitSign s).2 = none)
    (hi : s ≠ "Infinity" ∧ s ≠ "+Infinity" ∧ s ≠ "-Infinity") : zeroForAt E (.str s) = true := by
  by_cases he : s = ""
  · subst he; simp [zeroForAt, toNumber, numberOfString, ht, numberOfTrimmed, truncZero]; constructor <;> decide
  · simp [zeroForAt, toNumber, numberOfString, ht, numberOfTrimmed, he, hi, hb, hr]

example : basePrefix (splitSign "1e999").2 = none := by decide

/-! ## The text -/

theorem scan_line (space : Char → Bool) (c : Char) (l : List Char) (hc : c = '\n' ∨ c = '\r') : ∀ body, (∀ d ∈ body, d ≠ '\n' ∧ d ≠ '\r') →
    scan space .line (body ++ c :: l) = scan space .code l
  | [], _ => by rw [List.nil_append, scan, if_pos hc]
  | d :: body, h => by
    have h1 := h d (by simp)
    rw [List.cons_append, scan, if_neg (by simp [h1]), scan_line space c l hc body fun d hd => h d (by simp [hd])]

theorem scan_block (space : Char → Bool) (l : List Char) : ∀ body, (∀ a b, body ≠ a ++ '*' :: '/' :: b) →
    scan space .block (body ++ '*' :: '/' :: l) = scan space .code l
  | [], _ => by rw [List.nil_append, scan, if_pos ⟨rfl, rfl⟩]
  | [c], _ => by
    rw [List.cons_append, List.nil_append, scan, if_neg (by simp), scan, if_pos ⟨rfl, rfl⟩]
  | c :: d :: body, h => by
    rw [List.cons_append, List.cons_append, scan, if_neg]
    · exact scan_block space l (d :: body) fun a b hab => h (c :: a) b (by simp [hab])
    · rintro ⟨rfl, rfl⟩
      exact h [] body rfl

/-- C79 (where the access begins).  Behind an array, spaces, comments (whatever is written in them) and closing parentheses are skipped; the access is
removed from its dot or bracket on. -/
theorem C79_start (space : Char → Bool) (hs : space '/' = false ∧ space ')' = false ∧ space '.' = false ∧ space '[' = false)
    (gap rest : List Char) (c : Char) (hc : c = '.' ∨ c = '[') (h : Gap space gap) : scan space .code (gap ++ c :: rest) = some (c :: rest) := by
  induction h with
  | nil => rcases hc with rfl | rfl <;> simp [scan, hs]
  | space h _ ih => rw [List.cons_append, scan.eq_def]; simp only [h, if_true, ih]
  | paren _ ih => simp [scan, hs, ih]
  | line hb hn _ ih =>
    rw [List.append_assoc, List.cons_append, List.cons_append, scan]
    simp only [hs.1, Bool.false_eq_true, if_false, List.cons_append]
    rw [scan_line space _ _ hn _ hb, ih]
  | block hb _ ih =>
    rw [List.append_assoc, List.cons_append, List.cons_append, scan]
    simp only [hs.1, Bool.false_eq_true, if_false, List.cons_append]
    rw [scan_block space _ _ hb, ih]

example : Gap (· = ' ') ") /* [ . */ ".toList :=
  .paren (.space rfl (.block (body := " [ . ".toList) (by
    intro a b h
    have : '*' ∈ " [ . ".toList := by rw [h]; simp
    exact absurd this (by decide)) (.space rfl .nil)))

/-- C79 (finding).  For `a.filter(f)?.at(0)` only `.at(0)` is removed: the suggestion leaves `a.find(f)?`. -/
theorem C79_hazard_optional : scan (· = ' ') .code "?.at(0)".toList = some ".at(0)".toList := by decide

/-- The places of the names in a text made of pieces: what comes before a name, the name, and how it is written. -/
def places : Nat → List (Bytes × Bytes × Bool) → List (Bool × Nat × Nat)
  | _, [] => []
  | n, (before, name, b) :: l => (b, n + before.length, n + before.length + name.length) :: places (n + before.length + name.length) l

/-- The text with the names as they are, and with `find` in their place. -/
def textOld : List (Bytes × Bytes × Bool) → Bytes
  | [] => []
  | (before, name, _) :: l => before ++ name ++ textOld l
def textNew : List (Bytes × Bytes × Bool) → Bytes
  | [] => []
  | (before, _, b) :: l => before ++ (if b then ascii "\"find\"" else ascii "find") ++ textNew l

theorem segs_spec (l : List (Bytes × Bytes × Bool)) (n : Nat) :
    let segs := l.flatMap fun p => [Seg.keep p.1, Seg.sub p.2.1 (replacement p.2.2)]
    Seg.old segs = textOld l ∧ Seg.new segs = textNew l ∧
      Seg.edits n segs = (places n l).map fun p => (⟨replacement p.1, p.2.1, p.2.2⟩ : Fix) := by
  induction l generalizing n with
  | nil => simp [Seg.old, Seg.new, Seg.edits, textOld, textNew, places]
  | cons p l ih =>
    obtain ⟨before, name, b⟩ := p
    have h := ih (n + before.length + name.length)
    simp only at h
    obtain ⟨h1, h2, h3⟩ := h
    simp only [List.flatMap_cons, List.cons_append, List.nil_append, Seg.old, Seg.new, Seg.edits, textOld, textNew, places, List.map_cons, h1, h2, h3,
      List.append_assoc]
    exact ⟨trivial, rfl, by simp⟩

/-- C79 (suggestion).  Every `filter` becomes `find`, or `"find"` in brackets, the access is removed from its start on and nothing else changes, however
many filters there are. -/
theorem C79_fix (l : List (Bytes × Bytes × Bool)) (gap access post : Bytes) (sites : List Site) (range : Nat → Nat × Nat)
    (hr : sites.map (fun s => (s.bracket, range s.id)) = places 0 l) :
    AppliesTo (textOld l ++ gap ++ access ++ post)
      (fixes range sites ((textOld l).length + gap.length) ((textOld l).length + gap.length + access.length))
      (textNew l ++ gap ++ post) := by
  obtain ⟨h1, h2, h3⟩ := segs_spec l 0
  have := Seg.applies_sorted ((l.flatMap fun p => [Seg.keep p.1, Seg.sub p.2.1 (replacement p.2.2)]) ++ [.keep gap, .sub access [], .keep post])
  rw [Seg.old_append, Seg.new_append, Seg.edits_append, h1, h2, h3, ← hr] at this
  simp only [Seg.old, Seg.new, Seg.edits, List.map_map, Function.comp_def, List.append_nil, List.nil_append, Nat.zero_add] at this
  simpa [fixes, List.append_assoc] using this

/-- `(c ? a.filter(f) : b["filter"](g))[0]` -/
example : (let l := [(ascii "(c ? a.", ascii "filter", false), (ascii "(f) : b[", ascii "\"filter\"", true)]
    ∃ (sites : List Site) (range : Nat → Nat × Nat), sites.map (fun s => (s.bracket, range s.id)) = places 0 l) :=
  ⟨[⟨0, false⟩, ⟨1, true⟩], fun n => if n = 0 then (7, 13) else (21, 29), by decide⟩

/-! ## Examples -/

section
private def sampleShape : Nat → Shape Nat := fun _ => .other
private def sampleEnv : Env Nat where
  init := fun s => if s = 0 then some (.unary .minus (.str "0")) else if s = 1 then some (.ident "b" (some 1)) else none
  trim := id
  parseFloat := fun s => if s = "0" then some (.fin 0) else if s = "filter" then none else none
  parseInt := fun _ _ => none
  format := fun _ => "1"
  shape := sampleShape
  isNull := fun _ => false
  isUndefined := fun _ => false
  isArray := fun t => t == 7
  isTuple := fun _ => false
  typeOf := fun i => if i = 5 then 7 else 8
private def sampleJs : Js := ⟨fun s => numberOfString sampleEnv s, fun n => if n = .fin 0 then "0" else "1"⟩

/-- `const z = -"0"; (x, a.filter(f)).at(z)` -/
private def sampleNode : Expr := .call1 false (.prop 6 false (.paren (.comma .other (.call1 false (.prop 5 false .other "filter") .other))) "at") (.ident "z" (some 0))

example : check sampleEnv 2 sampleNode = some (some (.paren (.comma .other (.call1 false (.prop 5 false .other "filter") .other)), [⟨5, false⟩])) := by
  decide +kernel
example : Plain sampleEnv sampleJs sampleNode := ⟨by simp [sampleNode, Literals], by
  intro s i h
  simp only [sampleEnv] at h
  split at h
  · cases h; simp [Literals]; rfl
  · split at h
    · cases h; trivial
    · cases h⟩
example : Digits sampleEnv sampleJs := ⟨by simp [sampleEnv], by intro n; simp only [sampleJs]; split <;> simp, by
  intro n; simp only [sampleJs]; split <;> simp_all⟩
example : ∀ s, (sampleEnv.init s).isSome → s ∈ [0, 1] := by
  intro s h
  simp only [sampleEnv] at h
  split at h
  · simp_all
  · split at h <;> simp_all
/-- A constant that refers to itself has no static value. -/
example : getStatic sampleEnv 2 [] (.ident "b" (some 1)) = some none := by decide +kernel
end

end Tsgolint.PreferFind
