import Verif.Spec.ReturnThis
import Verif.Proof.StableFix
/-! # C86 -/
namespace Tsgolint.ReturnThis
open Tsgolint.Fixer (Fix Bytes ascii AppliesTo Seg)
variable {T : Type} [DecidableEq T]

theorem names_iff_find (name : String) (a : TypeNode) (r : Nat × Nat) : find name a = some r ↔ Names name a r := by
  have key : ∀ l : List (Option String × Nat × Nat), (∃ pre post, l = pre ++ (some name, r) :: post ∧ ∀ q ∈ pre, q.1 ≠ some name) ↔
      (l.find? fun q => q.1 = some name) = some (some name, r) := by
    intro l
    induction l with
    | nil => simp
    | cons q l ih =>
      rw [List.find?_cons]
      by_cases hq : q.1 = some name
      · simp only [hq, decide_true]
        constructor
        · rintro ⟨pre, post, h1, h2⟩
          cases pre with
          | nil => cases h1; rfl
          | cons b pre => cases h1; exact absurd hq (h2 q (by simp))
        · intro h; cases h; exact ⟨[], l, rfl, by simp⟩
      · simp only [hq, decide_false]
        rw [← ih]
        constructor
        · rintro ⟨pre, post, h1, h2⟩
          cases pre with
          | nil => cases h1; exact absurd rfl hq
          | cons b pre => cases h1; exact ⟨pre, post, rfl, fun x hx => h2 x (by simp [hx])⟩
        · rintro ⟨pre, post, rfl, h2⟩
          exact ⟨q :: pre, post, rfl, List.forall_mem_cons.2 ⟨hq, h2⟩⟩
  have list : ∀ ps : List TypeNode, (∀ p ∈ ps, find name p = (p.refs.find? fun q => q.1 = some name).map (·.2)) →
      findIn name ps = ((refsOf ps).find? fun q => q.1 = some name).map (·.2) := by
    intro ps h
    induction ps with
    | nil => simp [findIn, refsOf]
    | cons p ps ih =>
      simp only [findIn, refsOf, List.find?_append]
      rw [h p (by simp), ih fun p hp => h p (by simp [hp])]
      cases List.find? (fun q => decide (q.1 = some name)) p.refs <;> simp
  have main : ∀ k (a : TypeNode), sizeOf a < k → find name a = (a.refs.find? fun q => q.1 = some name).map (·.2) := by
    intro k
    induction k with
    | zero => intro a h; omega
    | succ k ih =>
      intro a hk
      cases a with
      | ref n pos stop =>
        simp only [find, TypeNode.refs, List.find?_cons]
        by_cases hn : n = some name <;> simp [hn]
      | union ps =>
        simp only [find, TypeNode.refs]
        apply list
        intro p hp
        have := List.sizeOf_lt_of_mem hp
        simp only [TypeNode.union.sizeOf_spec] at hk
        exact ih p (by omega)
      | other => simp [find, TypeNode.refs]
  unfold Names
  rw [key, main _ a (Nat.lt_succ_self _), Option.map_eq_some_iff]
  constructor
  · rintro ⟨q, h, rfl⟩
    have := List.find?_some h
    rw [decide_eq_true_eq] at this
    rw [h, ← this]
  · intro h; exact ⟨_, h, rfl⟩

theorem scan_iff (cls : Option (T × T)) (rs : List (Ret T)) (h : Bool) :
    (let (hasClass, hasThis) := scan cls rs h; !(hasClass || !hasThis)) = true ↔
      (h = true ∨ ∃ r ∈ rs, IsThis cls r) ∧ (∀ c t, cls = some (c, t) → Ret.value c ∉ rs) := by
  induction rs generalizing h with
  | nil => simp [scan]
  | cons r rs ih =>
    cases r with
    | nothing =>
      rw [scan, ih]
      have : ¬ IsThis cls .nothing := by intro h; cases h
      simp [this]
    | this =>
      rw [scan, ih]
      have : IsThis cls .this := .keyword
      simp [this]
    | value t =>
      rw [scan.eq_def]
      simp only
      cases cls with
      | none =>
        simp only
        rw [ih]
        have : ¬ IsThis (T := T) none (.value t) := by intro h; cases h with | typed h => cases h
        simp [this]
      | some p =>
        obtain ⟨c, this⟩ := p
        simp only
        by_cases hc : c = t
        · rw [if_pos hc]
          simp only [Bool.true_or, Bool.not_true, Bool.false_eq_true, false_iff]
          rintro ⟨-, h⟩
          exact h c this rfl (by simp [hc])
        · rw [if_neg hc, ih]
          have ht : IsThis (some (c, this)) (.value t) ↔ this = t := by
            constructor
            · intro h; cases h with | typed h => cases h; rfl
            · rintro rfl; exact .typed rfl
          have hm : (∀ c' t', some (c, this) = some (c', t') → Ret.value c' ∉ Ret.value t :: rs) ↔ ∀ c' t', some (c, this) = some (c', t') → Ret.value c' ∉ rs := by
            constructor
            · intro h c' t' e hm; exact h c' t' e (by simp [hm])
            · intro h c' t' e hm
              cases e
              rcases List.mem_cons.1 hm with h' | h'
              · cases h'; exact hc rfl
              · exact h _ _ rfl h'
          rw [hm]
          refine and_congr ?_ Iff.rfl
          have ex : (∃ r ∈ Ret.value t :: rs, IsThis (some (c, this)) r) ↔ this = t ∨ ∃ r ∈ rs, IsThis (some (c, this)) r := by
            rw [← ht]; simp
          rw [ex]
          by_cases h' : this = t <;> simp [h']

/-- C86.  The first mention of the class in a method's return type is reported exactly if the method takes no `this` parameter and its body returns `this`, and nowhere a value of the
class's own type. -/
theorem C86_reported (c : Class T) (f : Fn T) (r : Nat × Nat) :
    checkFunction c f = some r ↔ ∃ annotation body name, f.annotation = some annotation ∧ f.body = some body ∧ c.name = some name ∧ Names name annotation r ∧
      f.firstParam ≠ some "this" ∧ ReturnsThis c.types body := by
  have hb : ∀ body, returnsThis c.types body = true ↔ ReturnsThis c.types body := by
    intro body
    cases body with
    | block rs =>
      unfold returnsThis
      rw [scan_iff]
      simp only [Bool.false_eq_true, false_or]
      constructor
      · rintro ⟨⟨r, h1, h2⟩, h3⟩; exact .block h1 h2 h3
      · intro h; cases h with | block h1 h2 h3 => exact ⟨⟨_, h1, h2⟩, h3⟩
    | expression t =>
      unfold returnsThis
      cases hc : c.types with
      | none => simp only [Bool.false_eq_true, false_iff]; intro h; cases h with | expression h => cases h
      | some p =>
        obtain ⟨a, b⟩ := p
        simp only [decide_eq_true_eq]
        constructor
        · rintro rfl; exact .expression rfl
        · intro h; cases h with | expression h => cases h; rfl
  unfold checkFunction
  split
  · next a b n h1 h2 h3 =>
    have : (∃ annotation body name, f.annotation = some annotation ∧ f.body = some body ∧ c.name = some name ∧ Names name annotation r ∧
        f.firstParam ≠ some "this" ∧ ReturnsThis c.types body) ↔ Names n a r ∧ f.firstParam ≠ some "this" ∧ ReturnsThis c.types b := by
      constructor
      · rintro ⟨a', b', n', e1, e2, e3, h⟩
        rw [h1] at e1; rw [h2] at e2; rw [h3] at e3; cases e1; cases e2; cases e3; exact h
      · intro h; exact ⟨a, b, n, h1, h2, h3, h⟩
    rw [this, ← hb, ← names_iff_find]
    cases find n a with
    | none => simp
    | some q =>
      simp only [Option.some.injEq]
      by_cases hp : f.firstParam = some "this"
      · simp [hp]
      · by_cases hr : returnsThis c.types b = true <;> simp [hp, hr]
  · next h =>
    simp only [reduceCtorEq, false_iff]
    rintro ⟨a, b, n, h1, h2, h3, -⟩
    exact h a b n h1 h2 h3

/-- C86 (fix).  The fix replaces that mention by `this` and nothing else. -/
theorem C86_fix (pre node post : Bytes) (r : Nat × Nat) (h1 : r.1 = pre.length) (h2 : r.2 = pre.length + node.length) :
    AppliesTo (pre ++ node ++ post) (fix r) (pre ++ ascii "this" ++ post) := by
  have := Seg.applies_sorted [.keep pre, .sub node (ascii "this"), .keep post]
  simpa [Seg.old, Seg.new, Seg.edits, fix, h1, h2] using this

/-- C86 (finding).  A method that returns `this` on one path and a value of a union with the class on another (whose type is neither) is reported, although `this` is then wrong. -/
theorem C86_hazard_union (c this union : T) (name : String) (pos stop : Nat) (h1 : c ≠ union) :
    checkFunction (T := T) ⟨some name, some (c, this)⟩ ⟨some (.union [.ref (some name) pos stop, .other]), some (.block [.this, .value union]), none⟩ = some (pos, stop) := by
  have : scan (some (c, this)) [.this, .value union] false = (false, true) := by
    simp only [scan]
    rw [if_neg h1]
    split <;> rfl
  simp [checkFunction, find, findIn, returnsThis, this]

/-! ## Cases -/

example : checkFunction (T := Nat) ⟨some "Foo", some (1, 2)⟩ ⟨some (.union [.other, .union [.ref (some "Bar") 3 6, .ref (some "Foo") 9 12]]), some (.block [.nothing, .this]), none⟩ = some (9, 12) := by
  decide
example : checkFunction (T := Nat) ⟨some "Foo", some (1, 2)⟩ ⟨some (.ref (some "Foo") 9 12), some (.block [.this, .value 1]), none⟩ = none := by decide
example : checkFunction (T := Nat) ⟨some "Foo", some (1, 2)⟩ ⟨some (.ref (some "Foo") 9 12), some (.expression 2), some "x"⟩ = some (9, 12) := by decide
example : checkFunction (T := Nat) ⟨some "Foo", some (1, 2)⟩ ⟨some (.ref (some "Foo") 9 12), some (.expression 2), some "this"⟩ = none := by decide
example : ReturnsThis (T := Nat) (some (1, 2)) (.block [.value 2]) := .block (by simp) (.typed rfl) (by rintro c t h; cases h; simp)

end Tsgolint.ReturnThis
