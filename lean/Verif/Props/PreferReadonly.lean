import Verif.Spec.PreferReadonly
import Verif.Proof.StableFix
/-! # C94: prefer-readonly -/
namespace Tsgolint.PreferReadonly
open Tsgolint.Fixer
variable {C T : Type}

/-! ## Modifications -/

theorem destructuring_iff (rest : List Anc) : ∀ cur, destructuring cur rest = true ↔ Assigned cur.kind rest := by
  induction rest with
  | nil => intro cur; simp only [destructuring, Bool.false_eq_true, false_iff]; intro h; cases h
  | cons p rest ih =>
    intro cur
    obtain ⟨k, i⟩ := p
    rw [destructuring]
    cases k with
    | object => simp only [isPattern, ↓reduceIte, ih]; exact ⟨.object, fun h => by cases h; assumption⟩
    | array => simp only [isPattern, ↓reduceIte, ih]; exact ⟨.array, fun h => by cases h; assumption⟩
    | spreadAssignment => simp only [isPattern, ↓reduceIte, ih]; exact ⟨.spreadAssignment, fun h => by cases h; assumption⟩
    | spreadElement =>
      cases rest with
      | nil => simp only [isPattern, endsLoop]; exact ⟨fun h => by simp at h, fun h => by cases h⟩
      | cons a rest =>
        obtain ⟨ka, ia⟩ := a
        by_cases hk : ka = .array
        · subst hk
          simp only [isPattern, decide_true, ↓reduceIte, ih]
          exact ⟨.spreadElement, fun h => by cases h; assumption⟩
        · simp only [isPattern, endsLoop, decide_eq_true_eq, if_neg hk, Bool.false_eq_true, false_iff]
          intro h; cases h; exact hk rfl
    | binary op =>
      simp only [isPattern, endsLoop, Bool.false_eq_true, ↓reduceIte, Bool.and_eq_true, decide_eq_true_eq]
      constructor
      · rintro ⟨⟨h1, rfl⟩, rfl⟩; exact .left h1
      · intro h; cases h; exact ⟨⟨by assumption, rfl⟩, rfl⟩
    | _ =>
      simp only [isPattern, endsLoop, Bool.false_eq_true, ↓reduceIte, false_iff]
      intro h; cases h

theorem modifies_iff (anc : List Anc) : modifies anc = true ↔ Noticed anc := by
  cases anc with
  | nil => simp only [modifies, Bool.false_eq_true, false_iff]; intro h; cases h
  | cons a rest =>
    obtain ⟨k, i⟩ := a
    have hd : ∀ k, (∀ op, k ≠ .binary op) → (isDestructuring (⟨k, i⟩ :: rest) = true → Noticed (⟨k, i⟩ :: rest)) := by
      intro k hk h; exact .destructuring hk ((destructuring_iff rest ⟨k, i⟩).1 h)
    have hd' : ∀ k, Assigned k rest → isDestructuring (⟨k, i⟩ :: rest) = true := fun k h => (destructuring_iff rest ⟨k, i⟩).2 h
    cases k with
    | binary op =>
      simp only [modifies, Bool.and_eq_true, decide_eq_true_eq]
      constructor
      · rintro ⟨rfl, h⟩; exact .assign h
      · intro h; cases h with
        | assign h => exact ⟨rfl, h⟩
        | destructuring h => exact absurd rfl (h op)
    | delete => simp only [modifies, true_iff]; exact .delete
    | unary b =>
      simp only [modifies, Bool.or_eq_true]
      constructor
      · rintro (h | rfl)
        · exact hd _ (by simp) h
        · exact .update
      · intro h; cases h with
        | update => exact .inr rfl
        | destructuring _ h => exact .inl (hd' _ h)
    | _ =>
      simp only [modifies]
      constructor
      · exact hd _ (by simp)
      · intro h; cases h with
        | destructuring _ h => exact hd' _ h

/-! ## The walk through a class -/

def InstMod (E : Env C T) (c : C) (w : Access T) : Prop :=
  Noticed w.anc ∧ ((E.relation c w.type = .inst ∧ w.place ≠ .direct) ∨ E.relation c w.type = .both)
def CtorMod (E : Env C T) (c : C) (w : Access T) : Prop := Noticed w.anc ∧ E.relation c w.type = .inst ∧ w.place = .direct
def StaticMod (E : Env C T) (c : C) (w : Access T) : Prop := Noticed w.anc ∧ (E.relation c w.type = .cls ∨ E.relation c w.type = .both)

/-- What visiting accesses `P` and classes with reports `extra` does to the class around them. -/
structure Effect (E : Env C T) (P : Access T → Prop) (extra : List Report) (a b : Scope C) : Prop where
  cls : b.cls = a.cls
  depth : b.depth = a.depth
  members : b.members = a.members
  statics : b.statics = a.statics
  deferred : b.deferred = a.deferred ++ extra
  mods : ∀ x, x ∈ b.mods ↔ x ∈ a.mods ∨ ∃ w, P w ∧ w.name = x ∧ InstMod E a.cls w
  ctorMods : ∀ x, x ∈ b.ctorMods ↔ x ∈ a.ctorMods ∨ ∃ w, P w ∧ w.name = x ∧ CtorMod E a.cls w
  staticMods : ∀ x, x ∈ b.staticMods ↔ x ∈ a.staticMods ∨ ∃ w, P w ∧ w.name = x ∧ StaticMod E a.cls w

theorem ex_or {P Q : Access T → Prop} {R : Access T → Prop} : (∃ w, (P w ∨ Q w) ∧ R w) ↔ (∃ w, P w ∧ R w) ∨ ∃ w, Q w ∧ R w := by
  constructor
  · rintro ⟨w, h | h, hr⟩
    · exact .inl ⟨w, h, hr⟩
    · exact .inr ⟨w, h, hr⟩
  · rintro (⟨w, h, hr⟩ | ⟨w, h, hr⟩)
    · exact ⟨w, .inl h, hr⟩
    · exact ⟨w, .inr h, hr⟩

theorem Effect.refl {E : Env C T} {a : Scope C} : Effect E (fun _ => False) [] a a := by
  constructor <;> simp

theorem Effect.trans {E : Env C T} {P Q : Access T → Prop} {e f : List Report} {a b c : Scope C} (h : Effect E P e a b) (g : Effect E Q f b c) :
    Effect E (fun w => P w ∨ Q w) (e ++ f) a c := by
  refine ⟨g.cls.trans h.cls, g.depth.trans h.depth, g.members.trans h.members, g.statics.trans h.statics, ?_, ?_, ?_, ?_⟩
  · rw [g.deferred, h.deferred, List.append_assoc]
  · intro x; rw [g.mods, h.mods, h.cls, ex_or, or_assoc]
  · intro x; rw [g.ctorMods, h.ctorMods, h.cls, ex_or, or_assoc]
  · intro x; rw [g.staticMods, h.staticMods, h.cls, ex_or, or_assoc]

theorem Effect.congr {E : Env C T} {P Q : Access T → Prop} {e f : List Report} {a b : Scope C} (h : Effect E P e a b) (hP : ∀ w, P w ↔ Q w) (he : e = f) :
    Effect E Q f a b := by
  have : P = Q := funext fun w => propext (hP w)
  subst this he; exact h

/-- The place that a depth stands for. -/
def placeOf (d : Int) : Place := if d = -1 then .outside else if d = 0 then .direct else .inner

theorem effect_modify (E : Env C T) (a : Scope C) (hd : -1 ≤ a.depth) (anc : List Anc) (hn : Noticed anc) (name : String) (t : T) :
    Effect E (fun w => w = ⟨name, t, anc, placeOf a.depth⟩) [] a (a.modify E name t) := by
  have hp : placeOf a.depth = .direct ↔ a.depth = 0 := by
    unfold placeOf
    constructor
    · intro h
      by_cases h1 : a.depth = -1
      · simp [h1] at h
      · by_cases h2 : a.depth = 0
        · exact h2
        · simp [h1, h2] at h
    · intro h; simp [h]
  generalize placeOf a.depth = p at hp
  have one : ∀ (R : Access T → Prop) (x : String), (∃ w, w = (⟨name, t, anc, p⟩ : Access T) ∧ w.name = x ∧ R w) ↔ name = x ∧ R ⟨name, t, anc, p⟩ := by
    intro R x
    constructor
    · rintro ⟨_, rfl, h⟩; exact h
    · intro h; exact ⟨_, rfl, h⟩
  unfold Scope.modify
  by_cases h0 : a.depth = 0
  · have hp' : p = .direct := hp.2 h0
    cases hr : E.relation a.cls t <;>
      simp only [hr, h0, and_true, true_and, and_self, reduceCtorEq, false_and, ↓reduceIte, or_true, true_or, or_false, or_self] <;>
      refine ⟨rfl, by simp [h0], rfl, rfl, by simp, ?_, ?_, ?_⟩ <;> intro x <;> rw [one] <;>
      simp [InstMod, CtorMod, StaticMod, hr, hn, hp', eq_comm, or_comm]
  · have hp' : p ≠ .direct := fun h => h0 (hp.1 h)
    cases hr : E.relation a.cls t <;>
      simp only [hr, h0, and_false, and_true, true_and, reduceCtorEq, false_and, ↓reduceIte, or_true, true_or, or_false, or_self] <;>
      refine ⟨rfl, rfl, rfl, rfl, by simp, ?_, ?_, ?_⟩ <;> intro x <;> rw [one] <;>
      simp [InstMod, CtorMod, StaticMod, hr, hn, hp', eq_comm, or_comm]

theorem declare_fields (E : Env C T) (a : Scope C) (d : Decl) :
    (a.declare E d).cls = a.cls ∧ (a.declare E d).depth = a.depth ∧ (a.declare E d).mods = a.mods ∧ (a.declare E d).ctorMods = a.ctorMods ∧
      (a.declare E d).staticMods = a.staticMods ∧ (a.declare E d).deferred = a.deferred := by
  unfold Scope.declare
  by_cases h : (!candidate E.onlyInlineLambdas d) = true
  · rw [if_pos h]; simp
  · rw [if_neg h]
    by_cases hs : d.isStatic = true
    · rw [if_pos hs]; simp
    · rw [if_neg hs]; simp

theorem Effect.declare {E : Env C T} {P : Access T → Prop} {e : List Report} {a b : Scope C} (h : Effect E P e a b) (d : Decl) :
    Effect E P e (a.declare E d) (b.declare E d) := by
  obtain ⟨a1, a2, a3, a4, a5, a6⟩ := declare_fields E a d
  obtain ⟨b1, b2, b3, b4, b5, b6⟩ := declare_fields E b d
  have hm : (b.declare E d).members = (a.declare E d).members ∧ (b.declare E d).statics = (a.declare E d).statics := by
    unfold Scope.declare
    by_cases hc : (!candidate E.onlyInlineLambdas d) = true
    · rw [if_pos hc, if_pos hc]; exact ⟨h.members, h.statics⟩
    · rw [if_neg hc, if_neg hc]
      by_cases hs : d.isStatic = true
      · rw [if_pos hs, if_pos hs]; exact ⟨h.members, by simp [h.statics]⟩
      · rw [if_neg hs, if_neg hs]; exact ⟨by simp [h.members], h.statics⟩
  refine ⟨?_, ?_, hm.1, hm.2, ?_, ?_, ?_, ?_⟩
  · rw [b1, a1, h.cls]
  · rw [b2, a2, h.depth]
  · rw [b6, a6, h.deferred]
  · rw [b3, a3, a1]; exact h.mods
  · rw [b4, a4, a1]; exact h.ctorMods
  · rw [b5, a5, a1]; exact h.staticMods

theorem Effect.declares {E : Env C T} {P : Access T → Prop} {e : List Report} (l : List Decl) : ∀ {a b : Scope C}, Effect E P e a b →
    Effect E P e (l.foldl (Scope.declare E) a) (l.foldl (Scope.declare E) b) := by
  induction l with
  | nil => intro a b h; exact h
  | cons d l ih => intro a b h; exact ih (h.declare d)

theorem declares_fields (E : Env C T) (l : List Decl) : ∀ a : Scope C,
    (l.foldl (Scope.declare E) a).cls = a.cls ∧ (l.foldl (Scope.declare E) a).depth = a.depth ∧ (l.foldl (Scope.declare E) a).mods = a.mods ∧
      (l.foldl (Scope.declare E) a).ctorMods = a.ctorMods ∧ (l.foldl (Scope.declare E) a).staticMods = a.staticMods ∧
      (l.foldl (Scope.declare E) a).deferred = a.deferred := by
  induction l with
  | nil => intro a; simp
  | cons d l ih =>
    intro a
    obtain ⟨h1, h2, h3, h4, h5, h6⟩ := ih (a.declare E d)
    obtain ⟨g1, g2, g3, g4, g5, g6⟩ := declare_fields E a d
    exact ⟨h1.trans g1, h2.trans g2, h3.trans g3, h4.trans g4, h5.trans g5, h6.trans g6⟩

/-- Changing the depth does not matter for declarations. -/
theorem declares_depth (E : Env C T) (l : List Decl) : ∀ (a : Scope C) (n : Int),
    l.foldl (Scope.declare E) { a with depth := n } = { l.foldl (Scope.declare E) a with depth := n } := by
  induction l with
  | nil => intro a n; rfl
  | cons d l ih =>
    intro a n
    simp only [List.foldl_cons]
    rw [← ih]
    congr 1
    unfold Scope.declare
    by_cases hc : (!candidate E.onlyInlineLambdas d) = true
    · simp only [if_pos hc]
    · simp only [if_neg hc]
      by_cases hs : d.isStatic = true
      · simp only [if_pos hs]
      · simp only [if_neg hs]

/-- The depth may be changed on both sides. -/
theorem Effect.withDepth {E : Env C T} {P : Access T → Prop} {e : List Report} {a b : Scope C} (h : Effect E P e a b) (n : Int) :
    Effect E P e { a with depth := n } { b with depth := n } :=
  ⟨h.cls, rfl, h.members, h.statics, h.deferred, h.mods, h.ctorMods, h.staticMods⟩

theorem finish_eq (E : Env C T) (c : C) (ms : List (Member C T)) (sc : Scope C)
    (h : Effect E (fun w => ∃ m ∈ ms, InMember m w) (expectedMembers E ms) ((declared ms).foldl (Scope.declare E) ⟨c, -1, [], [], [], [], [], []⟩) sc) :
    sc.finish = own E c ms ∧ sc.deferred = expectedMembers E ms := by
  obtain ⟨g1, g2, g3, g4, g5, g6⟩ := declares_fields E (declared ms) ⟨c, -1, [], [], [], [], [], []⟩
  have hm : ∀ x, x ∈ sc.mods ↔ Modified E c ms x := by
    intro x
    rw [h.mods, g3, g1]
    simp only [List.not_mem_nil, false_or, Modified, InstMod]
    constructor
    · rintro ⟨w, ⟨m, hm, hw⟩, h1, h2⟩; exact ⟨m, hm, w, hw, h1, h2⟩
    · rintro ⟨m, hm, w, hw, h1, h2⟩; exact ⟨w, ⟨m, hm, hw⟩, h1, h2⟩
  have hc : ∀ x, x ∈ sc.ctorMods ↔ CtorModified E c ms x := by
    intro x
    rw [h.ctorMods, g4, g1]
    simp only [List.not_mem_nil, false_or, CtorModified, CtorMod]
    constructor
    · rintro ⟨w, ⟨m, hm, hw⟩, h1, h2⟩; exact ⟨m, hm, w, hw, h1, h2⟩
    · rintro ⟨m, hm, w, hw, h1, h2⟩; exact ⟨w, ⟨m, hm, hw⟩, h1, h2⟩
  have hs : ∀ x, x ∈ sc.staticMods ↔ StaticModified E c ms x := by
    intro x
    rw [h.staticMods, g5, g1]
    simp only [List.not_mem_nil, false_or, StaticModified, StaticMod]
    constructor
    · rintro ⟨w, ⟨m, hm, hw⟩, h1, h2⟩; exact ⟨m, hm, w, hw, h1, h2⟩
    · rintro ⟨m, hm, w, hw, h1, h2⟩; exact ⟨w, ⟨m, hm, hw⟩, h1, h2⟩
  constructor
  · unfold Scope.finish own DeclMap.valuesWithout
    rw [h.members, h.statics, List.map_append, List.map_map, List.map_map]
    have cong : ∀ (m : DeclMap) (l : List String) (M : String → Prop), (∀ x, x ∈ l ↔ M x) →
        (m.filter fun p => !l.contains p.1).map ((fun d => (⟨d, sc.ctorMods.contains d.name⟩ : Report)) ∘ fun x => x.2) =
          (m.filter fun p => @decide (¬M p.1) (Classical.propDecidable _)).map fun p => ⟨p.2, @decide (CtorModified E c ms p.2.name) (Classical.propDecidable _)⟩ := by
      intro m l M hl
      have : (m.filter fun p => !l.contains p.1) = m.filter fun p => @decide (¬M p.1) (Classical.propDecidable _) := by
        refine List.filter_congr fun p _ => ?_
        rw [Bool.eq_iff_iff]
        simp [← hl]
      rw [this]
      refine List.map_congr_left fun p _ => ?_
      simp only [Function.comp, Report.mk.injEq, true_and]
      rw [Bool.eq_iff_iff]
      simp [← hc]
    rw [cong _ _ _ hm, cong _ _ _ hs]
    congr 1
    · congr 1; refine List.filter_congr fun p _ => ?_; congr
    · congr 1; refine List.filter_congr fun p _ => ?_; congr
  · rw [h.deferred, g6, List.nil_append]

theorem placeOf_enter (d : Int) (hd : -1 ≤ d) (k : Syn) : (placeOf d).enter k = placeOf (if k = .function then (if d ≠ -1 then d + 1 else d) else d) := by
  unfold placeOf
  by_cases hk : k = .function
  · subst hk
    by_cases h1 : d = -1
    · simp [h1, Place.enter]
    · have h2 : d + 1 ≠ -1 := by omega
      have h3 : d + 1 ≠ 0 := by omega
      simp only [h1, ↓reduceIte, h2, h3, ne_eq, not_false_eq_true]
      by_cases h0 : d = 0 <;> simp [h0, Place.enter]
  · simp only [hk, ↓reduceIte]
    by_cases h1 : d = -1
    · simp [h1, Place.enter]
    · by_cases h0 : d = 0 <;> simp [h0, h1, Place.enter, hk]

theorem placeOf_enter_function (d : Int) (hd : -1 ≤ d) : (placeOf d).enter .function = placeOf (if d ≠ -1 then d + 1 else d) := by
  rw [placeOf_enter d hd, if_pos rfl]

mutual
theorem visit_effect (E : Env C T) : ∀ (n : Node C T) (anc : List Anc) (sc : Scope C) (rest : List (Scope C)) (out : List Report), -1 ≤ sc.depth →
    ∃ sc', visit E anc n ⟨sc :: rest, out⟩ = ⟨sc' :: rest, out⟩ ∧ Effect E (InNode anc (placeOf sc.depth) n) (expected E n) sc sc'
  | .access name t o, anc, sc, rest, out, hd => by
    rw [visit]
    by_cases hm : modifies anc = true
    · rw [if_pos hm]
      have h1 := effect_modify E sc hd anc ((modifies_iff anc).1 hm) name t
      obtain ⟨sc', hv, h2⟩ := visit_effect E o (⟨.access, 0⟩ :: anc) (sc.modify E name t) rest out (by rw [h1.depth]; exact hd)
      refine ⟨sc', hv, ?_⟩
      rw [h1.depth] at h2
      refine (h1.trans h2).congr (fun w => ?_) (by rw [expected]; rfl)
      constructor
      · rintro (rfl | h)
        · exact .here
        · exact .object h
      · intro h; cases h with
        | here => exact .inl rfl
        | object h => exact .inr h
    · rw [if_neg hm]
      obtain ⟨sc', hv, h2⟩ := visit_effect E o (⟨.access, 0⟩ :: anc) sc rest out hd
      refine ⟨sc', hv, ?_⟩
      have hn : ¬Noticed anc := fun h => hm ((modifies_iff anc).2 h)
      refine ⟨h2.cls, h2.depth, h2.members, h2.statics, by rw [expected]; exact h2.deferred, ?_, ?_, ?_⟩
      · intro x; rw [h2.mods]
        refine or_congr_right ⟨fun ⟨w, h, hw⟩ => ⟨w, .object h, hw⟩, fun ⟨w, h, hw⟩ => ?_⟩
        cases h with
        | here => exact absurd hw.2.1 hn
        | object h => exact ⟨w, h, hw⟩
      · intro x; rw [h2.ctorMods]
        refine or_congr_right ⟨fun ⟨w, h, hw⟩ => ⟨w, .object h, hw⟩, fun ⟨w, h, hw⟩ => ?_⟩
        cases h with
        | here => exact absurd hw.2.1 hn
        | object h => exact ⟨w, h, hw⟩
      · intro x; rw [h2.staticMods]
        refine or_congr_right ⟨fun ⟨w, h, hw⟩ => ⟨w, .object h, hw⟩, fun ⟨w, h, hw⟩ => ?_⟩
        cases h with
        | here => exact absurd hw.2.1 hn
        | object h => exact ⟨w, h, hw⟩
  | .cls c ms, anc, sc, rest, out, hd => by
    rw [visit]
    obtain ⟨sc', hv, h⟩ := visitMembers_effect E ms (newScope E c ms) (sc :: rest) out (declares_fields E (properties ms) _).2.1
    simp only [hv, St.pop]
    have := finish_eq E c ms sc' (by rw [declared, List.foldl_append]; exact h)
    rw [this.1, this.2]
    refine ⟨_, rfl, ?_⟩
    refine ⟨rfl, rfl, rfl, rfl, by rw [expected], ?_, ?_, ?_⟩
    all_goals
      intro x
      constructor
      · exact .inl
      · rintro (h | ⟨w, h, _⟩)
        · exact h
        · cases h
  | .syn k cs, anc, sc, rest, out, hd => by
    rw [visit]
    by_cases hk : k = .function
    · subst hk
      simp only [enterSyn, exitSyn, ↓reduceIte, St.top]
      have hd' : -1 ≤ sc.enterFn.depth := by unfold Scope.enterFn; split <;> (try simp only) <;> omega
      obtain ⟨sc', hv, h⟩ := visitAll_effect E cs anc .function 0 sc.enterFn rest out hd'
      rw [hv]
      refine ⟨_, rfl, ?_⟩
      have hent : sc.enterFn = { sc with depth := if sc.depth ≠ -1 then sc.depth + 1 else sc.depth } := by
        unfold Scope.enterFn; split <;> rfl
      have hback : sc'.exitFn = { sc' with depth := sc.depth } := by
        have : sc'.depth = if sc.depth ≠ -1 then sc.depth + 1 else sc.depth := by rw [h.depth, hent]
        unfold Scope.exitFn
        by_cases h1 : sc.depth = -1
        · simp only [h1, ne_eq, not_true_eq_false, ↓reduceIte] at this
          rw [if_neg (by rw [this]; simp)]
          cases sc'; simp_all
        · rw [if_pos h1] at this
          rw [if_pos (by omega)]
          simp [this]
      rw [hback]
      have h' := h.withDepth sc.depth
      rw [hent] at h'
      have e1 : ({ { sc with depth := if sc.depth ≠ -1 then sc.depth + 1 else sc.depth } with depth := sc.depth } : Scope C) = sc := rfl
      rw [e1] at h'
      refine h'.congr (fun w => ?_) (by rw [expected])
      rw [← placeOf_enter_function sc.depth hd]
      constructor
      · rintro ⟨j, n, hj, hw⟩; rw [Nat.zero_add] at hw; exact .child j n hj hw
      · intro hw; cases hw with
        | child j n hj hw => exact ⟨j, n, hj, by rw [Nat.zero_add]; exact hw⟩
    · simp only [enterSyn, exitSyn, hk, ↓reduceIte]
      obtain ⟨sc', hv, h⟩ := visitAll_effect E cs anc k 0 sc rest out hd
      refine ⟨sc', hv, h.congr (fun w => ?_) (by rw [expected])⟩
      have hp : (placeOf sc.depth).enter k = placeOf sc.depth := by rw [placeOf_enter _ hd, if_neg hk]
      constructor
      · rintro ⟨j, n, hj, hw⟩; rw [Nat.zero_add] at hw; exact .child j n hj (by rw [hp]; exact hw)
      · intro hw; cases hw with
        | child j n hj hw => exact ⟨j, n, hj, by rw [Nat.zero_add, ← hp]; exact hw⟩
theorem visitAll_effect (E : Env C T) : ∀ (cs : List (Node C T)) (anc : List Anc) (k : Syn) (i : Nat) (sc : Scope C) (rest : List (Scope C)) (out : List Report),
    -1 ≤ sc.depth → ∃ sc', visitAll E anc k i cs ⟨sc :: rest, out⟩ = ⟨sc' :: rest, out⟩ ∧
      Effect E (fun w => ∃ j n, cs[j]? = some n ∧ InNode (⟨k, i + j⟩ :: anc) (placeOf sc.depth) n w) (expectedAll E cs) sc sc'
  | [], anc, k, i, sc, rest, out, hd => by
    rw [visitAll]
    exact ⟨sc, rfl, Effect.refl.congr (fun w => by simp) (by rw [expectedAll])⟩
  | n :: ns, anc, k, i, sc, rest, out, hd => by
    rw [visitAll]
    obtain ⟨sc1, hv1, h1⟩ := visit_effect E n (⟨k, i⟩ :: anc) sc rest out hd
    rw [hv1]
    obtain ⟨sc2, hv2, h2⟩ := visitAll_effect E ns anc k (i + 1) sc1 rest out (by rw [h1.depth]; exact hd)
    refine ⟨sc2, hv2, ?_⟩
    rw [h1.depth] at h2
    refine (h1.trans h2).congr (fun w => ?_) (by rw [expectedAll])
    constructor
    · rintro (h | ⟨j, m, hj, hw⟩)
      · exact ⟨0, n, rfl, h⟩
      · exact ⟨j + 1, m, hj, by rw [show i + (j + 1) = i + 1 + j by omega]; exact hw⟩
    · rintro ⟨j, m, hj, hw⟩
      cases j with
      | zero => simp only [List.getElem?_cons_zero, Option.some.injEq] at hj; subst hj; exact .inl hw
      | succ j => exact .inr ⟨j, m, hj, by rw [show i + 1 + j = i + (j + 1) by omega]; exact hw⟩
theorem visitMembers_effect (E : Env C T) : ∀ (ms : List (Member C T)) (sc : Scope C) (rest : List (Scope C)) (out : List Report), sc.depth = -1 →
    ∃ sc', visitMembers E ms ⟨sc :: rest, out⟩ = ⟨sc' :: rest, out⟩ ∧
      Effect E (fun w => ∃ m ∈ ms, InMember m w) (expectedMembers E ms) ((parameterProperties ms).foldl (Scope.declare E) sc) sc'
  | [], sc, rest, out, hd => by
    rw [visitMembers]
    exact ⟨sc, rfl, Effect.refl.congr (fun w => by simp) (by rw [expectedMembers])⟩
  | .property d cs :: ms, sc, rest, out, hd => by
    rw [visitMembers]
    obtain ⟨sc1, hv1, h1⟩ := visitAll_effect E cs [] .other 0 sc rest out (by omega)
    rw [hv1]
    obtain ⟨sc2, hv2, h2⟩ := visitMembers_effect E ms sc1 rest out (by rw [h1.depth]; exact hd)
    refine ⟨sc2, hv2, ?_⟩
    have hpp : parameterProperties (.property d cs :: ms) = parameterProperties ms := by simp [parameterProperties]
    rw [hpp]
    refine ((h1.declares (parameterProperties ms)).trans h2).congr (fun w => ?_) (by rw [expectedMembers])
    rw [hd]
    constructor
    · rintro (⟨j, n, hj, hw⟩ | ⟨m, hm, hw⟩)
      · rw [Nat.zero_add] at hw; exact ⟨_, List.mem_cons_self .., .property j n hj hw⟩
      · exact ⟨m, List.mem_cons_of_mem _ hm, hw⟩
    · rintro ⟨m, hm, hw⟩
      rcases List.mem_cons.1 hm with rfl | hm
      · cases hw with
        | property j n hj hw => exact .inl ⟨j, n, hj, by rw [Nat.zero_add]; exact hw⟩
      · exact .inr ⟨m, hm, hw⟩
  | .ctor ps cs :: ms, sc, rest, out, hd => by
    rw [visitMembers]
    simp only [St.top]
    have he : sc.enterCtor E ps = { (ps.filter (·.isPrivate)).foldl (Scope.declare E) sc with depth := 0 } := by
      rw [Scope.enterCtor, declares_depth]
    obtain ⟨sc1, hv1, h1⟩ := visitAll_effect E cs [] .other 0 (sc.enterCtor E ps) rest out (by rw [he]; simp)
    rw [hv1]
    simp only
    obtain ⟨sc2, hv2, h2⟩ := visitMembers_effect E ms sc1.exitCtor rest out rfl
    refine ⟨sc2, hv2, ?_⟩
    rw [parameterProperties, List.foldl_append]
    have h1' := h1.withDepth (-1)
    have e1 : ({ sc.enterCtor E ps with depth := -1 } : Scope C) = (ps.filter (·.isPrivate)).foldl (Scope.declare E) sc := by
      rw [he]
      have := (declares_fields E (ps.filter (·.isPrivate)) sc).2.1
      rw [hd] at this
      generalize (ps.filter (·.isPrivate)).foldl (Scope.declare E) sc = s at this
      cases s; simp_all
    rw [e1] at h1'
    refine ((h1'.declares (parameterProperties ms)).trans h2).congr (fun w => ?_) (by rw [expectedMembers])
    have hp : placeOf (sc.enterCtor E ps).depth = .direct := by rw [he]; rfl
    rw [hp]
    constructor
    · rintro (⟨j, n, hj, hw⟩ | ⟨m, hm, hw⟩)
      · rw [Nat.zero_add] at hw; exact ⟨_, List.mem_cons_self .., .ctor j n hj hw⟩
      · exact ⟨m, List.mem_cons_of_mem _ hm, hw⟩
    · rintro ⟨m, hm, hw⟩
      rcases List.mem_cons.1 hm with rfl | hm
      · cases hw with
        | ctor j n hj hw => exact .inl ⟨j, n, hj, by rw [Nat.zero_add]; exact hw⟩
      · exact .inr ⟨m, hm, hw⟩
  | .part n :: ms, sc, rest, out, hd => by
    rw [visitMembers]
    obtain ⟨sc1, hv1, h1⟩ := visit_effect E n [⟨.other, 0⟩] sc rest out (by omega)
    rw [hv1]
    obtain ⟨sc2, hv2, h2⟩ := visitMembers_effect E ms sc1 rest out (by rw [h1.depth]; exact hd)
    refine ⟨sc2, hv2, ?_⟩
    rw [parameterProperties]
    · refine ((h1.declares (parameterProperties ms)).trans h2).congr (fun w => ?_) (by rw [expectedMembers])
      rw [hd]
      constructor
      · rintro (hw | ⟨m, hm, hw⟩)
        · exact ⟨_, List.mem_cons_self .., .part hw⟩
        · exact ⟨m, List.mem_cons_of_mem _ hm, hw⟩
      · rintro ⟨m, hm, hw⟩
        rcases List.mem_cons.1 hm with rfl | hm
        · cases hw with
          | part hw => exact .inl hw
        · exact .inr ⟨m, hm, hw⟩
    · simp
end

mutual
theorem visit_top (E : Env C T) : ∀ (n : Node C T) (anc : List Anc) (out : List Report), visit E anc n ⟨[], out⟩ = ⟨[], out ++ expected E n⟩
  | .access name t o, anc, out => by
    rw [visit, expected]
    simp only [St.top, ite_self]
    exact visit_top E o _ out
  | .cls c ms, anc, out => by
    rw [visit, expected]
    obtain ⟨sc', hv, h⟩ := visitMembers_effect E ms (newScope E c ms) [] out (declares_fields E (properties ms) _).2.1
    simp only [hv, St.pop]
    have := finish_eq E c ms sc' (by rw [declared, List.foldl_append]; exact h)
    rw [this.1, this.2]
  | .syn k cs, anc, out => by
    rw [visit, expected]
    have : enterSyn k (⟨[], out⟩ : St C) = ⟨[], out⟩ := by simp [enterSyn, St.top]
    rw [this, visitAll_top E cs anc k 0 out]
    simp [exitSyn, St.top]
theorem visitAll_top (E : Env C T) : ∀ (cs : List (Node C T)) (anc : List Anc) (k : Syn) (i : Nat) (out : List Report),
    visitAll E anc k i cs ⟨[], out⟩ = ⟨[], out ++ expectedAll E cs⟩
  | [], anc, k, i, out => by rw [visitAll, expectedAll, List.append_nil]
  | n :: ns, anc, k, i, out => by
    rw [visitAll, expectedAll, visit_top E n, visitAll_top E ns, List.append_assoc]
end

/-- C94 (reports, in order).  For every file the reports are those of the outermost classes in source order; those of a class come before
those of the classes in it, instance members before static ones, each in the order of their declarations. -/
theorem C94_list (E : Env C T) (n : Node C T) : run E n = expected E n := by
  rw [run, visit_top]; rfl

/-! ## Declarations -/

theorem candidate_iff (b : Bool) (d : Decl) : candidate b d = true ↔ Candidate b d := by
  unfold candidate Candidate
  cases d.isPrivate <;> cases d.hash <;> cases d.readonlyOrAccessor <;> cases d.computed <;> cases b <;> simp <;>
    (try (by_cases hn : d.name = "" <;> by_cases hi : d.init = .arrow <;> simp [hn, hi]))

def Keys (m : DeclMap) : Prop := (m.map (·.1)).Nodup

theorem mem_set (name : String) (d : Decl) : ∀ m : DeclMap, Keys m → ∀ p, p ∈ m.set name d ↔ p = (name, d) ∨ (p.1 ≠ name ∧ p ∈ m) := by
  intro m
  induction m with
  | nil => intro _ p; simp [DeclMap.set]
  | cons q m ih =>
    obtain ⟨n, e⟩ := q
    intro hk p
    have hk' : Keys m := by unfold Keys at hk ⊢; simp only [List.map_cons, List.nodup_cons] at hk; exact hk.2
    have hnot : n ∉ m.map (·.1) := by unfold Keys at hk; simp only [List.map_cons, List.nodup_cons] at hk; exact hk.1
    rw [DeclMap.set]
    by_cases hn : n = name
    · subst hn
      rw [if_pos rfl]
      simp only [List.mem_cons]
      constructor
      · rintro (h | h)
        · exact .inl h
        · exact .inr ⟨fun he => hnot (he ▸ List.mem_map_of_mem h), .inr h⟩
      · rintro (h | ⟨h, h' | h'⟩)
        · exact .inl h
        · exact absurd (by rw [h']) h
        · exact .inr h'
    · rw [if_neg hn]
      simp only [List.mem_cons, ih hk']
      constructor
      · rintro (rfl | h | h)
        · exact .inr ⟨hn, .inl rfl⟩
        · exact .inl h
        · exact .inr ⟨h.1, .inr h.2⟩
      · rintro (h | ⟨h, h' | h'⟩)
        · exact .inr (.inl h)
        · exact .inl h'
        · exact .inr (.inr ⟨h, h'⟩)

theorem keys_set (name : String) (d : Decl) (m : DeclMap) (hk : Keys m) : Keys (m.set name d) := by
  have hkeys : ∀ m : DeclMap, ∀ x, x ∈ (m.set name d).map (·.1) → x = name ∨ x ∈ m.map (·.1) := by
    intro m
    induction m with
    | nil => intro x h; simp [DeclMap.set] at h; exact .inl h
    | cons q m ih =>
      obtain ⟨n, e⟩ := q
      intro x h
      rw [DeclMap.set] at h
      by_cases hn : n = name
      · rw [if_pos hn] at h; exact .inr h
      · rw [if_neg hn] at h
        simp only [List.map_cons, List.mem_cons] at h ⊢
        rcases h with h | h
        · exact .inr (.inl h)
        · rcases ih x h with h | h
          · exact .inl h
          · exact .inr (.inr h)
  induction m with
  | nil => simp [DeclMap.set, Keys]
  | cons q m ih =>
    obtain ⟨n, e⟩ := q
    unfold Keys at hk ⊢
    simp only [List.map_cons, List.nodup_cons] at hk
    rw [DeclMap.set]
    by_cases hn : n = name
    · rw [if_pos hn]; simpa using hk
    · rw [if_neg hn]
      simp only [List.map_cons, List.nodup_cons]
      refine ⟨fun h => ?_, ih hk.2⟩
      rcases hkeys m n h with h | h
      · exact hn h
      · exact hk.1 h

/-- What a fold of declarations makes of the two maps. -/
def Latest (E : Env C T) (l : List Decl) (static : Bool) (p : String × Decl) : Prop :=
  ∃ before after, l = before ++ p.2 :: after ∧ p.1 = p.2.name ∧ p.2.isStatic = static ∧ Candidate E.onlyInlineLambdas p.2 ∧
    ∀ e ∈ after, Candidate E.onlyInlineLambdas e → e.isStatic = static → e.name ≠ p.1

theorem latest_snoc (E : Env C T) (l : List Decl) (d : Decl) (static : Bool) (p : String × Decl) :
    Latest E (l ++ [d]) static p ↔
      (p = (d.name, d) ∧ d.isStatic = static ∧ Candidate E.onlyInlineLambdas d) ∨
      (Latest E l static p ∧ ¬(Candidate E.onlyInlineLambdas d ∧ d.isStatic = static ∧ d.name = p.1)) := by
  constructor
  · rintro ⟨before, after, hl, hn, hs, hc, ha⟩
    rcases List.eq_nil_or_concat after with rfl | ⟨after, x, rfl⟩
    · have := List.append_inj' (t₁ := [d]) (t₂ := [p.2]) hl rfl
      have h2 : d = p.2 := by simpa using this.2
      subst h2
      exact .inl ⟨Prod.ext hn rfl, hs, hc⟩
    · have : l ++ [d] = (before ++ p.2 :: after) ++ [x] := by rw [hl]; simp
      have := List.append_inj' (t₁ := [d]) (t₂ := [x]) this rfl
      have h2 : d = x := by simpa using this.2
      subst h2
      refine .inr ⟨⟨before, after, this.1, hn, hs, hc, fun e he => ha e (by simp [he])⟩, ?_⟩
      rintro ⟨h1, h2, h3⟩
      exact ha d (by simp) h1 h2 h3
  · rintro (⟨rfl, hs, hc⟩ | ⟨⟨before, after, hl, hn, hs, hc, ha⟩, hd⟩)
    · exact ⟨l, [], rfl, rfl, hs, hc, by simp⟩
    · refine ⟨before, after ++ [d], by rw [hl]; simp, hn, hs, hc, ?_⟩
      intro e he h1 h2 h3
      rcases List.mem_append.1 he with he | he
      · exact ha e he h1 h2 h3
      · simp only [List.mem_singleton] at he; subst he; exact hd ⟨h1, h2, h3⟩

theorem maps_spec (E : Env C T) (c : C) (l : List Decl) :
    Keys (l.foldl (Scope.declare E) ⟨c, -1, [], [], [], [], [], []⟩).members ∧ Keys (l.foldl (Scope.declare E) ⟨c, -1, [], [], [], [], [], []⟩).statics ∧
    (∀ p, p ∈ (l.foldl (Scope.declare E) ⟨c, -1, [], [], [], [], [], []⟩).members ↔ Latest E l false p) ∧
    (∀ p, p ∈ (l.foldl (Scope.declare E) ⟨c, -1, [], [], [], [], [], []⟩).statics ↔ Latest E l true p) := by
  have key : ∀ r : List Decl, Keys (r.reverse.foldl (Scope.declare E) ⟨c, -1, [], [], [], [], [], []⟩).members ∧
      Keys (r.reverse.foldl (Scope.declare E) ⟨c, -1, [], [], [], [], [], []⟩).statics ∧
      (∀ p, p ∈ (r.reverse.foldl (Scope.declare E) ⟨c, -1, [], [], [], [], [], []⟩).members ↔ Latest E r.reverse false p) ∧
      (∀ p, p ∈ (r.reverse.foldl (Scope.declare E) ⟨c, -1, [], [], [], [], [], []⟩).statics ↔ Latest E r.reverse true p) := by
    intro r
    induction r with
    | nil => refine ⟨by simp [Keys], by simp [Keys], ?_, ?_⟩ <;> intro p <;> simp [Latest]
    | cons d r ih =>
      rw [List.reverse_cons, List.foldl_append, List.foldl_cons, List.foldl_nil]
      generalize r.reverse.foldl (Scope.declare E) ⟨c, -1, [], [], [], [], [], []⟩ = s at ih
      obtain ⟨k1, k2, h1, h2⟩ := ih
      unfold Scope.declare
      by_cases hc : candidate E.onlyInlineLambdas d = true
      · rw [if_neg (by simp [hc])]
        have hC := (candidate_iff _ _).1 hc
        by_cases hs : d.isStatic = true
        · rw [if_pos hs]
          refine ⟨k1, keys_set _ _ _ k2, ?_, ?_⟩
          · intro p; rw [latest_snoc, h1]; simp [hs]
          · intro p; simp only [mem_set _ _ _ k2]; rw [latest_snoc, h2]; simp only [hs, hC, and_true, true_and]
            refine or_congr_right ⟨fun ⟨a, b⟩ => ⟨b, fun h => a h.symm⟩, fun ⟨a, b⟩ => ⟨fun h => b h.symm, a⟩⟩
        · rw [if_neg hs]
          have hs' : d.isStatic = false := by simpa using hs
          refine ⟨keys_set _ _ _ k1, k2, ?_, ?_⟩
          · intro p; simp only [mem_set _ _ _ k1]; rw [latest_snoc, h1]; simp only [hs', hC, and_true, true_and]
            refine or_congr_right ⟨fun ⟨a, b⟩ => ⟨b, fun h => a h.symm⟩, fun ⟨a, b⟩ => ⟨fun h => b h.symm, a⟩⟩
          · intro p; rw [latest_snoc, h2]; simp [hs']
      · rw [if_pos (by simp [hc])]
        have hC : ¬Candidate E.onlyInlineLambdas d := fun h => hc ((candidate_iff _ _).2 h)
        refine ⟨k1, k2, ?_, ?_⟩
        · intro p; rw [latest_snoc, h1]; simp [hC]
        · intro p; rw [latest_snoc, h2]; simp [hC]
  have := key l.reverse
  rwa [List.reverse_reverse] at this

theorem mem_own (E : Env C T) (c : C) (ms : List (Member C T)) (r : Report) :
    r ∈ own E c ms ↔ Reported E c ms r.decl ∧ (r.inConstructor = true ↔ CtorModified E c ms r.decl.name) := by
  obtain ⟨_, _, h1, h2⟩ := maps_spec E c (declared ms)
  unfold own
  simp only [List.mem_append, List.mem_map, List.mem_filter, h1, h2, decide_eq_true_eq]
  have hb : ∀ (P : Prop) (b : Bool), (b = @decide P (Classical.propDecidable _)) ↔ (b = true ↔ P) := by
    intro P b
    rw [Bool.eq_iff_iff]
    simp
  constructor
  · rintro (⟨p, ⟨⟨before, after, hl, hn, hs, hc, ha⟩, hm⟩, rfl⟩ | ⟨p, ⟨⟨before, after, hl, hn, hs, hc, ha⟩, hm⟩, rfl⟩)
    · refine ⟨⟨before, after, hl, hc, fun e he h1 h2 => ?_, fun _ => hn ▸ hm, fun h => ?_⟩, by simp⟩
      · rw [← hn]; exact ha e he h1 (h2.trans hs)
      · rw [hs] at h; cases h
    · refine ⟨⟨before, after, hl, hc, fun e he h1 h2 => ?_, fun h => ?_, fun _ => hn ▸ hm⟩, by simp⟩
      · rw [← hn]; exact ha e he h1 (h2.trans hs)
      · rw [hs] at h; cases h
  · rintro ⟨⟨before, after, hl, hc, ha, hm, hst⟩, hr⟩
    obtain ⟨d, b⟩ := r
    have hb' := (hb _ _).2 hr
    simp only at hl hc ha hm hst hb'
    cases hs : d.isStatic with
    | false => exact .inl ⟨(d.name, d), ⟨⟨before, after, hl, rfl, hs, hc, fun e he h1 h2 => ha e he h1 (h2.trans hs.symm)⟩, hm hs⟩, by rw [hb']⟩
    | true => exact .inr ⟨(d.name, d), ⟨⟨before, after, hl, rfl, hs, hc, fun e he h1 h2 => ha e he h1 (h2.trans hs.symm)⟩, hst hs⟩, by rw [hb']⟩

mutual
theorem mem_expected (E : Env C T) (r : Report) : ∀ n : Node C T, r ∈ expected E n ↔ ∃ c ms, ClassIn n c ms ∧ r ∈ own E c ms
  | .access _ _ o => by
    rw [expected, mem_expected E r o]
    exact ⟨fun ⟨c, ms, h, hr⟩ => ⟨c, ms, .access h, hr⟩, fun ⟨c, ms, h, hr⟩ => by cases h with | access h => exact ⟨c, ms, h, hr⟩⟩
  | .cls c ms => by
    rw [expected, List.mem_append, mem_expectedMembers E r ms]
    constructor
    · rintro (h | ⟨n, c', ms', hn, h, hr⟩)
      · exact ⟨c, ms, .here, h⟩
      · rcases hn with ⟨d, cs, hm, hn⟩ | ⟨d, cs, hm, hn⟩ | hm
        · exact ⟨c', ms', .property hm hn h, hr⟩
        · exact ⟨c', ms', .ctor hm hn h, hr⟩
        · exact ⟨c', ms', .part hm h, hr⟩
    · rintro ⟨c', ms', h, hr⟩
      cases h with
      | here => exact .inl hr
      | property hm hn h => exact .inr ⟨_, c', ms', .inl ⟨_, _, hm, hn⟩, h, hr⟩
      | ctor hm hn h => exact .inr ⟨_, c', ms', .inr (.inl ⟨_, _, hm, hn⟩), h, hr⟩
      | part hm h => exact .inr ⟨_, c', ms', .inr (.inr hm), h, hr⟩
  | .syn k cs => by
    rw [expected, mem_expectedAll E r cs]
    constructor
    · rintro ⟨n, hn, c, ms, h, hr⟩; exact ⟨c, ms, .child hn h, hr⟩
    · rintro ⟨c, ms, h, hr⟩
      cases h with
      | child hn h => exact ⟨_, hn, c, ms, h, hr⟩
theorem mem_expectedAll (E : Env C T) (r : Report) : ∀ cs : List (Node C T), r ∈ expectedAll E cs ↔ ∃ n ∈ cs, ∃ c ms, ClassIn n c ms ∧ r ∈ own E c ms
  | [] => by simp [expectedAll]
  | n :: ns => by
    rw [expectedAll, List.mem_append, mem_expected E r n, mem_expectedAll E r ns]
    constructor
    · rintro (h | ⟨m, hm, h⟩)
      · exact ⟨n, List.mem_cons_self .., h⟩
      · exact ⟨m, List.mem_cons_of_mem _ hm, h⟩
    · rintro ⟨m, hm, h⟩
      rcases List.mem_cons.1 hm with rfl | hm
      · exact .inl h
      · exact .inr ⟨m, hm, h⟩
theorem mem_expectedMembers (E : Env C T) (r : Report) : ∀ ms : List (Member C T), r ∈ expectedMembers E ms ↔
    ∃ n c' ms', ((∃ d cs, .property d cs ∈ ms ∧ n ∈ cs) ∨ (∃ ps cs, .ctor ps cs ∈ ms ∧ n ∈ cs) ∨ .part n ∈ ms) ∧ ClassIn n c' ms' ∧ r ∈ own E c' ms'
  | [] => by simp [expectedMembers]
  | .property d cs :: ms => by
    rw [expectedMembers, List.mem_append, mem_expectedAll E r cs, mem_expectedMembers E r ms]
    constructor
    · rintro (⟨n, hn, c, m, h, hr⟩ | ⟨n, c, m, hn, h, hr⟩)
      · exact ⟨n, c, m, .inl ⟨d, cs, by simp, hn⟩, h, hr⟩
      · refine ⟨n, c, m, ?_, h, hr⟩
        rcases hn with ⟨d, cs, hm, hn⟩ | ⟨d, cs, hm, hn⟩ | hm
        · exact .inl ⟨d, cs, by simp [hm], hn⟩
        · exact .inr (.inl ⟨d, cs, by simp [hm], hn⟩)
        · exact .inr (.inr (by simp [hm]))
    · rintro ⟨n, c, m, hn, h, hr⟩
      rcases hn with ⟨d', cs', hm, hn⟩ | ⟨d', cs', hm, hn⟩ | hm
      · rcases List.mem_cons.1 hm with he | hm
        · cases he; exact .inl ⟨n, hn, c, m, h, hr⟩
        · exact .inr ⟨n, c, m, .inl ⟨d', cs', hm, hn⟩, h, hr⟩
      · rcases List.mem_cons.1 hm with he | hm
        · cases he
        · exact .inr ⟨n, c, m, .inr (.inl ⟨d', cs', hm, hn⟩), h, hr⟩
      · rcases List.mem_cons.1 hm with he | hm
        · cases he
        · exact .inr ⟨n, c, m, .inr (.inr hm), h, hr⟩
  | .ctor d cs :: ms => by
    rw [expectedMembers, List.mem_append, mem_expectedAll E r cs, mem_expectedMembers E r ms]
    constructor
    · rintro (⟨n, hn, c, m, h, hr⟩ | ⟨n, c, m, hn, h, hr⟩)
      · exact ⟨n, c, m, .inr (.inl ⟨d, cs, by simp, hn⟩), h, hr⟩
      · refine ⟨n, c, m, ?_, h, hr⟩
        rcases hn with ⟨d, cs, hm, hn⟩ | ⟨d, cs, hm, hn⟩ | hm
        · exact .inl ⟨d, cs, by simp [hm], hn⟩
        · exact .inr (.inl ⟨d, cs, by simp [hm], hn⟩)
        · exact .inr (.inr (by simp [hm]))
    · rintro ⟨n, c, m, hn, h, hr⟩
      rcases hn with ⟨d', cs', hm, hn⟩ | ⟨d', cs', hm, hn⟩ | hm
      · rcases List.mem_cons.1 hm with he | hm
        · cases he
        · exact .inr ⟨n, c, m, .inl ⟨d', cs', hm, hn⟩, h, hr⟩
      · rcases List.mem_cons.1 hm with he | hm
        · cases he; exact .inl ⟨n, hn, c, m, h, hr⟩
        · exact .inr ⟨n, c, m, .inr (.inl ⟨d', cs', hm, hn⟩), h, hr⟩
      · rcases List.mem_cons.1 hm with he | hm
        · cases he
        · exact .inr ⟨n, c, m, .inr (.inr hm), h, hr⟩
  | .part k :: ms => by
    rw [expectedMembers, List.mem_append, mem_expected E r k, mem_expectedMembers E r ms]
    constructor
    · rintro (⟨c, m, h, hr⟩ | ⟨n, c, m, hn, h, hr⟩)
      · exact ⟨k, c, m, .inr (.inr (by simp)), h, hr⟩
      · refine ⟨n, c, m, ?_, h, hr⟩
        rcases hn with ⟨d, cs, hm, hn⟩ | ⟨d, cs, hm, hn⟩ | hm
        · exact .inl ⟨d, cs, by simp [hm], hn⟩
        · exact .inr (.inl ⟨d, cs, by simp [hm], hn⟩)
        · exact .inr (.inr (by simp [hm]))
    · rintro ⟨n, c, m, hn, h, hr⟩
      rcases hn with ⟨d', cs', hm, hn⟩ | ⟨d', cs', hm, hn⟩ | hm
      · rcases List.mem_cons.1 hm with he | hm
        · cases he
        · exact .inr ⟨n, c, m, .inl ⟨d', cs', hm, hn⟩, h, hr⟩
      · rcases List.mem_cons.1 hm with he | hm
        · cases he
        · exact .inr ⟨n, c, m, .inr (.inl ⟨d', cs', hm, hn⟩), h, hr⟩
      · rcases List.mem_cons.1 hm with he | hm
        · cases he; exact .inl ⟨c, m, h, hr⟩
        · exact .inr ⟨n, c, m, .inr (.inr hm), h, hr⟩
end

/-- C94 (reports).  In every file exactly the private properties are reported that are not readonly, no accessors and have a plain name, of whichever class
(also one inside another), and that the code of this class - not that of the classes in it - never writes, except, for instance members, directly in the
constructor. -/
theorem C94_reports (E : Env C T) (n : Node C T) (r : Report) :
    r ∈ run E n ↔ ∃ c ms, ClassIn n c ms ∧ Reported E c ms r.decl ∧ (r.inConstructor = true ↔ CtorModified E c ms r.decl.name) := by
  rw [C94_list, mem_expected]
  simp only [mem_own]

/-! ## Writes that are noticed, and others -/

mutual
theorem plainTarget_target : ∀ {anc : List Anc}, PlainTarget anc → Target anc
  | _, .assign h => .assign h
  | _, .update => .update
  | _, .delete => .delete
  | _, .element h => .element (plainPattern_pattern h)
  | _, .restElement h => .restElement (plainPattern_pattern h)
  | _, .value h => .value (plainPattern_pattern h)
  | _, .restProperty h => .restProperty (plainPattern_pattern h)
theorem plainPattern_pattern : ∀ {anc : List Anc}, PlainPattern anc → Pattern anc
  | _, .assign => .assign
  | _, .element h => .element (plainPattern_pattern h)
  | _, .restElement h => .restElement (plainPattern_pattern h)
end

theorem plainPattern_assigned : ∀ {anc : List Anc}, PlainPattern anc → ∀ k, k ≠ .access → Assigned k anc
  | _, .assign, _, hk => .left hk
  | _, .element h, _, _ => .array (plainPattern_assigned h _ (by simp))
  | _, .restElement h, _, _ => .spreadElement (.array (plainPattern_assigned h _ (by simp)))

/-- C94 (what is noticed).  Every write in one of these forms is noticed: an assignment operator, `++`, `--`, `delete`, an element or rest of an array pattern, however deeply
nested in array patterns, a property or rest of an object pattern that is not itself the value of a property. -/
theorem C94_noticed {anc : List Anc} (h : PlainTarget anc) : Target anc ∧ modifies anc = true := by
  refine ⟨plainTarget_target h, (modifies_iff anc).2 ?_⟩
  cases h with
  | assign h => exact .assign h
  | update => exact .update
  | delete => exact .delete
  | element h => exact .destructuring (by simp) (plainPattern_assigned h _ (by simp))
  | restElement h => exact .destructuring (by simp) (.array (plainPattern_assigned h _ (by simp)))
  | value h => exact .destructuring (by simp) (.object (plainPattern_assigned h _ (by simp)))
  | restProperty h => exact .destructuring (by simp) (.object (plainPattern_assigned h _ (by simp)))

/-- C94 (the fix breaks no such write).  If an instance property is reported, every write of these forms in its class (outside nested classes), through a value of the class's type,
stands directly in the constructor, where a readonly property may be written; a reported static one is written in no such way. -/
theorem C94_safe (E : Env C T) (c : C) (ms : List (Member C T)) (d : Decl) (h : Reported E c ms d) (m : Member C T) (hm : m ∈ ms) (a : Access T) (ha : InMember m a)
    (hn : a.name = d.name) (hw : PlainTarget a.anc) :
    (d.isStatic = false → E.relation c a.type ≠ .both ∧ (E.relation c a.type = .inst → a.place = .direct)) ∧
    (d.isStatic = true → E.relation c a.type ≠ .cls ∧ E.relation c a.type ≠ .both) := by
  obtain ⟨_, _, _, _, _, h1, h2⟩ := h
  have hno := (modifies_iff _).1 (C94_noticed hw).2
  refine ⟨fun hs => ⟨fun hr => h1 hs ⟨m, hm, a, ha, hn, hno, .inr hr⟩, fun hr => ?_⟩, fun hs => ⟨fun hr => h2 hs ⟨m, hm, a, ha, hn, hno, .inl hr⟩, fun hr => h2 hs ⟨m, hm, a, ha, hn, hno, .inr hr⟩⟩⟩
  cases hp : a.place with
  | direct => rfl
  | outside => exact absurd ⟨m, hm, a, ha, hn, hno, .inl ⟨hr, by simp [hp]⟩⟩ (h1 hs)
  | inner => exact absurd ⟨m, hm, a, ha, hn, hno, .inl ⟨hr, by simp [hp]⟩⟩ (h1 hs)

/-- C94 (hazards: writes that are not noticed).  `(this.x) = 1` and `(this.x)++`; `for (this.x of xs)`; `for ([this.x] of xs)`; `({ a: [this.x] } = o)` and
`({ a: { b: this.x } } = o)`. -/
theorem C94_hazard_unnoticed (op : Op) (h : op ≠ .other) (i j k : Nat) (rest : List Anc) :
    (Target (⟨.paren, i⟩ :: ⟨.binary op, 0⟩ :: rest) ∧ modifies (⟨.paren, i⟩ :: ⟨.binary op, 0⟩ :: rest) = decide (op = .eq)) ∧
    (Target (⟨.paren, i⟩ :: ⟨.unary true, j⟩ :: rest) ∧ modifies (⟨.paren, i⟩ :: ⟨.unary true, j⟩ :: rest) = false) ∧
    (Target (⟨.forInOf, 0⟩ :: ⟨.other, i⟩ :: rest) ∧ modifies (⟨.forInOf, 0⟩ :: ⟨.other, i⟩ :: rest) = false) ∧
    (Target (⟨.array, i⟩ :: ⟨.forInOf, 0⟩ :: rest) ∧ modifies (⟨.array, i⟩ :: ⟨.forInOf, 0⟩ :: rest) = false) ∧
    (Target (⟨.array, i⟩ :: ⟨.propertyAssignment, 1⟩ :: ⟨.object, j⟩ :: ⟨.binary .eq, 0⟩ :: rest) ∧
      modifies (⟨.array, i⟩ :: ⟨.propertyAssignment, 1⟩ :: ⟨.object, j⟩ :: ⟨.binary .eq, 0⟩ :: rest) = false) ∧
    (Target (⟨.propertyAssignment, 1⟩ :: ⟨.object, k⟩ :: ⟨.propertyAssignment, 1⟩ :: ⟨.object, j⟩ :: ⟨.binary .eq, 0⟩ :: rest) ∧
      modifies (⟨.propertyAssignment, 1⟩ :: ⟨.object, k⟩ :: ⟨.propertyAssignment, 1⟩ :: ⟨.object, j⟩ :: ⟨.binary .eq, 0⟩ :: rest) = false) := by
  refine ⟨⟨.paren (.assign h), by simp [modifies, isDestructuring, destructuring, isPattern, endsLoop]⟩, ⟨.paren .update, rfl⟩, ⟨.forInOf, rfl⟩, ⟨.element .forInOf, rfl⟩,
    ⟨.element (.value .assign), rfl⟩, ⟨.value (.value .assign), rfl⟩⟩

/-- C94 (missed reports).  In `[this.x.y] = a` the property `x` is only read, but counts as written. -/
theorem C94_overnoticed (i : Nat) (rest : List Anc) :
    modifies (⟨.access, 0⟩ :: ⟨.array, i⟩ :: ⟨.binary .eq, 0⟩ :: rest) = true ∧ ¬Target (⟨.access, 0⟩ :: ⟨.array, i⟩ :: ⟨.binary .eq, 0⟩ :: rest) :=
  ⟨rfl, fun h => by cases h⟩

/-! ## Types -/

section Types
variable [DecidableEq T]

theorem baseLoop_sound (E : Types T) (s : Nat) (n : Nat) : ∀ queue seen, baseLoop E s n queue seen = some true →
    ∃ t ∈ queue, ∃ u, Derives E t u ∧ E.symbol u = some s := by
  induction n with
  | zero => intro q seen h; simp [baseLoop] at h
  | succ n ih =>
    intro q seen h
    cases q with
    | nil => simp [baseLoop] at h
    | cons t q =>
      rw [baseLoop] at h
      by_cases h1 : seen.contains t = true
      · rw [if_pos h1] at h
        obtain ⟨x, hx, hr⟩ := ih _ _ h
        exact ⟨x, List.mem_cons_of_mem _ hx, hr⟩
      · rw [if_neg h1] at h
        by_cases h2 : E.symbol t = some s
        · exact ⟨t, List.mem_cons_self .., t, .refl, h2⟩
        · rw [if_neg h2] at h
          by_cases h3 : E.classOrInterface t = true
          · rw [if_neg (by simp [h3])] at h
            obtain ⟨x, hx, u, hr, hu⟩ := ih _ _ h
            rcases List.mem_append.1 hx with hx | hx
            · exact ⟨t, List.mem_cons_self .., u, .step h3 (List.mem_reverse.1 hx) hr, hu⟩
            · exact ⟨x, List.mem_cons_of_mem _ hx, u, hr, hu⟩
          · rw [if_pos (by simp [h3])] at h
            obtain ⟨x, hx, hr⟩ := ih _ _ h
            exact ⟨x, List.mem_cons_of_mem _ hx, hr⟩

/-- A finished type: not the class, and its bases are known. -/
def Finished (E : Types T) (s : Nat) (known : List T) (t : T) : Prop :=
  E.symbol t ≠ some s ∧ (E.classOrInterface t = true → ∀ b ∈ E.bases t, b ∈ known)

theorem baseLoop_complete (E : Types T) (s : Nat) (n : Nat) : ∀ queue seen, baseLoop E s n queue seen = some false →
    (∀ t ∈ seen, Finished E s (seen ++ queue) t) → ∃ known, (∀ t ∈ queue, t ∈ known) ∧ ∀ t ∈ known, Finished E s known t := by
  induction n with
  | zero => intro q seen h; simp [baseLoop] at h
  | succ n ih =>
    intro q seen h hs
    cases q with
    | nil => exact ⟨seen, by simp, by simpa using hs⟩
    | cons t q =>
      rw [baseLoop] at h
      have wk : ∀ {k k' : List T} {x : T}, (∀ y ∈ k, y ∈ k') → Finished E s k x → Finished E s k' x :=
        fun hk hf => ⟨hf.1, fun hc b hb => hk b (hf.2 hc b hb)⟩
      by_cases h1 : seen.contains t = true
      · rw [if_pos h1] at h
        have ht : t ∈ seen := by simpa using h1
        have hs' : ∀ x ∈ seen, Finished E s (seen ++ q) x := fun x hx => wk (fun y hy => by
          simp only [List.mem_append, List.mem_cons] at hy ⊢
          rcases hy with hy | rfl | hy
          · exact .inl hy
          · exact .inl ht
          · exact .inr hy) (hs x hx)
        -- strengthen: the queue's rest and the seen ones
        obtain ⟨known, hk, hf⟩ := ih q seen h hs'
        -- take all: seen, queue
        refine ⟨known ++ seen, ?_, ?_⟩
        · intro x hx
          rcases List.mem_cons.1 hx with rfl | hx
          · exact List.mem_append_right _ ht
          · exact List.mem_append_left _ (hk x hx)
        · intro x hx
          rcases List.mem_append.1 hx with hx | hx
          · exact wk (fun y hy => List.mem_append_left _ hy) (hf x hx)
          · exact wk (fun y hy => by
              rcases List.mem_append.1 hy with hy | hy
              · exact List.mem_append_right _ hy
              · exact List.mem_append_left _ (hk y hy)) (hs' x hx)
      · rw [if_neg h1] at h
        by_cases h2 : E.symbol t = some s
        · rw [if_pos h2] at h; simp at h
        · rw [if_neg h2] at h
          by_cases h3 : E.classOrInterface t = true
          · rw [if_neg (by simp [h3])] at h
            have hs' : ∀ x ∈ t :: seen, Finished E s (t :: seen ++ ((E.bases t).reverse ++ q)) x := by
              intro x hx
              rcases List.mem_cons.1 hx with rfl | hx
              · exact ⟨h2, fun _ b hb => by simp [hb]⟩
              · exact wk (fun y hy => by
                  simp only [List.mem_append, List.mem_cons] at hy ⊢
                  rcases hy with hy | hy | hy
                  · exact .inl (.inr hy)
                  · exact .inl (.inl hy)
                  · exact .inr (.inr hy)) (hs x hx)
            obtain ⟨known, hk, hf⟩ := ih _ _ h hs'
            refine ⟨known ++ (t :: seen), ?_, ?_⟩
            · intro x hx
              rcases List.mem_cons.1 hx with rfl | hx
              · exact List.mem_append_right _ (by simp)
              · exact List.mem_append_left _ (hk x (by simp [hx]))
            · intro x hx
              rcases List.mem_append.1 hx with hx | hx
              · exact wk (fun y hy => List.mem_append_left _ hy) (hf x hx)
              · exact wk (fun y hy => by
                  rcases List.mem_append.1 hy with hy | hy
                  · exact List.mem_append_right _ hy
                  · exact List.mem_append_left _ (hk y hy)) (hs' x hx)
          · rw [if_pos (by simp [h3])] at h
            have hs' : ∀ x ∈ t :: seen, Finished E s (t :: seen ++ q) x := by
              intro x hx
              rcases List.mem_cons.1 hx with rfl | hx
              · exact ⟨h2, fun h => absurd h h3⟩
              · exact wk (fun y hy => by
                  simp only [List.mem_append, List.mem_cons] at hy ⊢
                  rcases hy with hy | hy | hy
                  · exact .inl (.inr hy)
                  · exact .inl (.inl hy)
                  · exact .inr hy) (hs x hx)
            obtain ⟨known, hk, hf⟩ := ih _ _ h hs'
            refine ⟨known ++ (t :: seen), ?_, ?_⟩
            · intro x hx
              rcases List.mem_cons.1 hx with rfl | hx
              · exact List.mem_append_right _ (by simp)
              · exact List.mem_append_left _ (hk x hx)
            · intro x hx
              rcases List.mem_append.1 hx with hx | hx
              · exact wk (fun y hy => List.mem_append_left _ hy) (hf x hx)
              · exact wk (fun y hy => by
                  rcases List.mem_append.1 hy with hy | hy
                  · exact List.mem_append_right _ hy
                  · exact List.mem_append_left _ (hk y hy)) (hs' x hx)

/-- C94 (base types).  A type belongs to a class exactly if its symbol, or that of a type it derives from through classes and interfaces, is the class's - also if types
inherit from each other in circles. -/
theorem C94_bases (E : Types T) (n : Nat) (t cls : T) (b : Bool) (h : hasBase E n t cls = some b) : b = true ↔ Belongs E cls t := by
  unfold hasBase at h
  cases hs : E.symbol cls with
  | none =>
    simp only [hs, Option.some.injEq] at h
    subst h
    simp [Belongs, hs]
  | some s =>
    simp only [hs] at h
    cases b with
    | true =>
      obtain ⟨x, hx, u, hr, hu⟩ := baseLoop_sound E s n _ _ h
      simp only [List.mem_singleton] at hx
      subst hx
      simp only [true_iff]
      exact ⟨s, u, hs, hr, hu⟩
    | false =>
      obtain ⟨known, hk, hf⟩ := baseLoop_complete E s n _ _ h (by simp)
      simp only [Bool.false_eq_true, false_iff]
      rintro ⟨s', u, hs', hr, hu⟩
      rw [hs] at hs'; cases hs'
      have : ∀ x y, Derives E x y → x ∈ known → y ∈ known := by
        intro x y hxy
        induction hxy with
        | refl => exact id
        | step hc hb _ ih => exact fun hx => ih ((hf _ hx).2 hc _ hb)
      exact (hf u (this _ _ hr (hk t (by simp)))).1 hu

/-- How many base types are still to come. -/
def weight (E : Types T) : List T → Nat
  | [] => 0
  | t :: ts => (E.bases t).length + weight E ts

theorem weight_filter (E : Types T) (p : T → Bool) (t : T) : ∀ l : List T, l.Nodup → t ∈ l → p t = true →
    weight E (l.filter fun x => p x && x != t) + (E.bases t).length = weight E (l.filter p) := by
  intro l
  induction l with
  | nil => intro _ h; simp at h
  | cons x l ih =>
    intro hn hm hp
    rw [List.nodup_cons] at hn
    by_cases hx : x = t
    · subst hx
      have : (l.filter fun y => p y && y != x) = l.filter p := by
        refine List.filter_congr fun y hy => ?_
        have : y ≠ x := fun h => hn.1 (h ▸ hy)
        simp [this]
      simp only [List.filter_cons, hp, bne_self_eq_false, Bool.and_false, Bool.false_eq_true, ↓reduceIte, this, weight]
      omega
    · have ih' := ih hn.2 (by rcases List.mem_cons.1 hm with h | h; exact absurd h.symm hx; exact h) hp
      have hxt : (x != t) = true := by simp [hx]
      simp only [List.filter_cons, hxt, Bool.and_true]
      by_cases hpx : p x = true
      · simp only [hpx, ↓reduceIte, weight]; omega
      · simp only [hpx, Bool.false_eq_true, ↓reduceIte]; exact ih'

/-- C94 (the search ends).  With finitely many types it takes at most one step for each base type and two more. -/
theorem C94_bases_end (E : Types T) (U : List T) (hU : U.Nodup) (hclosed : ∀ t ∈ U, E.classOrInterface t = true → ∀ b ∈ E.bases t, b ∈ U) (t cls : T) (ht : t ∈ U) :
    ∃ b, hasBase E (weight E U + 2) t cls = some b := by
  unfold hasBase
  cases hs : E.symbol cls with
  | none => exact ⟨false, rfl⟩
  | some s =>
    have key : ∀ n queue seen, (∀ x ∈ queue, x ∈ U) → queue.length + weight E (U.filter fun x => !seen.contains x) < n → ∃ b, baseLoop E s n queue seen = some b := by
      intro n
      induction n with
      | zero => intro _ _ _ h; omega
      | succ n ih =>
        intro queue seen hq hn
        cases queue with
        | nil => exact ⟨false, rfl⟩
        | cons x queue =>
          rw [baseLoop]
          have hq' : ∀ y ∈ queue, y ∈ U := fun y hy => hq y (List.mem_cons_of_mem _ hy)
          have hx : x ∈ U := hq x (List.mem_cons_self ..)
          simp only [List.length_cons] at hn
          by_cases h1 : seen.contains x = true
          · rw [if_pos h1]; exact ih _ _ hq' (by omega)
          · rw [if_neg h1]
            by_cases h2 : E.symbol x = some s
            · rw [if_pos h2]; exact ⟨true, rfl⟩
            · rw [if_neg h2]
              have hw := weight_filter E (fun y => !seen.contains y) x U hU hx (by simpa using h1)
              have he : (U.filter fun y => !(x :: seen).contains y) = U.filter fun y => (!seen.contains y) && y != x := by
                refine List.filter_congr fun y _ => ?_
                simp only [List.contains_cons, Bool.not_or, Bool.and_comm]
                rfl
              by_cases h3 : E.classOrInterface x = true
              · rw [if_neg (by simp [h3])]
                refine ih _ _ ?_ ?_
                · intro y hy
                  rcases List.mem_append.1 hy with hy | hy
                  · exact hclosed x hx h3 y (List.mem_reverse.1 hy)
                  · exact hq' y hy
                · rw [List.length_append, List.length_reverse, he]; omega
              · rw [if_pos (by simp [h3])]
                refine ih _ _ hq' ?_
                rw [he]; omega
    exact key _ [t] [] (by simpa using ht) (by
      have : (U.filter fun x => !([] : List T).contains x) = U := List.filter_eq_self.2 (by simp)
      rw [this, List.length_singleton]; omega)

omit [DecidableEq T] in
theorem partsRelation_spec (f : T → Option Relation) : ∀ (ts : List T) (rs : List Relation), partsRelation f ts = some rs →
    rs.length = ts.length ∧ ∀ (i : Nat) u q, ts[i]? = some u → rs[i]? = some q → f u = some q := by
  intro ts
  induction ts with
  | nil => intro rs h; simp only [partsRelation, Option.some.injEq] at h; subst h; simp
  | cons t ts ih =>
    intro rs h
    simp only [partsRelation, Option.bind_eq_some_iff, Option.map_eq_some_iff] at h
    obtain ⟨r, hr, rs', hrs, rfl⟩ := h
    obtain ⟨h1, h2⟩ := ih _ hrs
    refine ⟨by simp [h1], ?_⟩
    intro i u q hu hq
    cases i with
    | zero => simp only [List.getElem?_cons_zero, Option.some.injEq] at hu hq; subst hu hq; exact hr
    | succ i => exact h2 i u q (by simpa using hu) (by simpa using hq)

theorem combine_spec (rs : List Relation) : ∀ r, r ≠ .both →
    (combine rs r = .both ↔ (.cls ∈ rs ∨ r = .cls) ∧ (.inst ∈ rs ∨ r = .inst)) ∧
    (combine rs r = .cls ↔ (.cls ∈ rs ∨ r = .cls) ∧ ¬(.inst ∈ rs ∨ r = .inst)) ∧
    (combine rs r = .inst ↔ (.inst ∈ rs ∨ r = .inst) ∧ ¬(.cls ∈ rs ∨ r = .cls)) := by
  induction rs with
  | nil => intro r hr; cases r <;> simp_all [combine]
  | cons x rs ih =>
    intro r hr
    cases x with
    | both => simpa [combine] using ih r hr
    | unrelated => simpa [combine] using ih r hr
    | cls =>
      rw [combine]
      by_cases h : r = .inst
      · subst h; simp
      · rw [if_neg h]
        have := ih .cls (by simp)
        simpa [h] using this
    | inst =>
      rw [combine]
      by_cases h : r = .cls
      · subst h; simp
      · rw [if_neg h]
        have := ih .inst (by simp)
        simpa [h] using this

/-- C94 (relation).  The relation of a type to the class: none if it does not belong to it; the class itself if it is an anonymous object type (`typeof C`), an instance otherwise;
intersections as their parts, both if there are parts of both kinds; unions as their first part. -/
theorem C94_relation (E : Types T) (cls : T) (n : Nat) : ∀ t r, relationTo E cls n t = some r → Relates E cls t r := by
  induction n with
  | zero => intro t r h; simp [relationTo] at h
  | succ n ih =>
    intro t r h
    rw [relationTo] at h
    cases hs : E.shape t with
    | intersection ts =>
      simp only [hs, Option.map_eq_some_iff] at h
      obtain ⟨rs, hrs, rfl⟩ := h
      obtain ⟨h1, h2⟩ := partsRelation_spec _ _ _ hrs
      obtain ⟨c1, c2, c3⟩ := combine_spec rs .unrelated (by simp)
      simp only [reduceCtorEq, or_false] at c1 c2 c3
      exact .parts rs hs h1 (fun i u q hu hq => ih u q (h2 i u q hu hq)) c1 c2 c3
    | union ts =>
      cases ts with
      | nil => simp only [hs, Option.some.injEq] at h; subst h; exact .empty hs
      | cons u us => simp only [hs] at h; exact .first hs (ih u r h)
    | other =>
      simp only [hs] at h
      cases hy : E.symbol t with
      | none =>
        simp [hy] at h; subst h
        exact .none hs (by simp [hy])
      | some y =>
        simp only [hy, Option.isNone_some, Bool.false_eq_true, ↓reduceIte, Option.map_eq_some_iff] at h
        obtain ⟨b, hb, rfl⟩ := h
        have := C94_bases E _ t cls b hb
        cases b with
        | false => exact .none hs (fun h => by have := this.2 h.2; cases this)
        | true =>
          cases ha : E.anonymous t with
          | true => exact .cls hs (by simp [hy]) (this.1 rfl) ha
          | false => exact .inst hs (by simp [hy]) (this.1 rfl) ha

end Types

/-! ## The fix -/

/-- C94 (fix).  The fix writes `readonly` before the name.  It also gives the property its type, exactly if that is a property without type whose initialiser is of a narrower literal type,
the constructor writes it, its name is an identifier and there is a text for its type. -/
theorem C94_fix (pre name post annotation : Bytes) (untyped identifier differs : Bool) (r : Report) :
    AppliesTo (pre ++ name ++ post) (fixes ⟨pre.length, pre.length + name.length, untyped, identifier, differs, annotation⟩ r)
      (pre ++ ascii "readonly " ++ name ++
        (if untyped = true ∧ identifier = true ∧ differs = true ∧ r.inConstructor = true ∧ annotation ≠ [] then ascii ": " ++ annotation else []) ++ post) := by
  by_cases h : untyped = true ∧ identifier = true ∧ differs = true ∧ r.inConstructor = true ∧ annotation ≠ []
  · rw [if_pos h]
    obtain ⟨h1, h2, h3, h4, h5⟩ := h
    have h5' : annotation.isEmpty = false := by cases annotation <;> simp_all
    have key := Seg.applies_sorted [.keep pre, .sub [] (ascii "readonly "), .keep name, .sub [] (ascii ": " ++ annotation), .keep post]
    simp only [fixes, h1, h2, h3, h4, h5', Bool.and_true, Bool.not_false, ↓reduceIte]
    simpa [Seg.old, Seg.new, Seg.edits, Nat.add_assoc, List.append_assoc] using key
  · rw [if_neg h]
    have hc : ¬(untyped && identifier && r.inConstructor && differs && !annotation.isEmpty) = true := by
      intro hc
      simp only [Bool.and_eq_true, Bool.not_eq_true', List.isEmpty_eq_false_iff] at hc
      exact h ⟨hc.1.1.1.1, hc.1.1.1.2, hc.1.2, hc.1.1.2, hc.2⟩
    simp only [fixes, hc, Bool.false_eq_true, ↓reduceIte]
    have key := Seg.applies_sorted [.keep pre, .sub [] (ascii "readonly "), .keep (name ++ post)]
    simpa [Seg.old, Seg.new, Seg.edits, Nat.add_assoc, List.append_assoc] using key

/-- C94 (hazard: private names).  A `#name` without type that the constructor writes becomes readonly without its type, so that it takes the narrower type of its initialiser:
`#x = 1; constructor() { this.#x = 2 }`. -/
theorem C94_hazard_hash (pre name post annotation : Bytes) (differs : Bool) (r : Report) :
    AppliesTo (pre ++ name ++ post) (fixes ⟨pre.length, pre.length + name.length, true, false, differs, annotation⟩ r) (pre ++ ascii "readonly " ++ name ++ post) := by
  simpa using C94_fix pre name post annotation true false differs r

/-! ## Samples -/

section Samples
def sampleEnv : Env Nat Nat := ⟨false, fun c t => if t = c then .inst else if t = c + 100 then .cls else .unrelated⟩
def field (id : Nat) (name : String) : Decl := ⟨id, name, true, false, false, false, false, .other⟩
/-- `this.name = …`, with `this` of type `t` -/
def assign (t : Nat) (name : String) : Node Nat Nat := .syn (.binary .eq) [.access name t (.syn .other []), .syn .other []]

/-- `class { private x; private y; private z; static private s; m() { this.x = 1 } constructor(private p) { this.y = 2; () => this.z = 1 } static { C.s = 1 } }` -/
def sampleClass : Node Nat Nat := .cls 1 [.property (field 1 "x") [], .property (field 2 "y") [], .property (field 3 "z") [],
  .property { field 4 "s" with isStatic := true } [], .part (.syn .function [assign 1 "x"]),
  .ctor [field 5 "p"] [assign 1 "y", .syn .function [assign 1 "z"]], .part (assign 101 "s")]

example : run sampleEnv sampleClass = [⟨field 2 "y", true⟩, ⟨field 5 "p", false⟩] := by decide
example : run sampleEnv (.syn .other [sampleClass, .cls 2 [.property (field 7 "w") [.syn .function [sampleClass]]]]) =
    [⟨field 2 "y", true⟩, ⟨field 5 "p", false⟩, ⟨field 7 "w", false⟩, ⟨field 2 "y", true⟩, ⟨field 5 "p", false⟩] := by decide

/-- C94 (hazard: nested classes).  Code in a class inside may write the private members of the class around it, but is not looked at for that one: here `x` of class 1 is written
in class 2 and reported all the same. -/
theorem C94_hazard_nested : run sampleEnv (.cls 1 [.property (field 1 "x") [], .part (.syn .function [.cls 2 [.part (.syn .function [assign 1 "x"])]])]) = [⟨field 1 "x", false⟩] := by decide

/-- The hypotheses of `C94_safe` are met: `y` is reported and written in the constructor. -/
example : ∃ m ∈ [Member.property (field 2 "y") [], Member.ctor [] [assign 1 "y"]], ∃ a : Access Nat, InMember m a ∧ a.name = "y" ∧ PlainTarget a.anc ∧ a.place = .direct :=
  ⟨.ctor [] [assign 1 "y"], by simp, ⟨"y", 1, [⟨.binary .eq, 0⟩, ⟨.other, 0⟩], .direct⟩, .ctor 0 _ rfl (.child 0 _ rfl .here), rfl, .assign (by simp), rfl⟩
example : Reported sampleEnv 1 [Member.property (field 2 "y") [], Member.ctor [] [assign 1 "y"]] (field 2 "y") := by
  have : (⟨field 2 "y", true⟩ : Report) ∈ expected sampleEnv (.cls 1 [Member.property (field 2 "y") [], Member.ctor [] [assign 1 "y"]]) := by rw [← C94_list]; decide
  rw [expected, List.mem_append] at this
  rcases this with h | h
  · exact ((mem_own ..).1 h).1
  · simp [expectedMembers, expectedAll, expected, assign] at h

/-- types: 1 is a class of symbol 1; 2 derives from it, and from itself; 3 is `typeof` 1; 4 is the intersection of 2 and 3 -/
def sampleTypes : Types Nat where
  shape t := if t = 4 then .intersection [2, 3] else .other
  symbol t := if t = 0 then none else if t = 3 then some 1 else some t
  classOrInterface t := t == 1 || t == 2
  bases t := if t = 2 then [2, 1] else []
  anonymous t := t == 3

example : relationTo sampleTypes 1 6 2 = some .inst ∧ relationTo sampleTypes 1 6 3 = some .cls ∧ relationTo sampleTypes 1 6 4 = some .both ∧
    relationTo sampleTypes 1 6 0 = some .unrelated ∧ relationTo sampleTypes 2 6 1 = some .unrelated := by decide
example : ∃ b, hasBase sampleTypes (weight sampleTypes [0, 1, 2, 3, 4] + 2) 2 1 = some b :=
  C94_bases_end sampleTypes [0, 1, 2, 3, 4] (by decide) (by decide) 2 1 (by decide)
end Samples

end Tsgolint.PreferReadonly
