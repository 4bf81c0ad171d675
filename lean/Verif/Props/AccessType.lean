import Verif.Spec.AccessType
import Verif.Props.Condition

/-! # C137: no-unnecessary-condition, the type of `o[k]` -/

namespace Tsgolint.AccessType

open Condition

variable {τ : Type}

theorem constrained_of {C : Checker τ} {M : Meaning} {of : τ → Value → Prop} {get : Value → Value → Value} (h : Agrees C M of get) {t : τ} {v : Value}
    (hv : of t v) : of (C.constrained t) v := by
  unfold Checker.constrained
  cases hc : C.constraint t with
  | none => exact hv
  | some c => exact h.constraint t c v hc hv

/-- C137: which type is taken for `o[i]`: that of the property if the index is one literal and there is such a property; otherwise the string index type if some
part of the index is like a string and there is one; otherwise the number index type if some part is like a number and there is one; each after object and index
were replaced by their constraints -/
theorem C137_exact (C : Checker τ) (o i : τ) (t : Ty) : C.resolve (some o) (some i) = some t ↔
    (∃ k, C.literal (C.constrained i) = some k ∧ C.property (C.constrained o) k.name = some t) ∨
    ((∀ k, C.literal (C.constrained i) = some k → C.property (C.constrained o) k.name = none) ∧
      (((∃ p ∈ C.parts (C.constrained i), C.stringLike p = true) ∧ C.stringIndex (C.constrained o) = some t) ∨
       (¬ ((∃ p ∈ C.parts (C.constrained i), C.stringLike p = true) ∧ C.stringIndex (C.constrained o) ≠ none) ∧
        (∃ p ∈ C.parts (C.constrained i), C.numberLike p = true) ∧ C.numberIndex (C.constrained o) = some t))) := by
  rw [show C.resolve (some o) (some i) = Access.type _ from rfl, access_iff]
  simp only [List.any_eq_true, Option.map_eq_some_iff]
  constructor
  · rintro (⟨k, ⟨k', hk, rfl⟩, hp⟩ | ⟨h1, h2⟩)
    · exact .inl ⟨k', hk, hp⟩
    · exact .inr ⟨fun k hk => h1 k.name ⟨k, hk, rfl⟩, h2⟩
  · rintro (⟨k, hk, hp⟩ | ⟨h1, h2⟩)
    · exact .inl ⟨k.name, ⟨k, hk, rfl⟩, hp⟩
    · refine .inr ⟨?_, h2⟩
      rintro k ⟨k', hk, rfl⟩
      exact h1 k' hk

/-- C137: every value that `o[k]` can have is of the type taken for it, if the index is plain -/
theorem C137_sound (C : Checker τ) (M : Meaning) (of : τ → Value → Prop) (get : Value → Value → Value) (h : Agrees C M of get)
    (o i : τ) (t : Ty) (ht : C.resolve (some o) (some i) = some t) (hp : Plain C o i) (vo vk : Value) (ho : of o vo) (hk : of i vk) :
    Has M t (get vo vk) := by
  have ho' := constrained_of h ho
  have hk' := constrained_of h hk
  rcases (C137_exact C o i t).1 ht with ⟨k, hl, hprop⟩ | ⟨hno, hrest⟩
  · cases k with
    | string s =>
      rw [h.string _ s vk hl hk']
      exact h.property _ s t vo hprop ho'
    | number s =>
      rw [h.number _ s vk hl hk', h.same _ s vo hl]
      exact h.property _ s t vo hprop ho'
  · rcases hp with ⟨k, hl, hk⟩ | ⟨hall, hidx⟩
    · exact absurd (hno k hl) hk
    · obtain ⟨p, hpm, hpv⟩ := h.parts _ vk hk'
      rcases hrest with ⟨_, hs⟩ | ⟨hns, _, hn⟩
      · refine h.stringIndex _ t vo vk hs ho' ?_
        rcases hall p hpm with hp | hp
        · exact .inl (h.stringLike p vk hp hpv)
        · exact .inr (h.numberLike p vk hp hpv)
      · rcases hall p hpm with hp | hp
        · exact absurd ⟨⟨p, hpm, hp⟩, hidx ⟨p, hpm, hp⟩⟩ hns
        · obtain ⟨s, rfl⟩ := h.numberLike p vk hp hpv
          exact h.numberIndex _ t vo s hn ho'

/-- C137: so `o[k]` taken to be always truthy, or falsy, is -/
theorem C137_verdict (C : Checker τ) (M : Meaning) (hM : M.ObjectsOnly) (of : τ → Value → Prop) (get : Value → Value → Value) (h : Agrees C M of get)
    (o i : τ) (t : Ty) (ht : C.resolve (some o) (some i) = some t) (hp : Plain C o i) :
    ((condition t).1 = true → ∀ vo vk, of o vo → of i vk → (get vo vk).truthy = true) ∧
    ((condition t).2 = true → ∀ vo vk, of o vo → of i vk → (get vo vk).truthy = false) :=
  ⟨fun hc vo vk ho hk => truthy_sound hM t hc _ (C137_sound C M of get h o i t ht hp vo vk ho hk),
   fun hc vo vk ho hk => falsy_sound hM t hc _ (C137_sound C M of get h o i t ht hp vo vk ho hk)⟩

/-! a world: `interface O { a?: object; [n: number]: object }`; the index types `"a" | number`, `number` and `"a"`, and type parameters for them -/

/-- types of the world -/
inductive T
  | object
  | a
  | number
  | mixed
  /-- `K extends "a" | number`, `K extends number`, `K extends "a"` -/
  | kMixed
  | kNumber
  | kA
  deriving DecidableEq

/-- `object | undefined` -/
def maybe : Ty := .union [.nonPrimitive, .undefined]

/-- what the checker says -/
def world : Checker T where
  constraint
    | .kMixed => some .mixed
    | .kNumber => some .number
    | .kA => some .a
    | _ => none
  literal
    | .a => some (.string "a")
    | _ => none
  parts
    | .mixed => [.a, .number]
    | t => [t]
  stringLike t := t == .a
  numberLike t := t == .number
  property
    | .object, "a" => some maybe
    | _, _ => none
  stringIndex _ := none
  numberIndex
    | .object => some .nonPrimitive
    | _ => none

/-- values of the types -/
def ofT : T → Value → Prop
  | .object, v => v = .object 0
  | .a, v => v = .string "a"
  | .kA, v => v = .string "a"
  | .number, v => ∃ t, v = .number t
  | .kNumber, v => ∃ t, v = .number t
  | .mixed, v => v = .string "a" ∨ ∃ t, v = .number t
  | .kMixed, v => v = .string "a" ∨ ∃ t, v = .number t

/-- the only object has no strings for keys, everything else of it is an object -/
def getT : Value → Value → Value
  | _, .string _ => .undefined
  | _, _ => .object 1

theorem world_agrees : Agrees world sampleMeaning ofT getT where
  constraint t c v hc hv := by cases t <;> simp [world] at hc <;> subst hc <;> exact hv
  string t s v hl hv := by cases t <;> simp [world] at hl <;> subst hl <;> exact hv
  number t s v hl hv := by cases t <;> simp [world] at hl
  same t s o hl := by cases t <;> simp [world] at hl
  parts t v hv := by
    cases t
    case mixed =>
      rcases hv with h | h
      · exact ⟨.a, by simp [world], h⟩
      · exact ⟨.number, by simp [world], h⟩
    all_goals exact ⟨_, List.mem_singleton.2 rfl, hv⟩
  stringLike t v hl hv := by cases t <;> simp [world] at hl; exact ⟨_, hv⟩
  numberLike t v hl hv := by cases t <;> simp [world] at hl; exact hv
  property t s u o hp ho := by
    unfold world at hp
    dsimp only at hp
    split at hp
    · rw [← Option.some.inj hp]
      simp [maybe, Has, HasSome, getT]
    · exact nomatch hp
  stringIndex t u o k hs := by simp [world] at hs
  numberIndex t u o s hn ho := by cases t <;> simp [world] at hn; subst hn; exact ⟨1, rfl⟩

/-- C137 (hazard): with `K extends "a" | number` the number index type is taken for `o[k]` although `k` may be `"a"`: `if (o[k])` is taken to be always truthy
although `o[k]` may be undefined -/
theorem C137_hazard_mixed : Agrees world sampleMeaning ofT getT ∧ sampleMeaning.ObjectsOnly ∧
    world.resolve (some .object) (some .kMixed) = some .nonPrimitive ∧ (condition .nonPrimitive).1 = true ∧
    ofT .object (.object 0) ∧ ofT .kMixed (.string "a") ∧ (getT (.object 0) (.string "a")).truthy = false :=
  ⟨world_agrees, fun _ _ h => h, rfl, rfl, rfl, .inl rfl, rfl⟩

/-- the hypotheses of `C137_sound` are met by `K extends number` and `K extends "a"` -/
example : Agrees world sampleMeaning ofT getT ∧ Plain world .object .kNumber ∧ world.resolve (some .object) (some .kNumber) = some .nonPrimitive ∧
    Plain world .object .kA ∧ world.resolve (some .object) (some .kA) = some maybe ∧ ofT .kNumber (.number "1") :=
  ⟨world_agrees, .inr ⟨by simp [world, Checker.constrained], by simp [world, Checker.constrained]⟩, rfl,
    .inl ⟨.string "a", rfl, by simp [world, Checker.constrained, Key.name]⟩, rfl, _, rfl⟩

end Tsgolint.AccessType
