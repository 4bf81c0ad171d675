import Verif.Spec.RestrictTemplate
import Verif.Props.TypeGraph
import Verif.Props.Switch
/-! # C65: restrict-template-expressions -/
namespace Tsgolint.RestrictTemplate
open Tsgolint.TypeGraph Tsgolint.Switch
variable {T : Type} [DecidableEq T]

theorem plain_iff (E : Env T) (o : Opts) (t : T) :
    ((allowedFlags o).any (E.has t) || E.listed t || (o.allowRegExp && decide (t = E.regexp))) = true ↔ Plain E o t := by
  obtain ⟨a, b, c, d, e, f, g⟩ := o
  cases a <;> cases c <;> cases d <;> cases e <;> cases f <;> cases g <;> simp [allowedFlags, Plain, or_assoc]

theorem fine_iff (E : Env T) (o : Opts) (t : T) :
    Fine E o t ↔ ∃ q, IntersectionPart E.shape t q ∧ (Plain E o q ∨ (o.allowArray = true ∧ E.isArray q = true ∧ Allowed E o (E.element q))) := by
  constructor
  · intro h
    cases h with
    | plain h1 h2 => exact ⟨_, h1, .inl h2⟩
    | array h1 h2 h3 h4 => exact ⟨_, h1, .inr ⟨h2, h3, h4⟩⟩
  · rintro ⟨q, h1, h2 | ⟨h2, h3, h4⟩⟩
    · exact .plain h1 h2
    · exact .array h1 h2 h3 h4

theorem part_spec (E : Env T) (o : Opts) (rec_ : T → Option Bool) (hr : ∀ t b, rec_ t = some b → (b = true ↔ Allowed E o t)) (q : T) (b : Bool)
    (h : partAllowed E o rec_ q () = some (b, ())) :
    b = true ↔ Plain E o q ∨ (o.allowArray = true ∧ E.isArray q = true ∧ Allowed E o (E.element q)) := by
  rw [← plain_iff]
  unfold partAllowed at h
  cases h1 : (allowedFlags o).any (E.has q) with
  | true => simp [h1] at h; subst h; simp
  | false =>
    cases h2 : E.listed q with
    | true => simp [h1, h2] at h; subst h; simp
    | false =>
      simp only [h1, h2, Bool.false_eq_true, if_false] at h
      cases h3 : (o.allowArray && E.isArray q) with
      | false =>
        simp only [h3, Bool.false_eq_true, if_false, Option.some.injEq, Prod.mk.injEq, and_true] at h
        simp only [Bool.and_eq_false_iff] at h3
        subst h
        simp only [Bool.or_eq_true, Bool.false_eq_true, false_or]
        constructor
        · exact .inl
        · rintro (h | ⟨ha, hb, -⟩)
          · exact h
          · rcases h3 with h3 | h3 <;> simp_all
      | true =>
        simp only [h3, if_true] at h
        simp only [Bool.and_eq_true] at h3
        cases h4 : rec_ (E.element q) with
        | none => simp [h4] at h
        | some c =>
          have := hr _ _ h4
          cases c with
          | true =>
            simp [h4] at h; subst h
            simp [h3, this.1 rfl]
          | false =>
            simp [h4] at h; subst h
            have hn : ¬ Allowed E o (E.element q) := fun h => by simpa using this.2 h
            simp [hn]

/-- C65 (exact).  When the check ends, it says exactly whether each part of the type is fine. -/
theorem C65_exact (E : Env T) (o : Opts) (n : Nat) : ∀ (t : T) (b : Bool), isTypeAllowed E o n t = some b → (b = true ↔ Allowed E o t) := by
  induction n with
  | zero => intro t b h; simp [isTypeAllowed] at h
  | succ n ih =>
    intro t b h
    simp only [isTypeAllowed, Option.map_eq_some_iff] at h
    obtain ⟨⟨b', u⟩, h, rfl⟩ := h
    have := everyLoop_spec (Q := Fine E o) (unionParts E.shape t) b' ?_ h
    · simpa only [mem_unionParts, Allowed] using this
    · intro p _ c hc
      rw [fine_iff]
      have := someLoop_spec (Q := fun q => Plain E o q ∨ (o.allowArray = true ∧ E.isArray q = true ∧ Allowed E o (E.element q)))
        (intersectionParts E.shape p) c (fun q _ c hc => part_spec E o _ ih q c hc) hc
      simpa only [intersectionParts_mem] using this

theorem someLoop_mono {f g : T → Unit → Option (Bool × Unit)} (hfg : ∀ p x, f p () = some x → g p () = some x) :
    ∀ (ps : List T) x, someLoop f ps () = some x → someLoop g ps () = some x := by
  intro ps
  induction ps with
  | nil => intro x h; exact h
  | cons p ps ih =>
    intro x h
    simp only [someLoop] at h ⊢
    cases hp : f p () with
    | none => simp [hp] at h
    | some y =>
      rw [hfg p y hp]
      rw [hp] at h
      obtain ⟨b, u⟩ := y
      cases b with
      | true => exact h
      | false => exact ih x h

theorem everyLoop_mono {f g : T → Unit → Option (Bool × Unit)} (hfg : ∀ p x, f p () = some x → g p () = some x) :
    ∀ (ps : List T) x, everyLoop f ps () = some x → everyLoop g ps () = some x := by
  intro ps
  induction ps with
  | nil => intro x h; exact h
  | cons p ps ih =>
    intro x h
    simp only [everyLoop] at h ⊢
    cases hp : f p () with
    | none => simp [hp] at h
    | some y =>
      rw [hfg p y hp]
      rw [hp] at h
      obtain ⟨b, u⟩ := y
      cases b with
      | true => exact ih x h
      | false => exact h

theorem part_mono (E : Env T) (o : Opts) (r s : T → Option Bool) (hrs : ∀ t b, r t = some b → s t = some b) (q : T) (x : Bool × Unit)
    (h : partAllowed E o r q () = some x) : partAllowed E o s q () = some x := by
  unfold partAllowed at h ⊢
  split
  · next h1 => rw [if_pos h1] at h; exact h
  · next h1 =>
    rw [if_neg h1] at h
    split
    · next h2 => rw [if_pos h2] at h; exact h
    · next h2 =>
      rw [if_neg h2] at h
      split
      · next h3 =>
        rw [if_pos h3] at h
        cases hr : r (E.element q) with
        | none => simp [hr] at h
        | some b => rw [hrs _ _ hr]; rw [hr] at h; exact h
      · next h3 => rw [if_neg h3] at h; exact h

theorem allowed_mono (E : Env T) (o : Opts) (n : Nat) : ∀ (t : T) (b : Bool), isTypeAllowed E o n t = some b → isTypeAllowed E o (n + 1) t = some b := by
  induction n with
  | zero => intro t b h; simp [isTypeAllowed] at h
  | succ n ih =>
    intro t b h
    simp only [isTypeAllowed, Option.map_eq_some_iff] at h ⊢
    obtain ⟨x, h, rfl⟩ := h
    refine ⟨x, everyLoop_mono ?_ _ _ h, rfl⟩
    intro p y hy
    exact someLoop_mono (fun q z hz => part_mono E o _ _ ih q z hz) _ _ hy

/-- C65 (termination).  The check ends on every type whose arrays are not nested for ever. -/
theorem C65_terminates (E : Env T) (o : Opts) (t : T) (h : Acc (ElementOf E) t) : ∃ n b, isTypeAllowed E o n t = some b := by
  induction h with
  | intro t _ ih =>
    have each : ∀ q p, UnionPart E.shape t p → IntersectionPart E.shape p q →
        ∃ n, ∀ m, n ≤ m → ∃ c, partAllowed E o (isTypeAllowed E o m) q () = some (c, ()) := by
      intro q p hp hq
      unfold partAllowed
      split
      · exact ⟨0, fun _ _ => ⟨_, rfl⟩⟩
      · split
        · exact ⟨0, fun _ _ => ⟨_, rfl⟩⟩
        · split
          · next ha =>
            simp only [Bool.and_eq_true] at ha
            obtain ⟨n, b, hb⟩ := ih _ ⟨p, q, hp, hq, ha.2, rfl⟩
            refine ⟨n, fun m hm => ?_⟩
            rw [mono_le (f := fun n => isTypeAllowed E o n (E.element q)) (fun n x => allowed_mono E o n _ x) hm hb]
            cases b <;> exact ⟨_, rfl⟩
          · exact ⟨0, fun _ _ => ⟨_, rfl⟩⟩
    have many : ∀ (l : List T) (Q : T → Nat → Prop), (∀ q ∈ l, ∃ n, ∀ m, n ≤ m → Q q m) → ∃ n, ∀ m, n ≤ m → ∀ q ∈ l, Q q m := by
      intro l Q
      induction l with
      | nil => intro _; exact ⟨0, by simp⟩
      | cons a l ihl =>
        intro h
        obtain ⟨n1, h1⟩ := h a (by simp)
        obtain ⟨n2, h2⟩ := ihl fun q hq => h q (by simp [hq])
        refine ⟨max n1 n2, fun m hm q hq => ?_⟩
        rcases List.mem_cons.1 hq with rfl | hq
        · exact h1 m (by omega)
        · exact h2 m (by omega) q hq
    obtain ⟨n, hn⟩ := many (unionParts E.shape t)
      (fun p m => ∃ c, someLoop (partAllowed E o (isTypeAllowed E o m)) (intersectionParts E.shape p) () = some (c, ())) (by
        intro p hp
        rw [mem_unionParts] at hp
        obtain ⟨n, hn⟩ := many (intersectionParts E.shape p) (fun q m => ∃ c, partAllowed E o (isTypeAllowed E o m) q () = some (c, ())) (by
          intro q hq
          exact each q p hp ((intersectionParts_mem ..).1 hq))
        exact ⟨n, fun m hm => someLoop_total _ (hn m hm)⟩)
    obtain ⟨b, hb⟩ := everyLoop_total (f := fun p u => someLoop (partAllowed E o (isTypeAllowed E o n)) (intersectionParts E.shape p) u)
      (unionParts E.shape t) (hn n (Nat.le_refl n))
    exact ⟨n + 1, b, by simp [isTypeAllowed, hb]⟩

/-- C65 (finding).  With `allowArray`, an array type that is its own element type (`type A = A[]`) makes the check recurse for ever, unless it
is listed: no amount of stack is enough. -/
theorem C65_diverges (E : Env T) (o : Opts) (t : T) (ho : o.allowArray = true) (hs : E.shape t = .other) (ha : E.isArray t = true)
    (he : E.element t = t) (hl : E.listed t = false) (hf : ∀ f, E.has t f = false) (n : Nat) : isTypeAllowed E o n t = none := by
  have hf' : (allowedFlags o).any (E.has t) = false := by
    rw [List.any_eq_false]; intro f _; simp [hf]
  induction n with
  | zero => rfl
  | succ n ih =>
    simp [isTypeAllowed, unionParts, intersectionParts, hs, everyLoop, someLoop, partAllowed, hf', hl, ho, ha, he, ih]

/-- C65 (no surprise).  Turning on an option never forbids anything that was allowed. -/
theorem C65_monotone (E : Env T) (o o' : Opts) (t : T) (h1 : o.allowAny = true → o'.allowAny = true) (h2 : o.allowArray = true → o'.allowArray = true)
    (h3 : o.allowBoolean = true → o'.allowBoolean = true) (h4 : o.allowNever = true → o'.allowNever = true)
    (h5 : o.allowNullish = true → o'.allowNullish = true) (h6 : o.allowNumber = true → o'.allowNumber = true)
    (h7 : o.allowRegExp = true → o'.allowRegExp = true) (h : Allowed E o t) : Allowed E o' t := by
  have hp : ∀ q, Plain E o q → Plain E o' q := by
    rintro q (h | ⟨a, h⟩ | ⟨a, h⟩ | ⟨a, h⟩ | ⟨a, h⟩ | ⟨a, h⟩ | h | ⟨a, h⟩)
    · exact .inl h
    · exact .inr (.inl ⟨h1 a, h⟩)
    · exact .inr (.inr (.inl ⟨h3 a, h⟩))
    · exact .inr (.inr (.inr (.inl ⟨h5 a, h⟩)))
    · exact .inr (.inr (.inr (.inr (.inl ⟨h6 a, h⟩))))
    · exact .inr (.inr (.inr (.inr (.inr (.inl ⟨h4 a, h⟩)))))
    · exact .inr (.inr (.inr (.inr (.inr (.inr (.inl h))))))
    · exact .inr (.inr (.inr (.inr (.inr (.inr (.inr ⟨h7 a, h⟩))))))
  intro p hpp
  have := h p hpp
  clear hpp h
  induction this with
  | plain a b => exact .plain a (hp _ b)
  | array a b c _ ih => exact .array a (h2 b) c ih

/-- C65 (reports).  In an untagged template exactly the expressions are reported that are not allowed, in order; tagged templates are left alone. -/
theorem C65_report (E : Env T) (o : Opts) (n : Nat) (spans : List T) (r : List Nat) :
    report E o n true spans = some [] ∧
    (report E o n false spans = some r → r.Pairwise (· < ·) ∧ ∀ i, i ∈ r ↔ ∃ t, spans[i]? = some t ∧ ¬ Allowed E o t) := by
  refine ⟨rfl, ?_⟩
  simp only [report, Bool.false_eq_true, if_false]
  suffices ∀ k r, reportSpans E o n spans k = some r →
      r.Pairwise (· < ·) ∧ ∀ i, i ∈ r ↔ k ≤ i ∧ ∃ t, spans[i - k]? = some t ∧ ¬ Allowed E o t by
    intro h
    simpa using this 0 r h
  induction spans with
  | nil => intro k r h; simp [reportSpans] at h; subst h; simp
  | cons t ts ih =>
    intro k r h
    simp only [reportSpans] at h
    cases hb : isTypeAllowed E o n t with
    | none => simp [hb] at h
    | some b =>
      simp only [hb, Option.map_eq_some_iff] at h
      obtain ⟨r', h', rfl⟩ := h
      obtain ⟨hs, hm⟩ := ih (k + 1) r' h'
      have hsp := C65_exact E o n t b hb
      have hidx : ∀ i, k + 1 ≤ i → (t :: ts)[i - k]? = ts[i - (k + 1)]? := by
        intro i hi
        obtain ⟨j, rfl⟩ := Nat.exists_eq_add_of_le hi
        rw [show k + 1 + j - k = j + 1 by omega, show k + 1 + j - (k + 1) = j by omega]
        rfl
      have htail : ∀ i, i ∈ r' ↔ k + 1 ≤ i ∧ ∃ u, (t :: ts)[i - k]? = some u ∧ ¬ Allowed E o u := by
        intro i
        rw [hm]
        constructor
        · rintro ⟨hi, u, hu, hn⟩; exact ⟨hi, u, by rw [hidx i hi]; exact hu, hn⟩
        · rintro ⟨hi, u, hu, hn⟩; exact ⟨hi, u, by rw [← hidx i hi]; exact hu, hn⟩
      cases b with
      | true =>
        have hal := hsp.1 rfl
        refine ⟨hs, fun i => ?_⟩
        rw [if_pos rfl, htail]
        constructor
        · rintro ⟨hi, h⟩; exact ⟨by omega, h⟩
        · rintro ⟨hi, u, hu, hn⟩
          rcases Nat.lt_or_ge k i with hlt | hge
          · exact ⟨hlt, u, hu, hn⟩
          · have : i = k := by omega
            subst this
            simp at hu; subst hu
            exact absurd hal hn
      | false =>
        have hal : ¬ Allowed E o t := fun h => by simpa using hsp.2 h
        rw [if_neg (by simp)]
        refine ⟨List.pairwise_cons.2 ⟨fun j hj => ((htail j).1 hj).1, hs⟩, fun i => ?_⟩
        rw [List.mem_cons, htail]
        constructor
        · rintro (rfl | ⟨hi, h⟩)
          · exact ⟨Nat.le_refl _, t, by simp, hal⟩
          · exact ⟨by omega, h⟩
        · rintro ⟨hi, u, hu, hn⟩
          rcases Nat.lt_or_ge k i with hlt | hge
          · exact .inr ⟨hlt, u, hu, hn⟩
          · exact .inl (by omega)

/-! ## Cases: 0 = string, 1 = {}, 2 = null, 3 = 0 | 2, 4 = (0 | 2)[], 5 = 1 & 0, 6 = RegExp, 7 = A where `type A = A[]` -/

def sample : Env Nat where
  shape := fun t => if t = 3 then .union [0, 2] else if t = 5 then .intersection [1, 0] else .other
  has := fun t f => (t == 0 && f == .stringLike) || (t == 2 && f == .nullable)
  listed := fun _ => false
  isArray := fun t => t == 4 || t == 7
  element := fun t => if t = 4 then 3 else 7
  regexp := 6

example : (List.range 7).map (isTypeAllowed sample {} 3) = [some true, some false, some true, some true, some false, some true, some true] := by decide
example : (List.range 7).map (isTypeAllowed sample { allowArray := true, allowNullish := false } 3) =
    [some true, some false, some false, some false, some false, some true, some true] := by decide
example : isTypeAllowed sample { allowArray := true } 3 4 = some true := by decide
example : report sample {} 3 false [0, 1, 4, 3] = some [1, 2] := by decide
example : Allowed sample { allowArray := true } 4 := (C65_exact sample _ 3 4 true (by decide)).1 rfl
example : ¬ Allowed sample {} 4 := fun h => by simpa using (C65_exact sample {} 3 4 false (by decide)).2 h
example (n : Nat) : isTypeAllowed sample { allowArray := true } n 7 = none :=
  C65_diverges sample _ 7 rfl rfl rfl rfl rfl (fun f => by cases f <;> rfl) n
example : Acc (ElementOf sample) 4 := by
  refine ⟨_, ?_⟩
  rintro u ⟨p, q, hp, hq, ha, rfl⟩
  have hp' := (mem_unionParts sample.shape _ _).2 hp
  simp [unionParts, sample] at hp'; subst hp'
  have hq' := (intersectionParts_mem sample.shape _ _).2 hq
  simp [intersectionParts, sample] at hq'; subst hq'
  refine ⟨_, ?_⟩
  rintro u ⟨p, q, hp, hq, ha, rfl⟩
  have hp' := (mem_unionParts sample.shape _ _).2 hp
  simp [unionParts, sample] at hp'
  rcases hp' with rfl | rfl <;>
  · have hq' := (intersectionParts_mem sample.shape _ _).2 hq
    simp [intersectionParts, sample] at hq'; subst hq'
    simp [sample] at ha

end Tsgolint.RestrictTemplate
