import Verif.Spec.OptionalEmpty
import Verif.Props.OptionalOperand

/-!
# C116: `(foo || {}).bar`
-/

namespace Tsgolint.OptionalChain

variable {V : Type}

open Expr

theorem isEmptyObject_iff (r : Expr) : isEmptyObject r = true ↔ EmptyObject r := by
  constructor
  · intro h
    unfold isEmptyObject at h
    split at h
    · exact ⟨_, _, .inl rfl⟩
    · exact ⟨_, _, .inr rfl⟩
    · exact absurd h (by decide)
  · rintro ⟨p, t, rfl | rfl⟩ <;> rfl

/-- **C116** What is reported: `||` and `??` with `{}` on the right whose result's member is accessed at once (or which is the key of an access). -/
theorem empty_iff (O : Options) (T : Types) (l : Expr) (o : Op) (t : Text) (r : Expr) (rest : List Around) :
    (emptyCode O T l o t r rest).isSome = true ↔
      (o = .or ∨ o = .nullish) ∧ EmptyObject r ∧ (O.requireNullish = true → .null ∈ T l ∨ .undef ∈ T l) ∧
      ∃ a more, (rest = a :: more ∨ rest = .paren :: a :: more) ∧ ((∃ n, a = .propOf false n) ∨ (∃ x, a = .elemOf false x) ∨ ∃ x, a = .argOf x false) := by
  have hty : (O.requireNullish && !Info.explicitNullish (T l)) = false ↔ (O.requireNullish = true → .null ∈ T l ∨ .undef ∈ T l) := by
    cases O.requireNullish <;> simp [Info.explicitNullish, Info.hasNull, Info.hasUndef]
    by_cases h1 : Part.null ∈ T l <;> simp [h1]
  have hacc : ∀ (node : Expr) (a : Around), (∃ s, a.access node = some (false, s)) ↔ ((∃ n, a = .propOf false n) ∨ (∃ x, a = .elemOf false x) ∨ ∃ x, a = .argOf x false) := by
    intro node a
    cases a <;> simp [Around.access]
  have haround : (∃ s, accessAround (.binary l o t r) rest = some (false, s)) ↔
      ∃ a more, (rest = a :: more ∨ rest = .paren :: a :: more) ∧ ((∃ n, a = .propOf false n) ∨ (∃ x, a = .elemOf false x) ∨ ∃ x, a = .argOf x false) := by
    constructor
    · intro h
      unfold accessAround at h
      split at h
      · rename_i a more; exact ⟨a, more, .inr rfl, (hacc _ _).1 h⟩
      · simp at h
      · rename_i a more h1 h2; exact ⟨a, more, .inl rfl, (hacc _ _).1 h⟩
      · simp at h
    · rintro ⟨a, more, rfl | rfl, h⟩
      · have h' := (hacc (.binary l o t r) a).2 h
        rcases h with ⟨_, rfl⟩ | ⟨_, rfl⟩ | ⟨_, rfl⟩ <;> exact h'
      · exact (hacc (.paren (.binary l o t r)) a).2 h
  rw [← haround, ← isEmptyObject_iff, ← hty]
  unfold emptyCode
  by_cases h1 : (o == .or || o == .nullish) = true
  · have h1' : o = .or ∨ o = .nullish := by simpa using h1
    simp only [h1, Bool.not_true, Bool.false_eq_true, if_false, h1', true_and]
    cases h2 : isEmptyObject r
    · simp
    · simp only [Bool.not_true, Bool.false_eq_true, if_false, true_and]
      cases h3 : (O.requireNullish && !Info.explicitNullish (T l))
      · simp only [Bool.false_eq_true, if_false, true_and]
        cases h4 : accessAround (.binary l o t r) rest with
        | none => simp
        | some q => obtain ⟨b, s⟩ := q; cases b <;> simp
      · simp
  · have h1' : ¬ (o = .or ∨ o = .nullish) := by simpa using h1
    simp [h1, h1']

/-- **C116** Nothing is changed without being asked for, unless the option for unsafe fixes is on. -/
theorem empty_suggested (O : Options) (T : Types) (l : Expr) (o : Op) (t : Text) (r : Expr) (rest : List Around) (isFix : Bool) (code : Text)
    (h : emptyReport O T l o t r rest = some (isFix, code)) : isFix = O.allowUnsafe ∧ emptyCode O T l o t r rest = some code := by
  simp only [emptyReport, Option.map_eq_some_iff, Prod.mk.injEq] at h
  obtain ⟨c, hc, rfl, rfl⟩ := h; exact ⟨rfl, hc⟩

theorem leftText_eq (l : Expr) : leftText l = (wrapped l).text := by
  unfold leftText wrapped; split <;> rfl

/-- **C116** The new text is that of the same access with `?.` to the left side, which gets parentheses if it has an operator. -/
theorem empty_text (O : Options) (T : Types) (l : Expr) (o : Op) (t : Text) (r : Expr) (a : Access) (rest : List Around) (code : Text)
    (h : emptyCode O T l o t r (.paren :: a.around false :: rest) = some code) : code = (a.of true (wrapped l)).text := by
  unfold emptyCode at h
  split at h
  · simp at h
  split at h
  · simp at h
  split at h
  · simp at h
  cases a with
  | name n =>
    simp only [Access.around, accessAround, Around.access, Bool.false_eq_true, if_false, Option.some.injEq, leftText_eq] at h
    rw [← h]; rfl
  | key x =>
    simp only [Access.around, accessAround, Around.access, Bool.false_eq_true, if_false, Option.some.injEq, leftText_eq] at h
    rw [← h]
    show _ = (wrapped l).text ++ "?.[".toList ++ x.text ++ "]".toList
    rw [show "?.[".toList = "?.".toList ++ "[".toList from rfl]
    simp only [List.append_assoc]

/-- **C116** The `?.` can be written there, unless the left side is a type assertion `<T>x`, `x satisfies T` or a `new` without arguments. -/
theorem empty_head (l : Expr) (h : Operandlike l) : Head (wrapped l) ∨ (∃ ty e, l = .assertion ty e) ∨ (∃ p t, l = .other p .satisfies t) ∨ ∃ p t, l = .other p .new t := by
  cases l with
  | assertion ty e => exact .inr (.inl ⟨_, _, rfl⟩)
  | other p k t =>
    cases k with
    | satisfies => exact .inr (.inr (.inl ⟨_, _, rfl⟩))
    | new => exact .inr (.inr (.inr ⟨_, _, rfl⟩))
    | arrow => exact absurd rfl h.1
    | yield => exact absurd rfl h.2
    | conditional => exact .inl trivial
    | delete => exact .inl trivial
    | void => exact .inl trivial
    | «postfix» => exact .inl trivial
    | _ => exact .inl (by simp [wrapped, needsParens, Head])
  | _ => exact .inl trivial

/-- the original's value -/
theorem original_value (W : World V) (obj : V) (hobj : W.Empty obj) (l : Expr) (o : Op) (ho : o = .or ∨ o = .nullish) (t : Text) (r : Expr) (hr : EmptyObject r) :
    (∀ a, W.value l = some a → W.Decides o a → W.eval (.paren (.binary l o t r)) = .val W.undef a) ∧
    (∀ a, W.value l = some a → ¬ W.Decides o a → W.eval (.paren (.binary l o t r)) = .val W.undef obj) ∧
    (W.value l = none → W.eval (.paren (.binary l o t r)) = .fail) := by
  have hrv : (W.eval r).value W = some obj := by
    obtain ⟨p, q, rfl | rfl⟩ := hr
    · rw [World.eval, hobj.2 p]; rfl
    · rw [World.eval, World.eval, hobj.2 p]; rfl
  have ho' : o = .and ∨ o = .or ∨ o = .nullish := .inr ho
  refine ⟨fun a ha hd => ?_, fun a ha hd => ?_, fun h => ?_⟩
  · rw [World.eval, World.eval, show (W.eval l).value W = some a from ha]
    simp only [Res.after, if_pos hd]; rfl
  · rw [World.eval, World.eval, show (W.eval l).value W = some a from ha]
    simp only [Res.after, if_neg hd, hrv, if_pos ho']; rfl
  · rw [World.eval, World.eval, show (W.eval l).value W = none from h]; rfl

theorem access_eval (W : World V) (a : Access) (e : Expr) (u v : V) (h : W.eval e = .val u v) (opt : Bool) (hn : opt = true → ¬ W.Nullish v) :
    W.eval (a.of opt e) = .after (a.get W v) (.val v) := by
  have hc : ¬ (opt = true ∧ W.Nullish v) := fun ⟨h1, h2⟩ => hn h1 h2
  cases a with
  | name n =>
    simp only [Access.of]
    rw [World.eval, h]; simp only [Res.link, if_neg hc]; rfl
  | key x =>
    simp only [Access.of]
    rw [World.eval, h]; simp only [Res.link, if_neg hc, Access.get, World.value]
    cases (W.eval x).value W <;> rfl

theorem access_short (W : World V) (a : Access) (e : Expr) (v : V) (h : W.value e = some v) (hn : W.Nullish v) : W.eval (a.of true e) = .short := by
  cases a with
  | name n =>
    simp only [Access.of]; rw [World.eval]
    cases he : W.eval e with
    | fail => rw [World.value, he] at h; simp [Res.value] at h
    | short => rfl
    | val u w =>
      rw [World.value, he] at h; simp only [Res.value, Option.some.injEq] at h; subst h
      have hc : true = true ∧ W.Nullish w := ⟨rfl, hn⟩
      simp only [Res.link, if_pos hc]
  | key x =>
    simp only [Access.of]; rw [World.eval]
    cases he : W.eval e with
    | fail => rw [World.value, he] at h; simp [Res.value] at h
    | short => rfl
    | val u w =>
      rw [World.value, he] at h; simp only [Res.value, Option.some.injEq] at h; subst h
      have hc : true = true ∧ W.Nullish w := ⟨rfl, hn⟩
      simp only [Res.link, if_pos hc]

theorem access_fail (W : World V) (a : Access) (opt : Bool) (e : Expr) (h : W.eval e = .fail) : W.eval (a.of opt e) = .fail := by
  cases a <;> (simp only [Access.of]; rw [World.eval, h]; rfl)

theorem wrapped_value (W : World V) (l : Expr) : W.value (wrapped l) = W.value l := by
  unfold wrapped; split
  · simp only [World.value]; rw [World.eval]; cases W.eval l <;> rfl
  · rfl

theorem value_cases (W : World V) (e : Expr) (v : V) (h : W.value e = some v) (hn : ¬ W.Nullish v) : ∃ u, W.eval e = .val u v := by
  cases he : W.eval e with
  | fail => rw [World.value, he] at h; simp [Res.value] at h
  | short => rw [World.value, he] at h; simp only [Res.value, Option.some.injEq] at h; exact absurd (.inl h.symm) hn
  | val u w => rw [World.value, he] at h; simp only [Res.value, Option.some.injEq] at h; exact ⟨u, by rw [h]⟩

theorem value_none (W : World V) (e : Expr) (h : W.value e = none) : W.eval e = .fail := by
  cases he : W.eval e with
  | fail => rfl
  | short => rw [World.value, he] at h; simp [Res.value] at h
  | val u w => rw [World.value, he] at h; simp [Res.value] at h

/-- **C116** When the new expression means what the old one did: if the left side throws, or its value is used anyway (and is neither null nor undefined), always, and even when
it is called; if it is null or undefined, just if `{}` has no such member; and if it is falsy otherwise, just if it has the same member as `{}`. -/
theorem empty_meaning (W : World V) (obj : V) (hobj : W.Empty obj) (l : Expr) (o : Op) (ho : o = .or ∨ o = .nullish) (t : Text) (r : Expr) (hr : EmptyObject r) (a : Access) :
    (W.value l = none → W.value (a.of true (wrapped l)) = none ∧ W.value (a.of false (.paren (.binary l o t r))) = none) ∧
    (∀ v, W.value l = some v → W.Decides o v → W.eval (a.of true (wrapped l)) = W.eval (a.of false (.paren (.binary l o t r)))) ∧
    (∀ v, W.value l = some v → W.Nullish v →
      (W.value (a.of true (wrapped l)) = W.value (a.of false (.paren (.binary l o t r))) ↔ a.get W obj = some W.undef)) ∧
    (∀ v, W.value l = some v → ¬ W.Decides o v → ¬ W.Nullish v →
      (W.value (a.of true (wrapped l)) = W.value (a.of false (.paren (.binary l o t r))) ↔ a.get W v = a.get W obj)) := by
  obtain ⟨h1, h2, h3⟩ := original_value W obj hobj l o ho t r hr
  have hwv := wrapped_value W l
  have after_value : ∀ (x : Option V) (u : V), (Res.after x (.val u)).value W = x := by intro x u; cases x <;> rfl
  have decides_defined : ∀ v, W.Decides o v → ¬ W.Nullish v := by
    intro v hd hn
    rcases hd with ⟨rfl, h⟩ | ⟨rfl, h⟩ | ⟨rfl, h⟩
    · rcases ho with h' | h' <;> exact absurd h' (by decide)
    · rcases hn with rfl | rfl
      · rw [W.undef_falsy] at h; exact absurd h (by decide)
      · rw [W.null_falsy] at h; exact absurd h (by decide)
    · exact h hn
  refine ⟨fun h => ?_, fun v hv hd => ?_, fun v hv hn => ?_, fun v hv hd hn => ?_⟩
  · refine ⟨?_, ?_⟩
    · rw [World.value, access_fail W a true _ (value_none W _ (hwv.trans h))]; rfl
    · rw [World.value, access_fail W a false _ (h3 h)]; rfl
  · have hn := decides_defined v hd
    obtain ⟨u, hu⟩ := value_cases W (wrapped l) v (hwv.trans hv) hn
    rw [access_eval W a _ u v hu true (fun _ => hn), access_eval W a _ _ v (h1 v hv hd) false nofun]
  · have hd : ¬ W.Decides o v := fun hd => decides_defined v hd hn
    rw [World.value, World.value, access_short W a _ v (hwv.trans hv) hn, access_eval W a _ _ obj (h2 v hv hd) false nofun, after_value]
    simp only [Res.value]; exact eq_comm
  · obtain ⟨u, hu⟩ := value_cases W (wrapped l) v (hwv.trans hv) hn
    rw [World.value, World.value, access_eval W a _ u v hu true (fun _ => hn), access_eval W a _ _ obj (h2 v hv hd) false nofun, after_value, after_value]

/-- **C116** (a finding) `a[x || {}]` is taken for an access to `x || {}`: it becomes `x?.[x || {}]`, and `a` is lost. -/
theorem key_mistaken (T : Types) (l : Expr) (o : Op) (ho : o = .or ∨ o = .nullish) (t : Text) (r : Expr) (hr : EmptyObject r) (obj : Expr) (rest : List Around) :
    emptyCode {} T l o t r (.argOf obj false :: rest) = some (Expr.elem (wrapped l) true (.binary l o t r)).text := by
  have h1 : (o == .or || o == .nullish) = true := by rcases ho with rfl | rfl <;> rfl
  unfold emptyCode
  simp only [h1, (isEmptyObject_iff r).2 hr, Bool.not_true, Bool.false_eq_true, if_false, accessAround, Around.access, leftText_eq, Bool.false_and, Option.some.injEq]
  show _ = (wrapped l).text ++ "?.[".toList ++ (Expr.binary l o t r).text ++ "]".toList
  rw [show "?.[".toList = "?.".toList ++ "[".toList from rfl]
  simp only [List.append_assoc]

/-- **C116** (a finding) What is around the access is not looked at: `(x || {}).y = 1` becomes `x?.y = 1`, which is no JavaScript. -/
theorem assigned_too (O : Options) (T : Types) (l : Expr) (o : Op) (t : Text) (r : Expr) (a : Access) (opt : Bool) (rest rest' : List Around) :
    emptyCode O T l o t r (.paren :: a.around opt :: rest) = emptyCode O T l o t r (.paren :: a.around opt :: rest') := rfl

/-- **C116** `<T>x` gets no parentheses; the `?.` then goes to `x`, which only changes the type. -/
theorem assertion_kept (W : World V) (ty : Text) (e : Expr) (n : Text) :
    (Expr.prop (wrapped (.assertion ty e)) true n).text = (Expr.assertion ty (.prop e true n)).text ∧
    W.value (Expr.prop (.assertion ty e) true n) = W.value (Expr.assertion ty (.prop e true n)) := by
  constructor
  · show ("<".toList ++ ty ++ ">".toList ++ e.text) ++ "?.".toList ++ n = "<".toList ++ ty ++ ">".toList ++ (e.text ++ "?.".toList ++ n)
    simp only [List.append_assoc]
  · simp only [World.value]
    rw [World.eval, World.eval, World.eval, World.eval]
    cases W.eval e with
    | fail => rfl
    | short => simp [Res.link, Res.close, Res.value, World.Nullish]
    | val u v =>
      simp only [Res.close, Res.link]
      split
      · rfl
      · cases W.get v n <;> rfl

/-! ### A case -/

def sampleEmpty : Expr := .other 7 .emptyObject "{}".toList

example : emptyReport {} (fun _ => []) (sampleVar "foo") .or " || ".toList sampleEmpty [.paren, .propOf false "bar".toList] = some (false, "foo?.bar".toList) := by decide +kernel
example : emptyReport { allowUnsafe := true } (fun _ => []) (.await (sampleVar "foo")) .nullish " ?? ".toList (.paren sampleEmpty) [.paren, .elemOf false (sampleVar "k")] =
    some (true, "(await foo)?.[k]".toList) := by decide +kernel
example : emptyCode {} (fun _ => []) (sampleVar "x") .or " || ".toList sampleEmpty [.argOf (sampleVar "a") false] = some "x?.[x || {}]".toList := by decide +kernel
example : EmptyObject (.paren sampleEmpty) := ⟨7, _, .inr rfl⟩
example : Operandlike (.await (sampleVar "foo")) ∧ Head (wrapped (.await (sampleVar "foo"))) := ⟨trivial, trivial⟩
example : lawfulWorld.Empty (.num 5) := ⟨rfl, fun _ => rfl⟩
example : lawfulWorld.value (sampleVar "x") = some (.num 3) ∧ lawfulWorld.Decides .or (.num 3) ∧ lawfulWorld.value (sampleVar "n") = some .null ∧ lawfulWorld.Nullish .null :=
  ⟨by simp only [World.value, sampleVar]; rw [World.eval]; rfl, .inr (.inl ⟨rfl, rfl⟩), by simp only [World.value, sampleVar]; rw [World.eval]; rfl, .inr rfl⟩

end Tsgolint.OptionalChain
