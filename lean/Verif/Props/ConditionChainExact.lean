import Verif.Spec.ConditionChainTypes
import Verif.Props.ConditionChain
/-!
# C120: the types `?.` is judged by, exactly
-/
namespace Tsgolint.Condition

theorem filter_head (l : List Ty) (u : Ty) : (l.filter fun t => !nullish t).head? = some u ↔
    ∃ pre post, l = pre ++ u :: post ∧ (∀ p ∈ pre, nullish p = true) ∧ nullish u = false := by
  induction l with
  | nil => simp
  | cons t l ih =>
    cases hn : nullish t with
    | true =>
      rw [List.filter_cons_of_neg (by simp [hn]), ih]
      constructor
      · rintro ⟨pre, post, rfl, h1, h2⟩
        exact ⟨t :: pre, post, rfl, by simpa [hn] using h1, h2⟩
      · rintro ⟨pre, post, h, h1, h2⟩
        cases pre with
        | nil => cases h; rw [hn] at h2; cases h2
        | cons q pre =>
          cases h
          exact ⟨pre, post, rfl, fun p hp => h1 p (.tail _ hp), h2⟩
    | false =>
      rw [List.filter_cons_of_pos (by simp [hn])]
      simp only [List.head?_cons, Option.some.injEq]
      constructor
      · rintro rfl
        exact ⟨[], l, rfl, by simp, hn⟩
      · rintro ⟨pre, post, h, h1, h2⟩
        cases pre with
        | nil => cases h; rfl
        | cons q pre =>
          cases h
          rw [h1 t (.head _)] at hn
          cases hn

/-- What is left of a type without its nullish parts: the first of the others -/
theorem removeNullish_iff (t u : Ty) : removeNullish t = some u ↔ FirstPart t u := by
  unfold FirstPart
  rw [← filter_head]
  cases t
  case union ts => rfl
  all_goals
    simp only [parts, removeNullish, Ty.nullishLeaf]
    simp [List.filter, nullish, Ty.nullishLeaf]

theorem firstPart_unique {t u v : Ty} (hu : FirstPart t u) (hv : FirstPart t v) : u = v := by
  rw [← removeNullish_iff] at hu hv
  exact Option.some.inj (hu.symm.trans hv)

theorem someOptional_paren (e : Node) : SomeOptional (.paren e) ↔ SomeOptional e := by
  unfold SomeOptional
  constructor
  · rintro ⟨x, hx, h⟩
    cases hx with
    | here => rcases h with ⟨_, _, _, h⟩ | ⟨_, _, _, h⟩ | ⟨_, _, h⟩ <;> cases h
    | paren hx => exact ⟨x, hx, h⟩
  · rintro ⟨x, hx, h⟩; exact ⟨x, .paren hx, h⟩

theorem hasOptional_iff : ∀ e : Node, e.hasOptional = true ↔ SomeOptional e
  | .root n => by
    refine ⟨fun h => (nomatch h), ?_⟩
    rintro ⟨x, hx, h⟩
    cases hx
    rcases h with ⟨_, _, _, h⟩ | ⟨_, _, _, h⟩ | ⟨_, _, h⟩ <;> cases h
  | .paren e => by rw [Node.hasOptional, hasOptional_iff e, someOptional_paren]
  | .property s e n o => by
    rw [Node.hasOptional]
    cases o with
    | true => exact ⟨fun _ => ⟨_, .here _, .inl ⟨s, e, n, rfl⟩⟩, fun _ => rfl⟩
    | false =>
      rw [if_neg (by simp), hasOptional_iff e]
      constructor
      · rintro ⟨x, hx, h⟩; exact ⟨x, .property s n false hx, h⟩
      · rintro ⟨x, hx, h⟩
        cases hx with
        | here => rcases h with ⟨_, _, _, h⟩ | ⟨_, _, _, h⟩ | ⟨_, _, h⟩ <;> cases h
        | property _ _ _ hx => exact ⟨x, hx, h⟩
  | .element s e n o => by
    rw [Node.hasOptional]
    cases o with
    | true => exact ⟨fun _ => ⟨_, .here _, .inr (.inl ⟨s, e, n, rfl⟩)⟩, fun _ => rfl⟩
    | false =>
      rw [if_neg (by simp), hasOptional_iff e]
      constructor
      · rintro ⟨x, hx, h⟩; exact ⟨x, .element s n false hx, h⟩
      · rintro ⟨x, hx, h⟩
        cases hx with
        | here => rcases h with ⟨_, _, _, h⟩ | ⟨_, _, _, h⟩ | ⟨_, _, h⟩ <;> cases h
        | element _ _ _ hx => exact ⟨x, hx, h⟩
  | .call s e o => by
    rw [Node.hasOptional]
    cases o with
    | true => exact ⟨fun _ => ⟨_, .here _, .inr (.inr ⟨s, e, rfl⟩)⟩, fun _ => rfl⟩
    | false =>
      rw [if_neg (by simp), hasOptional_iff e]
      constructor
      · rintro ⟨x, hx, h⟩; exact ⟨x, .call s false hx, h⟩
      · rintro ⟨x, hx, h⟩
        cases hx with
        | here => rcases h with ⟨_, _, _, h⟩ | ⟨_, _, _, h⟩ | ⟨_, _, h⟩ <;> cases h
        | call _ _ hx => exact ⟨x, hx, h⟩

theorem found_none (T : Types) (b : Ty) (name : String) : T.found b name = none ↔ NoProperty T b name := by
  unfold Types.found NoProperty
  cases T.property b name with
  | some p => simp
  | none => cases ha : T.apparent b <;> simp

theorem stringIndexOf_none (T : Types) (b : Ty) : T.stringIndexOf b = none ↔ NoStringIndex T b := by
  unfold Types.stringIndexOf NoStringIndex
  cases T.stringIndex b with
  | some p => simp
  | none => cases ha : T.apparent b <;> simp

/-- The property of a type that is not nullish -/
theorem propertyOf_iff (T : Types) (b : Ty) (whole : Node) (name : String) (t : Ty) :
    (if name = "" then T.at whole else match T.found b name with
      | some p => some p
      | none => T.fromIndex b whole name) = some t ↔ PropertyType T b whole name t := by
  by_cases hn : name = ""
  · rw [if_pos hn]
    constructor
    · exact fun h => .nameless t hn h
    · intro h
      cases h with
      | nameless _ _ h => exact h
      | own _ h => exact absurd hn h
      | apparent _ _ h => exact absurd hn h
      | index _ h => exact absurd hn h
      | apparentIndex _ _ h => exact absurd hn h
      | mapped _ h => exact absurd hn h
      | location _ h => exact absurd hn h
  · rw [if_neg hn]
    cases hf : T.found b name with
    | some p =>
      simp only [Option.some.injEq]
      have hex : ¬ NoProperty T b name := by rw [← found_none, hf]; simp
      unfold Types.found at hf
      constructor
      · rintro rfl
        cases hp : T.property b name with
        | some q => rw [hp] at hf; cases hf; exact .own _ hn hp
        | none =>
          rw [hp] at hf
          obtain ⟨a, ha, hf⟩ := Option.bind_eq_some_iff.1 hf
          exact .apparent a _ hn hp ha hf
      · intro h
        cases h with
        | nameless _ h => exact absurd h hn
        | own _ _ h => rw [h] at hf; exact (Option.some.inj hf).symm
        | apparent a _ _ h1 h2 h3 =>
          rw [h1, h2] at hf
          exact (Option.some.inj (hf.symm.trans h3))
        | index _ _ h => exact absurd h hex
        | apparentIndex _ _ _ h => exact absurd h hex
        | mapped _ _ h => exact absurd h hex
        | location _ _ h => exact absurd h hex
    | none =>
      have hno := (found_none T b name).1 hf
      simp only
      unfold Types.fromIndex
      cases hs : T.stringIndexOf b with
      | some i =>
        have hex : ¬ NoStringIndex T b := by rw [← stringIndexOf_none, hs]; simp
        simp only
        unfold Types.stringIndexOf at hs
        constructor
        · intro h
          by_cases hu : T.noUnchecked = true
          · rw [if_pos hu] at h; cases h
          · rw [if_neg hu] at h
            cases h
            have hu : T.noUnchecked = false := by simpa using hu
            cases hi : T.stringIndex b with
            | some q => rw [hi] at hs; cases hs; exact .index _ hn hno hi hu
            | none =>
              rw [hi] at hs
              obtain ⟨a, ha, hs⟩ := Option.bind_eq_some_iff.1 hs
              exact .apparentIndex a _ hn hno hi ha hs hu
        · intro h
          cases h with
          | nameless _ h => exact absurd h hn
          | own _ _ h => rw [hno.1] at h; cases h
          | apparent a _ _ h1 h2 h3 => rw [hno.2 a h2] at h3; cases h3
          | index _ _ _ h hu => rw [hu, if_neg (by simp)]; rw [h] at hs; exact hs.symm
          | apparentIndex a _ _ _ h1 h2 h3 hu =>
            rw [hu, if_neg (by simp)]
            rw [h1, h2] at hs
            exact hs.symm.trans h3
          | mapped _ _ _ h => exact absurd h hex
          | location _ _ _ h => exact absurd h hex
      | none =>
        have hni := (stringIndexOf_none T b).1 hs
        simp only
        constructor
        · intro h
          by_cases hm : T.mapped b = true
          · rw [if_pos hm] at h
            unfold Types.mappedMember at h
            cases hmem : T.member b name with
            | none => rw [hmem] at h; cases h
            | some x =>
              obtain ⟨o, u⟩ := x
              rw [hmem] at h
              cases o with
              | true => cases h
              | false => cases h; exact .mapped _ hn hno hni hm hmem
          · rw [if_neg hm] at h
            exact .location t hn hno hni (by simpa using hm) h
        · intro h
          cases h with
          | nameless _ h => exact absurd h hn
          | own _ _ h => rw [hno.1] at h; cases h
          | apparent a _ _ h1 h2 h3 => rw [hno.2 a h2] at h3; cases h3
          | index _ _ _ h hu => rw [hni.1] at h; cases h
          | apparentIndex a _ _ _ h1 h2 h3 hu => rw [hni.2 a h2] at h3; cases h3
          | mapped _ _ _ _ hm h =>
            rw [hm, if_pos rfl, Types.mappedMember, h]
            rfl
          | location _ _ _ _ hm h => rw [hm, if_neg (by simp)]; exact h

/-- **C120** The type of `b.name` where `b` is not nullish: that of the property of `b`, or else of its apparent type; or else of a string index, not with `noUncheckedIndexedAccess`; or else of a member of a mapped type that is not optional; or else, not for mapped types, that at the location -/
theorem propertyType_iff (T : Types) (base : Ty) (whole : Node) (name : String) (t : Ty) :
    T.propertyFrom base whole name = some t ↔ ∃ b, FirstPart base b ∧ PropertyType T b whole name t := by
  unfold Types.propertyFrom
  rw [Option.bind_eq_some_iff]
  refine exists_congr fun b => ?_
  rw [removeNullish_iff]
  exact and_congr Iff.rfl (propertyOf_iff T b whole name t)

theorem calleeReturn_iff (T : Types) (whole : Node) (f t : Ty) : T.calleeReturn whole f = some t ↔ CalleeType T whole f t := by
  have hplain : (∀ ts, f ≠ .union ts) → ((T.signatures f).head? = some t ↔ CalleeType T whole f t) := by
    intro hu
    constructor
    · exact fun h => .first t (fun ts h' => absurd h' (hu ts)) h
    · intro h
      cases h with
      | first _ _ h => exact h
      | location ts _ _ _ h => exact absurd h (hu ts)
  cases f
  case union ts =>
    rw [show T.calleeReturn whole (.union ts) = if (ts.any fun t => (T.signatures t).head?.any nullish) = true then T.at whole else (T.signatures (.union ts)).head? from rfl]
    by_cases hany : (ts.any fun t => (T.signatures t).head?.any nullish) = true
    · rw [if_pos hany]
      obtain ⟨p, hp, h⟩ := List.any_eq_true.1 hany
      obtain ⟨r, hr, hrn⟩ : ∃ r, (T.signatures p).head? = some r ∧ nullish r = true := by
        cases hr : (T.signatures p).head? with
        | none => rw [hr] at h; cases h
        | some r => rw [hr] at h; exact ⟨r, rfl, h⟩
      constructor
      · exact fun h => .location ts p r t rfl hp hr hrn h
      · intro h
        cases h with
        | first _ h => have := h ts rfl p hp r hr; rw [hrn] at this; cases this
        | location _ _ _ _ _ _ _ _ h => exact h
    · rw [if_neg hany]
      have hnone : ∀ p ∈ ts, ∀ r, (T.signatures p).head? = some r → nullish r = false := by
        intro p hp r hr
        cases hn : nullish r with
        | false => rfl
        | true => exact absurd (List.any_eq_true.2 ⟨p, hp, by rw [hr]; exact hn⟩) hany
      constructor
      · intro h; exact .first t (fun us h' => by cases h'; exact hnone) h
      · intro h
        cases h with
        | first _ _ h => exact h
        | location us p r _ h hp hr hn => cases h; rw [hnone p hp r hr] at hn; cases hn
  all_goals exact hplain (by simp)

theorem fromCallee_iff (T : Types) (whole e : Node) (t : Ty) : T.fromCallee whole e = some t ↔
    ∃ f g, T.resolved e = some f ∧ FirstPart f g ∧ CalleeType T whole g t := by
  unfold Types.fromCallee
  simp only [Option.bind_eq_some_iff, removeNullish_iff, calleeReturn_iff]
  constructor
  · rintro ⟨g, ⟨f, h1, h2⟩, h3⟩; exact ⟨f, g, h1, h2, h3⟩
  · rintro ⟨f, g, h1, h2, h3⟩; exact ⟨g, ⟨f, h1, h2⟩, h3⟩

theorem own_iff (s : Nat) (e : Node) (o : Bool) : (!o && !e.hasOptional) = true ↔ ¬ SomeOptional (.call s e o) := by
  rw [← hasOptional_iff, Node.hasOptional]
  cases o <;> simp

/-- **C120** The type of a call: its own if there is no `?.` in it; otherwise what its signature returns; otherwise what the first signature of what is called returns -/
theorem callType_iff (T : Types) (s : Nat) (e : Node) (o : Bool) (t : Ty) :
    T.callReturn (.call s e o) = some t ↔ CallType T (.call s e o) e t := by
  rw [show T.callReturn (.call s e o) = match (if (!o && !e.hasOptional) = true then T.resolved (.call s e o) else none) with
    | some t => some t
    | none => match T.signature (.call s e o) with
      | some t => some t
      | none => T.fromCallee (.call s e o) e from rfl]
  have hrest : ((SomeOptional (.call s e o) ∨ T.resolved (.call s e o) = none)) →
      ((match T.signature (.call s e o) with
      | some t => some t
      | none => T.fromCallee (.call s e o) e) = some t ↔ CallType T (.call s e o) e t) := by
    intro hor
    have hown : ∀ u, ¬ (¬ SomeOptional (.call s e o) ∧ T.resolved (.call s e o) = some u) := by
      rintro u ⟨h1, h2⟩
      rcases hor with h | h
      · exact h1 h
      · rw [h] at h2; cases h2
    cases hs : T.signature (.call s e o) with
    | some u =>
      simp only [Option.some.injEq]
      constructor
      · rintro rfl; exact .signature _ hor hs
      · intro h
        cases h with
        | own _ h1 h2 => exact absurd ⟨h1, h2⟩ (hown t)
        | signature _ _ h => exact Option.some.inj (hs.symm.trans h)
        | callee _ _ _ _ h => rw [hs] at h; cases h
    | none =>
      simp only
      rw [fromCallee_iff]
      constructor
      · rintro ⟨f, g, h1, h2, h3⟩; exact .callee f g t hor hs h1 h2 h3
      · intro h
        cases h with
        | own _ h1 h2 => exact absurd ⟨h1, h2⟩ (hown t)
        | signature _ _ h => rw [hs] at h; cases h
        | callee f g _ _ _ h1 h2 h3 => exact ⟨f, g, h1, h2, h3⟩
  by_cases hc : (!o && !e.hasOptional) = true
  · rw [if_pos hc]
    have hno := (own_iff s e o).1 hc
    cases hr : T.resolved (.call s e o) with
    | some u =>
      simp only [Option.some.injEq]
      constructor
      · rintro rfl; exact .own _ hno hr
      · intro h
        cases h with
        | own _ _ h => exact Option.some.inj (hr.symm.trans h)
        | signature _ h =>
          rcases h with h | h
          · exact absurd h hno
          · rw [hr] at h; cases h
        | callee _ _ _ h =>
          rcases h with h | h
          · exact absurd h hno
          · rw [hr] at h; cases h
    | none => exact hrest (.inr hr)
  · rw [if_neg hc]
    refine hrest (.inl ?_)
    rw [own_iff s e o] at hc
    exact Classical.not_not.1 hc

theorem callType_none (T : Types) (s : Nat) (e : Node) (o : Bool) :
    T.callReturn (.call s e o) = none ↔ ∀ u, ¬ CallType T (.call s e o) e u := by
  rw [Option.eq_none_iff_forall_ne_some]
  exact forall_congr' fun u => not_congr (callType_iff T s e o u)

theorem propertyFrom_none (T : Types) (b : Ty) (whole : Node) (name : String) :
    T.propertyFrom b whole name = none ↔ ∀ v w, FirstPart b v → ¬ PropertyType T v whole name w := by
  rw [Option.eq_none_iff_forall_ne_some]
  constructor
  · intro h v w hv hp; exact h w ((propertyType_iff T b whole name w).2 ⟨v, hv, hp⟩)
  · intro h w hw
    obtain ⟨v, hv, hp⟩ := (propertyType_iff T b whole name w).1 hw
    exact h v w hv hp

/-- **C120** The type of `e?.name` where `e` is not nullish: that of the property; if nothing is known of it the type at the location, of a mapped type without `?` its first part that is not nullish -/
theorem chainedType_iff (T : Types) (b : Ty) (whole : Node) (name : String) (t : Ty) :
    T.chainedProperty b whole name = some t ↔ ChainedType T b whole name t := by
  unfold Types.chainedProperty
  cases hp : T.propertyFrom b whole name with
  | some u =>
    obtain ⟨v, hv, hu⟩ := (propertyType_iff T b whole name u).1 hp
    have hex : ¬ ∀ v w, FirstPart b v → ¬ PropertyType T v whole name w := fun h => h v u hv hu
    simp only [Option.some.injEq]
    constructor
    · rintro rfl; exact .property v _ hv hu
    · intro h
      cases h with
      | property v' _ hv' h =>
        exact Option.some.inj (hp.symm.trans ((propertyType_iff T b whole name t).2 ⟨v', hv', h⟩))
      | mapped _ _ h => exact absurd h hex
      | location _ h => exact absurd h hex
  | none =>
    have hno := (propertyFrom_none T b whole name).1 hp
    simp only
    unfold Types.chainedMapped
    rw [Option.bind_eq_some_iff]
    constructor
    · rintro ⟨u, hu, h⟩
      by_cases hc : (!T.noUnchecked && T.mapped b && !T.mappedOptional b) = true
      · rw [if_pos hc] at h
        simp only [Bool.and_eq_true, Bool.not_eq_true'] at hc
        exact .mapped u t hno hu hc.1.1 hc.1.2 hc.2 ((removeNullish_iff u t).1 h)
      · rw [if_neg hc] at h
        cases h
        refine .location _ hno hu ?_
        cases h1 : T.noUnchecked <;> cases h2 : T.mapped b <;> cases h3 : T.mappedOptional b <;> simp_all
    · intro h
      cases h with
      | property v _ hv h => exact absurd h (hno v t hv)
      | mapped u _ _ hu h1 h2 h3 h4 => exact ⟨u, hu, by rw [h1, h2, h3]; exact (removeNullish_iff u t).2 h4⟩
      | location _ _ hu h =>
        refine ⟨t, hu, ?_⟩
        rw [if_neg]
        rcases h with h | h | h <;> rw [h] <;> simp

theorem callOperand_iff (T : Types) (s : Nat) (e : Node) (o : Bool) (t : Ty) :
    T.ofCall (.call s e o) = some t ↔ CallOperand T (.call s e o) e t := by
  unfold Types.ofCall
  cases hc : T.callReturn (.call s e o) with
  | some u =>
    have hu := (callType_iff T s e o u).1 hc
    simp only [Option.some.injEq]
    constructor
    · rintro rfl; exact .call _ hu
    · intro h
      cases h with
      | call h => exact Option.some.inj (hc.symm.trans ((callType_iff T s e o t).2 h))
      | location h => exact absurd hu (h u)
  | none =>
    have hno := (callType_none T s e o).1 hc
    simp only
    constructor
    · exact fun h => .location t hno h
    · intro h
      cases h with
      | call h => exact absurd h (hno t)
      | location _ h => exact h

theorem callBase_iff (T : Types) (s : Nat) (c : Node) (o : Bool) (b : Ty) :
    ((match T.callReturn (.call s c o) with
      | some t => some t
      | none => T.at (.call s c o)).bind removeNullish) = some b ↔
    ∃ r, (CallType T (.call s c o) c r ∨ ((∀ x, ¬ CallType T (.call s c o) c x) ∧ T.at (.call s c o) = some r)) ∧ FirstPart r b := by
  rw [Option.bind_eq_some_iff]
  refine exists_congr fun r => and_congr ?_ (removeNullish_iff r b)
  cases hc : T.callReturn (.call s c o) with
  | some u =>
    have hu := (callType_iff T s c o u).1 hc
    simp only [Option.some.injEq]
    constructor
    · rintro rfl; exact .inl hu
    · rintro (h | ⟨h, _⟩)
      · exact Option.some.inj (hc.symm.trans ((callType_iff T s c o r).2 h))
      · exact absurd hu (h u)
  | none =>
    have hno := (callType_none T s c o).1 hc
    simp only
    constructor
    · exact fun h => .inr ⟨hno, h⟩
    · rintro (h | ⟨_, h⟩)
      · exact absurd h (hno r)
      · exact h

theorem callAccess_property (T : Types) (s s' : Nat) (c : Node) (o o' : Bool) (name : String) (t : Ty) :
    T.callProperty (.call s' c o) (.property s (.call s' c o) name o') = some t ↔
      CallAccess T (.call s' c o) c (.property s (.call s' c o) name o') t := by
  unfold Types.callProperty
  rw [Option.bind_eq_some_iff]
  constructor
  · rintro ⟨b, hb, h⟩
    obtain ⟨r, hr, hrb⟩ := (callBase_iff T s' c o b).1 hb
    obtain ⟨u, hu, hp⟩ := (propertyType_iff T b _ name t).1 h
    exact .property s name o' r b u t rfl hr hrb hu hp
  · intro h
    cases h with
    | property _ _ _ r b u _ h1 h2 h3 h4 h5 =>
      cases h1
      exact ⟨b, (callBase_iff T s' c o b).2 ⟨r, h2, h3⟩, (propertyType_iff T b _ name t).2 ⟨u, h4, h5⟩⟩
    | element _ _ _ _ _ _ h1 => cases h1

theorem callAccess_element (T : Types) (s s' : Nat) (c : Node) (o o' : Bool) (key : Option Key) (t : Ty) :
    T.callProperty (.call s' c o) (.element s (.call s' c o) key o') = some t ↔
      CallAccess T (.call s' c o) c (.element s (.call s' c o) key o') t := by
  unfold Types.callProperty
  rw [Option.bind_eq_some_iff]
  constructor
  · rintro ⟨b, hb, h⟩
    obtain ⟨r, hr, hrb⟩ := (callBase_iff T s' c o b).1 hb
    exact .element s key o' r b t rfl hr hrb h
  · intro h
    cases h with
    | property _ _ _ _ _ _ _ h1 => cases h1
    | element _ _ _ r b _ h1 h2 h3 h4 =>
      cases h1
      exact ⟨b, (callBase_iff T s' c o b).2 ⟨r, h2, h3⟩, h4⟩

theorem isCall_cases (e : Node) : (∃ s c o, e = .call s c o) ∨ (e.isCall = false ∧ ∀ s c o, e ≠ .call s c o) := by
  cases e with
  | call s c o => exact .inl ⟨s, c, o, rfl⟩
  | root n => exact .inr ⟨rfl, by simp⟩
  | paren e => exact .inr ⟨rfl, by simp⟩
  | property s e n o => exact .inr ⟨rfl, by simp⟩
  | element s e n o => exact .inr ⟨rfl, by simp⟩

/-- **C120** The type of every operand but `e?.[k]` -/
theorem operandType_iff (T : Types) (e : Node) (h : ∀ s b key, e ≠ .element s b key true) (j : Judgement) :
    T.operandType e = some j ↔ ∃ t, OperandType T e t ∧ j = ⟨t, []⟩ := by
  have hmap : ∀ (x : Option Ty), (∀ t, x = some t ↔ OperandType T e t) → (x.map named = some j ↔ ∃ t, OperandType T e t ∧ j = ⟨t, []⟩) := by
    intro x hx
    rw [Option.map_eq_some_iff]
    refine exists_congr fun t => ?_
    rw [hx t]
    exact and_congr Iff.rfl ⟨fun h => h.symm, fun h => h.symm⟩
  cases e with
  | root n =>
    refine hmap (T.resolved (.root n)) fun t => ⟨fun h => .other _ t (by simp) (by simp) (by simp) h, fun h => ?_⟩
    cases h with
    | other _ _ _ _ _ h => exact h
  | paren e =>
    refine hmap (T.resolved (.paren e)) fun t => ⟨fun h => .other _ t (by simp) (by simp) (by simp) h, fun h => ?_⟩
    cases h with
    | other _ _ _ _ _ h => exact h
  | property s e name o =>
    cases o with
    | true =>
      refine hmap (((T.resolved e).bind removeNullish).bind fun b => T.chainedProperty b (.property s e name true) name) fun t => ?_
      simp only [Option.bind_eq_some_iff, removeNullish_iff, chainedType_iff]
      constructor
      · rintro ⟨b, ⟨f, h1, h2⟩, h3⟩; exact .chained s e name f b t h1 h2 h3
      · intro h
        cases h with
        | other _ _ h => exact absurd rfl (h s e name true)
        | chained _ _ _ f b _ h1 h2 h3 => exact ⟨b, ⟨f, h1, h2⟩, h3⟩
    | false =>
      refine hmap (T.ofAccess e (.property s e name false)) fun t => ?_
      unfold Types.ofAccess
      rcases isCall_cases e with ⟨s', c, o, rfl⟩ | ⟨hc, hne⟩
      · rw [if_pos (show (Node.call s' c o).isCall = true from rfl), callAccess_property]
        constructor
        · exact fun h => .propertyOfCall s s' c o name t h
        · intro h
          cases h with
          | other _ _ h => exact absurd rfl (h _ _ _ _)
          | property _ _ _ _ h => exact absurd rfl (h s' c o)
          | propertyOfCall _ _ _ _ _ _ h => exact h
      · rw [hc, if_neg (by simp)]
        constructor
        · exact fun h => .property s e name t hne h
        · intro h
          cases h with
          | other _ _ h => exact absurd rfl (h _ _ _ _)
          | property _ _ _ _ _ h => exact h
          | propertyOfCall _ s' c o => exact absurd rfl (hne s' c o)
  | element s e key o =>
    cases o with
    | true => exact absurd rfl (h s e key)
    | false =>
      refine hmap (T.ofAccess e (.element s e key false)) fun t => ?_
      unfold Types.ofAccess
      rcases isCall_cases e with ⟨s', c, o, rfl⟩ | ⟨hc, hne⟩
      · rw [if_pos (show (Node.call s' c o).isCall = true from rfl), callAccess_element]
        constructor
        · exact fun h => .elementOfCall s s' c o key t h
        · intro h
          cases h with
          | other _ _ _ h => exact absurd rfl (h _ _ _ _)
          | element _ _ _ _ h => exact absurd rfl (h s' c o)
          | elementOfCall _ _ _ _ _ _ h => exact h
      · rw [hc, if_neg (by simp)]
        constructor
        · exact fun h => .element s e key t hne h
        · intro h
          cases h with
          | other _ _ _ h => exact absurd rfl (h _ _ _ _)
          | element _ _ _ _ _ h => exact h
          | elementOfCall _ s' c o => exact absurd rfl (hne s' c o)
  | call s e o =>
    cases o with
    | true =>
      refine hmap (((T.resolved e).bind removeNullish).bind fun _ => T.ofCall (.call s e true)) fun t => ?_
      simp only [Option.bind_eq_some_iff, removeNullish_iff, callOperand_iff]
      constructor
      · rintro ⟨b, ⟨f, h1, h2⟩, h3⟩; exact .chainedCall s e f b t h1 h2 h3
      · intro h
        cases h with
        | other _ _ _ _ h => exact absurd rfl (h s e true)
        | chainedCall _ _ f b _ h1 h2 h3 => exact ⟨b, ⟨f, h1, h2⟩, h3⟩
    | false =>
      refine hmap (T.ofCall (.call s e false)) fun t => ?_
      rw [callOperand_iff]
      constructor
      · exact fun h => .call s e t h
      · intro h
        cases h with
        | other _ _ _ _ h => exact absurd rfl (h s e false)
        | call _ _ _ h => exact h

theorem ownProperty_iff (T : Types) (name : String) (p : Ty) : T.ownProperty name p = true ↔ OwnNullish T name p := by
  unfold Types.ownProperty OwnNullish
  cases hn : nullish p with
  | true => simp
  | false =>
    by_cases hname : name = ""
    · simp [hname]
    · simp only [Bool.false_eq_true, if_false, if_neg hname]
      cases hp : T.property p name with
      | some q => simp [hname]
      | none => simp [hname]

theorem originIn_full (own : Ty → Bool) (x : Option Ty) : originIn own x = true ↔
    ∃ ts, x = some (.union ts) ∧ (∃ t ∈ ts, nullish t = true) ∧ ∀ t ∈ ts, own t = false := by
  constructor
  · intro h
    obtain ⟨ts, h1, h2, h3⟩ := originIn_true h
    exact ⟨ts, h1, (anyNullish_iff ts).1 h3, h2⟩
  · rintro ⟨ts, rfl, h1, h2⟩
    exact (originIn_iff own ts ((anyNullish_iff ts).2 h1)).2 h2

theorem nullishCallee_iff (T : Types) (s : Nat) (e : Node) (o : Bool) : T.nullishCallee e = true ↔ FromBefore T (.call s e o) := by
  constructor
  · intro h
    obtain ⟨ts, h1, h2, h3⟩ := nullishCallee_true h
    exact .call s e o ts h1 ((anyNullish_iff ts).1 h3) h2
  · intro h
    cases h with
    | call _ _ _ ts h1 h2 h3 =>
      unfold Types.nullishCallee
      rw [h1]
      simp only [(anyNullish_iff ts).2 h2, Bool.and_true, Bool.not_eq_true', List.any_eq_false, Bool.not_eq_true]
      exact h3

theorem nullishObject_property (T : Types) (s : Nat) (e : Node) (name : String) (o : Bool) :
    T.nullishObject (.property s e name o) = true ↔ FromBefore T (.property s e name o) := by
  rw [show T.nullishObject (.property s e name o) = originIn (T.ownProperty name) (T.resolved e) from rfl, originIn_full]
  have key : ∀ t, T.ownProperty name t = false ↔ ¬ OwnNullish T name t := fun t => by rw [← ownProperty_iff, Bool.not_eq_true]
  constructor
  · rintro ⟨ts, h1, h2, h3⟩; exact .property s e name o ts h1 h2 fun t ht => (key t).1 (h3 t ht)
  · intro h
    cases h with
    | property _ _ _ _ ts h1 h2 h3 => exact ⟨ts, h1, h2, fun t ht => (key t).2 (h3 t ht)⟩

theorem nullishObject_element (T : Types) (s : Nat) (e : Node) (k : Option Key) (o : Bool) :
    T.nullishObject (.element s e k o) = true ↔ FromBefore T (.element s e k o) := by
  cases k with
  | none =>
    refine ⟨fun h => (nomatch h), fun h => (nomatch h)⟩
  | some k =>
    rw [show T.nullishObject (.element s e (some k) o) = originIn (T.ownElement (T.checker.resolved (T.keyType k.id))) (T.resolved e) from rfl, originIn_full]
    have key : ∀ t, T.ownElement (T.checker.resolved (T.keyType k.id)) t = false ↔
        (nullish t = false → ∀ kt, T.checker.resolved (T.keyType k.id) = some kt → T.nullableProperty t kt = false) := by
      intro t
      unfold Types.ownElement
      cases nullish t with
      | true => simp
      | false =>
        cases T.checker.resolved (T.keyType k.id) with
        | none => simp
        | some kt => simp
    constructor
    · rintro ⟨ts, h1, h2, h3⟩; exact .element s e k o ts h1 h2 fun t ht => (key t).1 (h3 t ht)
    · intro h
      cases h with
      | element _ _ _ _ ts h1 h2 h3 => exact ⟨ts, h1, h2, fun t ht => (key t).2 (h3 t ht)⟩

theorem ownNullable_iff (T : Types) (e : Node) : T.ownNullable e = true ↔ ¬ FromBefore T e := by
  cases e with
  | root n => exact ⟨fun _ h => (nomatch h), fun _ => rfl⟩
  | paren e => exact ⟨fun _ h => (nomatch h), fun _ => rfl⟩
  | property s e n o => rw [← nullishObject_property]; simp [Types.ownNullable]
  | element s e n o => rw [← nullishObject_element]; simp [Types.ownNullable]
  | call s e o => rw [← nullishCallee_iff]; simp [Types.ownNullable]

/-- **C120** `?.` after `e` is needed, or not known not to be: exactly if the type is known and has an open part, or is nullish, and not only because of what is before the last link -/
theorem optionable_iff (T : Types) (e : Node) : T.optionable e = true ↔ Optionable T e := by
  unfold Types.optionable Optionable
  rw [resolved_skip]
  cases hr : T.resolved e with
  | none => simp
  | some t =>
    simp only [Option.some.injEq, exists_eq_left']
    rw [← open_iff, Bool.not_eq_false, ← ownNullable_iff]
    cases alwaysNecessary t with
    | true => simp
    | false => simp [and_comm]

theorem someReturn_iff (T : Types) (e : Node) : T.someReturn e = true ↔ SomeReturn T e := by
  unfold SomeReturn
  cases e with
  | call s c o =>
    rw [show T.someReturn (.call s c o) = (T.resolved c).any fun t => (parts t).any fun p => !p.nullishLeaf && (T.signatures p).head?.any nullish from rfl]
    have hp : ∀ p : Ty, (!p.nullishLeaf && (T.signatures p).head?.any nullish) = true ↔
        (p ≠ .null ∧ p ≠ .undefined ∧ p ≠ .void) ∧ ∃ r, (T.signatures p).head? = some r ∧ nullish r = true := by
      intro p
      rw [Bool.and_eq_true, Bool.not_eq_true', ← Bool.not_eq_true, leaf_iff']
      simp only [not_or, Option.any_eq_true]
    constructor
    · intro h
      obtain ⟨f, hf, h⟩ := (Option.any_eq_true _ _).1 h
      obtain ⟨p, hpm, h⟩ := List.any_eq_true.1 h
      exact ⟨s, c, o, f, rfl, hf, p, hpm, (hp p).1 h⟩
    · rintro ⟨s', c', o', f, h, hf, p, hpm, hh⟩
      cases h
      exact (Option.any_eq_true _ _).2 ⟨f, hf, List.any_eq_true.2 ⟨p, hpm, (hp p).2 hh⟩⟩
  | root n => exact ⟨fun h => (nomatch h), by rintro ⟨_, _, _, _, h, _⟩; cases h⟩
  | paren e => exact ⟨fun h => (nomatch h), by rintro ⟨_, _, _, _, h, _⟩; cases h⟩
  | property s e n o => exact ⟨fun h => (nomatch h), by rintro ⟨_, _, _, _, h, _⟩; cases h⟩
  | element s e n o => exact ⟨fun h => (nomatch h), by rintro ⟨_, _, _, _, h, _⟩; cases h⟩

theorem literalKeys_iff (kt : Ty) (keys : List String) (hne : keys ≠ []) : kt.literalKeys = keys ↔ KeysOf kt keys := by
  have hlits : ∀ ts : List Ty, ts.all Ty.isStringLit = true → (Ty.stringLits ts).map .stringLit = ts := by
    intro ts
    induction ts with
    | nil => intro _; rfl
    | cons t ts ih =>
      intro h
      rw [List.all_cons, Bool.and_eq_true] at h
      obtain ⟨h1, h2⟩ := h
      cases t
      case stringLit s => simp only [Ty.stringLits, List.map_cons, ih h2]
      all_goals exact absurd h1 (by simp [Ty.isStringLit])
  have hback : ∀ ks : List String, (ks.map Ty.stringLit).all Ty.isStringLit = true ∧ Ty.stringLits (ks.map .stringLit) = ks := by
    intro ks
    induction ks with
    | nil => exact ⟨rfl, rfl⟩
    | cons k ks ih => exact ⟨by simp [Ty.isStringLit], by simp only [List.map_cons, Ty.stringLits, ih.2]⟩
  unfold KeysOf
  cases kt
  case stringLit s =>
    simp only [Ty.literalKeys, Ty.stringLit.injEq, reduceCtorEq, or_false]
    constructor
    · rintro rfl; exact ⟨s, rfl, rfl⟩
    · rintro ⟨s', rfl, rfl⟩; rfl
  case union ts =>
    rw [show (Ty.union ts).literalKeys = if ts.all Ty.isStringLit = true then Ty.stringLits ts else [] from rfl]
    simp only [reduceCtorEq, false_and, exists_false, false_or, Ty.union.injEq]
    constructor
    · intro h
      by_cases hall : ts.all Ty.isStringLit = true
      · rw [if_pos hall] at h
        rw [← h, hlits ts hall]
      · rw [if_neg hall] at h; exact absurd h.symm hne
    · rintro rfl
      rw [if_pos (hback keys).1, (hback keys).2]
  all_goals
    simp only [Ty.literalKeys, reduceCtorEq, false_and, exists_false, or_false, iff_false]
    exact fun h => hne h.symm

theorem literal_iff (T : Types) (b : Ty) (key : Option Key) (j : Judgement) :
    ((key.bind fun k => T.keyType k.id).bind fun t => T.literalElement b t.literalKeys) = some j ↔
      ∃ p ps, Literals T b key (p :: ps) ∧ j = ⟨p, addNames [] ((p :: ps).map T.display)⟩ := by
  simp only [Option.bind_eq_some_iff]
  constructor
  · rintro ⟨kt, ⟨k, hk, hkt⟩, h⟩
    unfold Types.literalElement at h
    cases hl : T.literalTypes b kt.literalKeys with
    | none => rw [hl] at h; cases h
    | some ps =>
      rw [hl] at h
      cases ps with
      | nil => cases h
      | cons p ps =>
        cases h
        obtain ⟨h1, h2⟩ := (literalTypes_iff T b _ _).1 hl
        have hne : kt.literalKeys ≠ [] := by intro h; rw [h] at h1; cases h1
        exact ⟨p, ps, ⟨k, kt, kt.literalKeys, hk, hkt, (literalKeys_iff kt _ hne).1 rfl, h1, by simp, h2⟩, rfl⟩
  · rintro ⟨p, ps, ⟨k, kt, keys, hk, hkt, h1, h2, _, h3⟩, rfl⟩
    have hne : keys ≠ [] := by intro h; rw [h] at h2; cases h2
    refine ⟨kt, ⟨k, hk, hkt⟩, ?_⟩
    rw [(literalKeys_iff kt keys hne).2 h1]
    unfold Types.literalElement
    rw [(literalTypes_iff T b keys (p :: ps)).2 ⟨h2, h3⟩]

/-- **C120** The type of `e?.[k]` where `e` is not nullish: those of the properties, if all keys are literals of properties that are not nullish; otherwise that at the location -/
theorem chainedElement_iff (T : Types) (b : Ty) (whole : Node) (key : Option Key) (j : Judgement) :
    T.chainedElement b whole key = some j ↔ (∃ p ps, Literals T b key (p :: ps) ∧ j = ⟨p, addNames [] ((p :: ps).map T.display)⟩) ∨
      ((∀ ps, ¬ Literals T b key ps) ∧ ∃ t, T.at whole = some t ∧ j = ⟨t, []⟩) := by
  have hsome : ∀ ps, Literals T b key ps → ∃ p qs, ps = p :: qs := by
    rintro ps ⟨_, _, _, _, _, _, _, h, _⟩
    exact List.exists_cons_of_ne_nil h
  unfold Types.chainedElement
  cases hl : (key.bind fun k => T.keyType k.id).bind fun t => T.literalElement b t.literalKeys with
  | some i =>
    obtain ⟨p, ps, h1, h2⟩ := (literal_iff T b key i).1 hl
    simp only [Option.some.injEq]
    constructor
    · rintro rfl; exact .inl ⟨p, ps, h1, h2⟩
    · rintro (⟨p', ps', h3, h4⟩ | ⟨h, _⟩)
      · exact Option.some.inj (hl.symm.trans ((literal_iff T b key j).2 ⟨p', ps', h3, h4⟩))
      · exact absurd h1 (h _)
  | none =>
    have hno : ∀ ps, ¬ Literals T b key ps := by
      intro ps h
      obtain ⟨p, qs, rfl⟩ := hsome ps h
      have := (literal_iff T b key _).2 ⟨p, qs, h, rfl⟩
      rw [hl] at this
      cases this
    simp only [Option.map_eq_some_iff]
    constructor
    · rintro ⟨t, ht, rfl⟩; exact .inr ⟨hno, t, ht, rfl⟩
    · rintro (⟨p, ps, h, _⟩ | ⟨_, t, ht, rfl⟩)
      · exact absurd h (hno _)
      · exact ⟨t, ht, rfl⟩

theorem judged_iff (T : Types) (e : Node) (j : Judgement) :
    (∃ i, T.operandType e = some i ∧ T.withoutCallee e i = some j) ↔ JudgedBy T e j.type j.names := by
  have hplain : (∀ s b key, e ≠ .element s b key true) →
      ((∃ i, T.operandType e = some i ∧ T.withoutCallee e i = some j) ↔ JudgedBy T e j.type j.names) := by
    intro hne
    have hw : ∀ u : Ty, T.withoutCallee e ⟨u, []⟩ = some j ↔
        j.names = [] ∧ ((¬ (FromBefore T e ∧ e.isCall = true) ∧ j.type = u) ∨ ((FromBefore T e ∧ e.isCall = true) ∧ FirstPart u j.type)) := by
      intro u
      obtain ⟨jt, jn⟩ := j
      have hoth : e.isCall = false → T.withoutCallee e ⟨u, []⟩ = some ⟨u, []⟩ → (T.withoutCallee e ⟨u, []⟩ = some (Judgement.mk jt jn) ↔
          jn = [] ∧ ((¬ (FromBefore T e ∧ e.isCall = true) ∧ jt = u) ∨ ((FromBefore T e ∧ e.isCall = true) ∧ FirstPart u jt))) := by
        intro hc he
        rw [he, hc]
        simp only [Option.some.injEq, Judgement.mk.injEq, Bool.false_eq_true, and_false, not_false_eq_true, true_and, false_and, or_false]
        constructor
        · rintro ⟨rfl, rfl⟩; exact ⟨rfl, rfl⟩
        · rintro ⟨rfl, rfl⟩; exact ⟨rfl, rfl⟩
      cases e with
      | root n => exact hoth rfl rfl
      | paren e => exact hoth rfl rfl
      | property s e n o => exact hoth rfl rfl
      | element s e n o => exact hoth rfl rfl
      | call s c o =>
        rw [← nullishCallee_iff T s c o, show T.withoutCallee (.call s c o) ⟨u, []⟩ =
          if T.nullishCallee c = true then (removeNullish u).map fun t => ⟨t, []⟩ else some ⟨u, []⟩ from rfl]
        have hic : (Node.call s c o).isCall = true := rfl
        by_cases hn : T.nullishCallee c = true
        · rw [if_pos hn, hn, hic, Option.map_eq_some_iff]
          simp only [removeNullish_iff, Judgement.mk.injEq, and_self, not_true, false_and, false_or, true_and]
          constructor
          · rintro ⟨t, h, rfl, rfl⟩; exact ⟨rfl, h⟩
          · rintro ⟨rfl, h⟩; exact ⟨jt, h, rfl, rfl⟩
        · rw [if_neg hn]
          simp only [hn, Option.some.injEq, Judgement.mk.injEq, Bool.false_eq_true, false_and, not_false_eq_true, true_and, or_false]
          constructor
          · rintro ⟨rfl, rfl⟩; exact ⟨rfl, rfl⟩
          · rintro ⟨rfl, rfl⟩; exact ⟨rfl, rfl⟩
    constructor
    · rintro ⟨i, hi, h⟩
      obtain ⟨t, ht, rfl⟩ := (operandType_iff T e hne i).1 hi
      obtain ⟨hjn, h⟩ := (hw t).1 h
      rw [hjn]
      refine .plain e j.type hne ?_
      rcases h with ⟨h, h'⟩ | ⟨⟨h1, h2⟩, h⟩
      · rw [h']; exact .same t ht h
      · exact .call t _ ht h1 h2 h
    · intro h
      have hfin : j.names = [] ∧ Final T e j.type := by
        obtain ⟨jt, jn⟩ := j
        simp only at h ⊢
        cases h with
        | plain _ _ _ h => exact ⟨rfl, h⟩
        | literals => exact absurd rfl (hne _ _ _)
        | element => exact absurd rfl (hne _ _ _)
      obtain ⟨hjn, hf⟩ := hfin
      cases hf with
      | same _ ht h => exact ⟨⟨j.type, []⟩, (operandType_iff T e hne _).2 ⟨_, ht, rfl⟩, (hw _).2 ⟨hjn, .inl ⟨h, rfl⟩⟩⟩
      | call u _ ht h1 h2 h => exact ⟨⟨u, []⟩, (operandType_iff T e hne _).2 ⟨_, ht, rfl⟩, (hw _).2 ⟨hjn, .inr ⟨⟨h1, h2⟩, h⟩⟩⟩
  by_cases hel : ∃ s b key, e = .element s b key true
  · obtain ⟨s, b, key, rfl⟩ := hel
    rw [show (∃ i, T.operandType (.element s b key true) = some i ∧ T.withoutCallee (.element s b key true) i = some j) ↔
      (((T.resolved b).bind removeNullish).bind fun u => T.chainedElement u (.element s b key true) key) = some j from
        ⟨fun ⟨i, h1, h2⟩ => by cases h2; exact h1, fun h => ⟨j, h, rfl⟩⟩]
    simp only [Option.bind_eq_some_iff, removeNullish_iff, chainedElement_iff]
    constructor
    · rintro ⟨u, ⟨f, hf, hu⟩, ⟨p, ps, h, rfl⟩ | ⟨hno, t, ht, rfl⟩⟩
      · exact .literals s b key f u p ps hf hu h
      · exact .element s b key f u t hf hu hno ht
    · intro h
      have key' : ∀ (x : Node) (jt : Ty) (jn : List String), JudgedBy T x jt jn → x = .element s b key true →
          ∃ u, (∃ f, T.resolved b = some f ∧ FirstPart f u) ∧
            ((∃ p ps, Literals T u key (p :: ps) ∧ (⟨jt, jn⟩ : Judgement) = ⟨p, addNames [] ((p :: ps).map T.display)⟩) ∨
              ((∀ ps, ¬ Literals T u key ps) ∧ ∃ t, T.at (.element s b key true) = some t ∧ (⟨jt, jn⟩ : Judgement) = ⟨t, []⟩)) := by
        intro x jt jn h hx
        cases h with
        | plain _ _ h => exact absurd hx (h s b key)
        | literals _ _ _ f u p ps hf hu h => cases hx; exact ⟨u, ⟨f, hf, hu⟩, .inl ⟨_, ps, h, rfl⟩⟩
        | element _ _ _ f u t hf hu hno ht => cases hx; exact ⟨u, ⟨f, hf, hu⟩, .inr ⟨hno, _, ht, rfl⟩⟩
      exact key' _ _ _ h rfl
  · exact hplain fun s b key h => hel ⟨s, b, key, h⟩

/-- **C120** `?.` after any operand is reported exactly if it is judged (elements that may be out of bounds are not), not needed, and the type it is judged by is clear and has no nullish part; the report names that type -/
theorem operand_iff (T : Types) (e : Node) (r : ChainReport) : T.checkOperand e = some r ↔
    ¬ Skipped T e ∧ ¬ Optionable T e ∧ ¬ SomeReturn T e ∧
      ∃ t names, JudgedBy T e t names ∧ Clear t ∧ nullish t = false ∧ r = ⟨e, ⟨t, names⟩⟩ := by
  rw [checkOperand_iff, ← skips_iff, ← optionable_iff, ← someReturn_iff]
  simp only [Bool.not_eq_true]
  constructor
  · rintro ⟨h1, h2, i, hi, j, hj, h3, h4, h5, rfl⟩
    exact ⟨h1, h2, h3, j.type, j.names, (judged_iff T e j).1 ⟨i, hi, hj⟩, (clear_iff _).1 h4, h5, rfl⟩
  · rintro ⟨h1, h2, h3, t, names, hj, h4, h5, rfl⟩
    obtain ⟨i, hi, hj⟩ := (judged_iff T e ⟨t, names⟩).2 hj
    exact ⟨h1, h2, i, hi, _, hj, h3, (clear_iff _).2 h4, h5, rfl⟩

/-! ### Examples -/

/-- `x?.bar?.baz`, `d?.n?.…`, `a?.[k]?.…` -/
example : ∃ t names, JudgedBy sampleTypes sampleBar t names ∧ Clear t := by
  have h : sampleTypes.checkOperand sampleBar = some ⟨sampleBar, ⟨.object 1, []⟩⟩ := rfl
  obtain ⟨_, _, _, t, names, hj, hc, _⟩ := (operand_iff _ _ _).1 h
  exact ⟨t, names, hj, hc⟩
example : PropertyType richTypes (.object 4) (.property 0 (.root 3) "n" true) "n" (.object 0) :=
  .index _ (by decide) ⟨rfl, fun _ h => (nomatch h)⟩ rfl rfl
example : CallType richTypes (.call 0 (.root 5) false) (.root 5) (.object 2) :=
  .own _ (by rw [← hasOptional_iff]; decide) rfl
example : CallType richTypes (.call 0 (.root 1) true) (.root 1) (.object 2) :=
  .signature _ (.inl ((hasOptional_iff _).1 rfl)) rfl
example : Literals richTypes (.object 2) (some ⟨0, false⟩) [.object 0, .object 3, .object 0] :=
  ⟨⟨0, false⟩, _, ["p", "q", "r"], rfl, rfl, .inr rfl, rfl, by simp, by
    intro p hp
    simp only [List.mem_cons, List.not_mem_nil, or_false] at hp
    rcases hp with rfl | rfl | rfl <;> rfl⟩
example : Optionable sampleTypes (.root 0) := ⟨_, rfl, .inr ⟨rfl, fun h => (nomatch h)⟩⟩

end Tsgolint.Condition
