import Verif.Proof.TypeParameters
import Verif.Proof.StableFix
/-! # Properties of no-unnecessary-type-parameters (C95) -/
namespace Tsgolint.TypeParameters
open Fixer (Bytes Fix ascii AppliesTo Seg Shuffle)
variable {T S N : Type}

/-! ### What a type consists of -/

theorem several_iff (g : Generic) (fromClass many returned : Bool) : g.many fromClass many returned = true ↔ SeveralUses g fromClass many returned := by
  cases g with
  | tuple r => cases r <;> cases fromClass <;> cases many <;> cases returned <;> simp [Generic.many, SeveralUses]
  | array n => cases n <;> cases fromClass <;> cases many <;> cases returned <;> simp [Generic.many, SeveralUses]
  | other => simp [Generic.many, SeveralUses]

theorem signatureParts_iff (s : Signature T) (l : List (Visit T)) : SignatureParts s l ↔ l = s.visits := by
  obtain ⟨this, ps, tps, ret, pred⟩ := s
  constructor
  · intro h
    cases h with
    | with_this h1 h2 =>
      simp only at h1 h2
      rcases h2 with h2 | ⟨h2, rfl⟩ <;> subst h1 h2 <;> rfl
    | without h1 h2 =>
      simp only at h1 h2
      rcases h2 with h2 | ⟨h2, rfl⟩ <;> subst h1 h2 <;> rfl
  · rintro rfl
    cases this <;> cases pred
    · exact .without rfl (.inr ⟨rfl, rfl⟩)
    · exact .without rfl (.inl rfl)
    · exact .with_this rfl (.inr ⟨rfl, rfl⟩)
    · exact .with_this rfl (.inl rfl)

theorem mappedParts_iff (ps : List T) (m : Mapped T) (l : List (Visit T)) : MappedParts ps m l ↔ l = m.visits ps := by
  obtain ⟨tp, te, co⟩ := m
  constructor
  · rintro ⟨h1, h2⟩
    simp only at h1 h2
    rcases h1 with ⟨rfl, rfl⟩ | ⟨t, rfl, rfl⟩ <;> rcases h2 with ⟨h, rfl⟩ | ⟨rfl, ⟨u, rfl, rfl⟩ | ⟨rfl, u, rfl, rfl⟩ | ⟨rfl, rfl, rfl⟩⟩ <;>
      first
        | rfl
        | (cases ps with
           | nil => exact absurd rfl h
           | cons => rfl)
  · rintro rfl
    refine .mk (p := tp.toList.map once) ?_ ?_
    · cases tp
      · exact .inl ⟨rfl, rfl⟩
      · exact .inr ⟨_, rfl, rfl⟩
    · cases ps with
      | cons => exact .inl ⟨by simp, rfl⟩
      | nil =>
        refine .inr ⟨rfl, ?_⟩
        cases te with
        | some t => exact .inl ⟨t, rfl, rfl⟩
        | none =>
          cases co with
          | some t => exact .inr (.inl ⟨rfl, t, rfl, rfl⟩)
          | none => exact .inr (.inr ⟨rfl, rfl, rfl⟩)

theorem indexPart_iff (t : Option T) (l : List (Visit T)) : IndexPart t l ↔ l = t.toList.map (⟨·, true, false⟩) := by
  rw [IndexPart]
  cases t <;> simp [several]

theorem signatures_iff (ss : List (Signature T)) (ls : List (List (Visit T))) : List.Forall₂ SignatureParts ss ls ↔ ls = ss.map Signature.visits := by
  induction ss generalizing ls with
  | nil => cases ls with
    | nil => simp
    | cons => exact ⟨nofun, nofun⟩
  | cons s ss ih =>
    cases ls with
    | nil => exact ⟨nofun, nofun⟩
    | cons l ls => simp [List.forall₂_cons, ih, signatureParts_iff]

theorem objectParts_iff (o : Object T) (l : List (Visit T)) : ObjectParts o l ↔ l = o.visits := by
  constructor
  · rintro ⟨h1, h2, h3, h4⟩
    rw [signatures_iff] at h4
    rw [indexPart_iff] at h2 h3
    subst h2 h3 h4
    rw [Object.visits, List.flatMap]
    rcases h1 with ⟨h1, rfl⟩ | ⟨x, h1, h⟩
    · rw [h1]; rfl
    · rw [mappedParts_iff] at h; subst h; rw [h1]; rfl
  · rintro rfl
    rw [Object.visits, List.flatMap]
    refine .mk ?_ ((indexPart_iff _ _).2 rfl) ((indexPart_iff _ _).2 rfl) ((signatures_iff _ _).2 rfl)
    cases h : o.mapped with
    | none => exact .inl ⟨rfl, rfl⟩
    | some x => exact .inr ⟨x, rfl, (mappedParts_iff _ _ _).2 rfl⟩

/-- C95 (parts). What is looked at within a type is what the type consists of, with the multiplicities specified. -/
theorem C95_parts (E : Env T S N) (fromClass : Bool) (v : Visit T) (l : List (Visit T)) : PartsOf E fromClass v l ↔ l = parts E fromClass v := by
  have hargs : ∀ f : Facts T S N, ¬ HasArguments f → ∀ g a, f.reference = some (g, a) → a = [] := by
    intro f h g a hr
    cases a with
    | nil => rfl
    | cons a as => exact absurd ⟨g, a, as, hr⟩ h
  constructor
  · intro h
    cases h with
    | aliased h1 => simp [parts, h1]; exact fun _ _ => rfl
    | unionOrIntersection h1 h2 => simp [parts, h1, h2]
    | indexed h1 h2 h3 => simp [parts, h1, h2, h3]
    | reference h1 h2 h3 h4 h5 =>
      rw [← several_iff, ← Bool.eq_iff_iff] at h5
      subst h5
      simp [parts, h1, h2, h3, h4]
    | template h1 h2 h3 h4 h5 =>
      cases hr : (E.facts v.type).reference with
      | none => simp [parts, h1, h2, h3, hr, h5]
      | some ga => obtain ⟨g, a⟩ := ga; obtain rfl := hargs _ h4 g a hr; simp [parts, h1, h2, h3, hr, h5]
    | conditional h1 h2 h3 h4 h5 h6 =>
      cases hr : (E.facts v.type).reference with
      | none => simp [parts, h1, h2, h3, hr, h5, h6]
      | some ga => obtain ⟨g, a⟩ := ga; obtain rfl := hargs _ h4 g a hr; simp [parts, h1, h2, h3, hr, h5, h6]
    | object h1 h2 h3 h4 h5 h6 h7 h8 =>
      rw [objectParts_iff] at h8; subst h8
      cases hr : (E.facts v.type).reference with
      | none => simp [parts, h1, h2, h3, hr, h5, h6, h7]
      | some ga => obtain ⟨g, a⟩ := ga; obtain rfl := hargs _ h4 g a hr; simp [parts, h1, h2, h3, hr, h5, h6, h7]
    | operator h1 h2 h3 h4 h5 h6 h7 h8 =>
      cases hr : (E.facts v.type).reference with
      | none => simp [parts, h1, h2, h3, hr, h5, h6, h7, h8]
      | some ga => obtain ⟨g, a⟩ := ga; obtain rfl := hargs _ h4 g a hr; simp [parts, h1, h2, h3, hr, h5, h6, h7, h8]
    | leaf h1 h2 h3 h4 h5 h6 h7 h8 =>
      cases hr : (E.facts v.type).reference with
      | none => simp [parts, h1, h2, h3, hr, h5, h6, h7, h8]
      | some ga => obtain ⟨g, a⟩ := ga; obtain rfl := hargs _ h4 g a hr; simp [parts, h1, h2, h3, hr, h5, h6, h7, h8]
  · rintro rfl
    rw [parts]
    split
    · rename_i h1; exact .aliased (by simpa using h1)
    · rename_i h1
      have h1 : (E.facts v.type).aliasArguments = [] := by simpa using h1
      split
      · rename_i h2; exact .unionOrIntersection h1 h2
      · rename_i h2
        have h2 : (E.facts v.type).unionOrIntersection = false := by simpa using h2
        split
        · rename_i h3; exact .indexed h1 h2 h3
        · rename_i h3
          split
          · rename_i h4; exact .reference h1 h2 h3 h4 (several_iff _ _ _ _)
          · rename_i h4
            have h4 : ¬ HasArguments (E.facts v.type) := fun ⟨g, a, as, h⟩ => h4 g a as h
            split
            · rename_i h5; exact .template h1 h2 h3 h4 h5
            · rename_i h5
              have h5 : (E.facts v.type).template = false := by simpa using h5
              split
              · rename_i h6; exact .conditional h1 h2 h3 h4 h5 h6
              · rename_i h6
                split
                · rename_i h7; exact .object h1 h2 h3 h4 h5 h6 h7 ((objectParts_iff _ _).2 rfl)
                · rename_i h7
                  cases h8 : (E.facts v.type).target with
                  | none => exact .leaf h1 h2 h3 h4 h5 h6 h7 h8
                  | some t => exact .operator h1 h2 h3 h4 h5 h6 h7 h8

/-- C95 (roots). A call signature or constructor is looked at as a signature, other nodes as types. -/
theorem C95_roots (s : Signature T) (t : T) (l : List (Visit T)) :
    ((Root.signature (some s)).visits = l ↔ SignatureParts s l) ∧ (Root.signature (none : Option (Signature T))).visits = [] ∧ (Root.type t).visits = [once t] :=
  ⟨by rw [signatureParts_iff]; exact eq_comm, rfl, rfl⟩

example : SignatureParts (⟨some 1, [2, 3], [], 4, none⟩ : Signature Nat) [⟨1, false, false⟩, ⟨2, false, false⟩, ⟨3, false, false⟩, ⟨4, false, true⟩] :=
  (signatureParts_iff _ _).2 rfl


/-! ## Upper bound -/

section Bound
variable [DecidableEq T] [DecidableEq S] [DecidableEq N]

/-- The totals of what has been seen besides parts. -/
def seenTotal (tot : N → Nat) (m : Nat) (s : State T S N) : Nat := (s.constraints.map tot).sum + if s.default.isSome then m else 0

theorem bound_list {E : Env T S N} {fc : Bool} {targets : List S} {x : S} {tot : N → Nat} {m n : Nat}
    (ih : ∀ (v : Visit T) (s s' : State T S N) (k : Nat), visit E fc targets n v s = some s' → Total E fc x v k →
      (∀ c ∈ s'.constraints, Total E fc x ⟨E.constraintType c, false, false⟩ (tot c)) → (∀ y, s'.default = some y → Total E fc x ⟨y, false, false⟩ m) →
      s'.counts x + seenTotal tot m s ≤ s.counts x + k + seenTotal tot m s') :
    ∀ (vs : List (Visit T)) (s s' : State T S N) (k : Nat), visitAll (visit E fc targets n) vs s = some s' → Totals E fc x vs k →
      (∀ c ∈ s'.constraints, Total E fc x ⟨E.constraintType c, false, false⟩ (tot c)) → (∀ y, s'.default = some y → Total E fc x ⟨y, false, false⟩ m) →
      s'.counts x + seenTotal tot m s ≤ s.counts x + k + seenTotal tot m s' := by
  intro vs
  induction vs with
  | nil => intro s s' k h _ _ _; simp only [visitAll, Option.some.injEq] at h; subst h; omega
  | cons v vs ihl =>
    intro s s' k h ht hc hd
    rw [visitAll] at h
    split at h
    · simp only [Option.some.injEq] at h; subst h; omega
    · obtain ⟨u, e1, e2⟩ := Option.bind_eq_some_iff.1 h
      cases ht with
      | @cons _ _ i j h1 h2 =>
        have hg := visitAll_grows E fc targets e2
        obtain ⟨new, en⟩ := hg.constraints
        have a := ih v s u i e1 h1 (fun c hc' => hc c (by rw [en]; exact List.mem_append.2 (.inr hc'))) (fun y hy => hd y (hg.default y hy))
        have b := ihl u s' j e2 h2 hc hd
        omega

theorem use_bound (targets : List S) (s : State T S N) (x y : S) (m : Bool) : (s.use targets y m).counts x ≤ s.counts x + if y = x then (if m then 2 else 1) else 0 := by
  unfold State.use
  split
  · omega
  · split
    · omega
    · split
      · omega
      · simp only
        by_cases h : x = y
        · subst h; simp
        · simp [h]

theorem bound (E : Env T S N) (fc : Bool) (targets : List S) (x : S) (tot : N → Nat) (m : Nat) : ∀ (n : Nat) (v : Visit T) (s s' : State T S N) (k : Nat),
    visit E fc targets n v s = some s' → Total E fc x v k →
      (∀ c ∈ s'.constraints, Total E fc x ⟨E.constraintType c, false, false⟩ (tot c)) → (∀ y, s'.default = some y → Total E fc x ⟨y, false, false⟩ m) →
      s'.counts x + seenTotal tot m s ≤ s.counts x + k + seenTotal tot m s' := by
  intro n
  induction n with
  | zero => intro v s s' k h; simp [visit] at h
  | succ n ih =>
    intro v s s' k h ht hc hd
    have hb : (s.bump v.type).counts x = s.counts x := rfl
    have hbs : seenTotal tot m (s.bump v.type) = seenTotal tot m s := rfl
    rcases visit_cases h with rfl | rfl | ⟨d, u, hf, e1, e2⟩ | ⟨hf, e1⟩
    · omega
    · omega
    · obtain ⟨u1, u2, u3⟩ := use_same targets (s.bump v.type) d.symbol v.many
      have hus : seenTotal tot m ((s.bump v.type).use targets d.symbol v.many) = seenTotal tot m s := by unfold seenTotal; rw [u2, u3]; rfl
      have hu : ((s.bump v.type).use targets d.symbol v.many).counts x ≤ s.counts x + k := by
        refine Nat.le_trans (use_bound _ _ _ _ _) ?_
        by_cases hx : d.symbol = x
        · have := ht.param ⟨d, hf, hx⟩
          simp only [hx, if_true, hb]
          omega
        · simp only [if_neg hx, hb]; omega
      have hg := visitDefault_grows E fc targets e2
      obtain ⟨new, en⟩ := hg.constraints
      have hcu : ∀ c ∈ u.constraints, Total E fc x ⟨E.constraintType c, false, false⟩ (tot c) := fun c hc' => hc c (by rw [en]; exact List.mem_append.2 (.inr hc'))
      have hdu : ∀ y, u.default = some y → Total E fc x ⟨y, false, false⟩ m := fun y hy => hd y (hg.default y hy)
      have h1 : u.counts x + seenTotal tot m s ≤ s.counts x + k + seenTotal tot m u := by
        rcases visitConstraint_cases e1 with ⟨_, rfl⟩ | ⟨c, _, _, hv⟩
        · omega
        · obtain ⟨new', en'⟩ := (visit_grows E fc targets hv).constraints
          have := ih _ _ _ (tot c) hv (hcu c (by rw [en']; simp)) hcu hdu
          have e : seenTotal tot m { (s.bump v.type).use targets d.symbol v.many with constraints := c :: ((s.bump v.type).use targets d.symbol v.many).constraints } =
              tot c + seenTotal tot m s := by
            rw [← hus]; unfold seenTotal; simp [Nat.add_assoc]
          rw [e] at this
          simp only at this
          omega
      rcases visitDefault_cases e2 with ⟨_, rfl⟩ | ⟨y, _, hy0, hv⟩
      · exact h1
      · have := ih _ _ _ m hv (hd y ((visit_grows E fc targets hv).default y rfl)) hc hd
        have e : seenTotal tot m { u with default := some y } = seenTotal tot m u + m := by unfold seenTotal; simp [hy0]
        rw [e] at this
        simp only at this
        omega
    · have := bound_list ih _ _ _ k e1 (ht.parts hf) hc hd
      omega

end Bound

/-! ## Uses -/

section Uses
variable {E : Env T S N} {fc : Bool} {x : S} {vs : List (Visit T)}

theorem reached_none {D : Option T} (h0 : ∀ d, ReachedParam E fc vs none d → d.default = none) {t : T} (h : Reached E fc vs D t) : Reached E fc vs none t := by
  induction h with
  | root hv => exact .root hv
  | inside _ hi ih => exact .inside ih hi
  | constraint _ hf hc ih => exact .constraint ih hf hc
  | default _ hf hd _ ih => have := h0 _ ⟨_, ih, hf⟩; rw [hd] at this; cases this

theorem reached_mono {D : Option T} {t : T} (h : Reached E fc vs none t) : Reached E fc vs D t := by
  induction h with
  | root hv => exact .root hv
  | inside _ hi ih => exact .inside ih hi
  | constraint _ hf hc ih => exact .constraint ih hf hc
  | default _ _ _ h => cases h

theorem default_unique (ho : OneDefault E) {D D' : Option T} (h : DefaultOf E fc vs D) (h' : DefaultOf E fc vs D') : D = D' := by
  have key : ∀ {y}, DefaultOf E fc vs (some y) → DefaultOf E fc vs none → False := by
    intro y ⟨d, ⟨t, ht, hf⟩, hd⟩ h0
    have := h0 d ⟨t, reached_none h0 ht, hf⟩
    rw [hd] at this; cases this
  cases D with
  | none =>
    cases D' with
    | none => rfl
    | some y => exact (key h' h).elim
  | some y =>
    cases D' with
    | none => exact (key h h').elim
    | some z =>
      obtain ⟨d, ⟨t, _, hf⟩, hd⟩ := h
      obtain ⟨d', ⟨t', _, hf'⟩, hd'⟩ := h'
      rw [ho _ _ _ _ _ _ hf hf' hd hd']

theorem Uses.unique (ho : OneDefault E) {k l : Nat} (h : Uses E fc x vs k) (h' : Uses E fc x vs l) : k = l := by
  obtain ⟨D, cs, hD, hn, hc, ht⟩ := h
  obtain ⟨D', cs', hD', hn', hc', ht'⟩ := h'
  have e := default_unique ho hD hD'
  subst e
  have hp : cs.Perm cs' := (List.perm_ext_iff_of_nodup hn hn').2 fun c => by rw [hc, hc']
  exact (Totals.perm (((hp.map _).append_left vs).append_right _) ht).unique ht'

theorem UsesAll.unique (ho : OneDefault E) : ∀ {rs : List (Root T)} {k l : Nat}, UsesAll E fc x rs k → UsesAll E fc x rs l → k = l := by
  intro rs
  induction rs with
  | nil => intro k l h h'; cases h; cases h'; rfl
  | cons r rs ih =>
    intro k l h h'
    cases h with
    | cons h1 h2 => cases h' with
      | cons h1' h2' => rw [h1.unique ho h1', ih h2 h2']

theorem Totals.choose {A : Type} (g : A → Visit T) {cs : List A} {a : Nat} (h : Totals E fc x (cs.map g) a) :
    ∃ tot : A → Nat, (∀ c ∈ cs, Total E fc x (g c) (tot c)) ∧ a = (cs.map tot).sum := by
  classical
  refine ⟨fun c => if h : ∃ k, Total E fc x (g c) k then h.choose else 0, ?_⟩
  induction cs generalizing a with
  | nil => cases h; simp
  | cons c cs ih =>
    cases h with
    | @cons _ _ i j h1 h2 =>
      obtain ⟨i1, i2⟩ := ih h2
      have hx : ∃ k, Total E fc x (g c) k := ⟨i, h1⟩
      refine ⟨List.forall_mem_cons.2 ⟨?_, i1⟩, ?_⟩
      · simp only [dif_pos hx]; exact hx.choose_spec
      · have e := h1.unique hx.choose_spec
        simp only [List.map_cons, List.sum_cons, dif_pos hx, ← i2]
        omega

theorem sum_sub {A : Type} [DecidableEq A] (f : A → Nat) : ∀ {l m : List A}, l.Nodup → (∀ a ∈ l, a ∈ m) → (l.map f).sum ≤ (m.map f).sum := by
  intro l
  induction l with
  | nil => intro m _ _; simp
  | cons a l ih =>
    intro m hn hs
    simp only [List.nodup_cons] at hn
    have hp : m.Perm (a :: m.erase a) := List.perm_cons_erase (hs a (by simp))
    have he := (hp.map f).sum_nat
    rw [he, List.map_cons, List.sum_cons, List.map_cons, List.sum_cons]
    have := ih (m := m.erase a) hn.2 fun b hb => (List.mem_erase_of_ne (fun e : b = a => hn.1 (e ▸ hb))).2 (hs b (List.mem_cons_of_mem _ hb))
    omega

end Uses

section Counts
variable [DecidableEq T] [DecidableEq S] [DecidableEq N]

theorem nodup_steps (targets : List S) : Steps targets (fun s s' : State T S N => s.constraints.Nodup → s'.constraints.Nodup) where
  refl _ h := h
  trans _ _ _ h h' := fun x => h' (h x)
  bump _ _ h := h
  use s x m h := by rw [(use_same targets s x m).2.1]; exact h
  seen s c hc h := List.nodup_cons.2 ⟨hc, h⟩
  defaulted _ _ _ h := h

variable (E : Env T S N) (fc : Bool) (targets : List S) (hn : targets.Nodup) (x : S) (hx : x ∈ targets)

omit [DecidableEq T] [DecidableEq S] [DecidableEq N] in
theorem reached_closed (vs : List (Visit T)) (D : Option T) : Closed E fc D (Reached E fc vs D) :=
  ⟨fun _ _ h hi => .inside h hi, fun _ _ _ h hf hc => .constraint h hf hc, fun _ _ _ h hf hd hD => .default h hf hd hD⟩

include hx in
theorem collect_exact {n : Nat} {vs : List (Visit T)} {c : S → Nat} {r : Nat} {s' : State T S N}
    (h : visitAll (visit E fc targets n) vs ⟨c, r, fun _ => 0, [], none⟩ = some s') (hr : s'.remaining ≠ 0) (h2 : s'.counts x ≤ 2) :
    ∃ k, Uses E fc x vs k ∧ s'.counts x = c x + k := by
  have hcut := fun t ht => not_cut E fc targets h hr (fun _ => rfl) x hx h2 t ht
  obtain ⟨k, l, hk, ⟨new, D, a, b, e1, e2, e3, e4, rfl⟩, e⟩ := totals_list (totals E fc targets x hx n) vs _ _ h hr (fun t ht => Nat.le_of_lt (hcut t ht)) h2
  simp only [List.append_nil] at e1
  have hD : s'.default = D := by rcases e2 with ⟨rfl, e⟩ | ⟨_, _, e⟩ <;> exact e
  have hw := within_list (within E fc targets s'.default _ (reached_closed E fc vs s'.default) n) vs _ _ h (fun v hv => .root hv) (fun _ hy => hy)
  obtain ⟨hcm, hroots⟩ := complete_list (complete E fc targets n) vs _ _ h hr
  have hcl : ∀ t, Reached E fc vs s'.default t → 1 ≤ s'.usages t := by
    intro t ht
    induction ht with
    | root hv => exact hroots _ hv
    | inside _ hi ih => have := all_visited E fc targets h hr (fun _ => rfl) _ _ hi; omega
    | constraint _ hf hc ih =>
      rcases hcm.param _ _ hf ih with h0 | h0
      · simp at h0
      · rcases hcm.constraints _ (h0.1 _ hc) with h1 | h1
        · cases h1
        · exact h1
    | default _ _ _ hD _ =>
      rcases hcm.default _ hD with h1 | h1
      · cases h1
      · exact h1
  have hpar : ∀ d, ReachedParam E fc vs s'.default d → (∀ c, d.constraint = some c → c ∈ s'.constraints) ∧ (d.default ≠ none → s'.default ≠ none) := by
    intro d ⟨t, ht, hf⟩
    rcases hcm.param _ _ hf (hcl t ht) with h0 | h0
    · simp at h0
    · exact h0
  have hnd : s'.constraints.Nodup := visitAll_of (nodup_steps (T := T) (N := N) targets).refl (nodup_steps targets).trans (visit_of (nodup_steps targets) E fc n) vs _ _ h .nil
  refine ⟨k + a + b, ⟨s'.default, s'.constraints, ?_, hnd, fun c' => ⟨fun hc => ?_, fun ⟨d, hd, hc⟩ => (hpar d hd).1 c' hc⟩, ?_⟩, by rw [e]; simp only; omega⟩
  · cases hd : s'.default with
    | none => 
      intro d hp
      rw [← hd] at hp
      cases hdd : d.default with
      | none => rfl
      | some y => exact absurd hd ((hpar d hp).2 (by simp [hdd]))
    | some y =>
      rcases hw.default y hd with h0 | ⟨t, d, ht, hf, hy⟩
      · cases h0
      · rw [hd] at ht; exact ⟨d, ⟨t, ht, hf⟩, hy⟩
  · rcases hw.constraints c' hc with h0 | ⟨t, d, ht, hf, hy⟩
    · cases h0
    · exact ⟨d, ⟨t, ht, hf⟩, hy⟩
  · rw [e1, hD]
    exact (hk.append e3).append e4

theorem collect_bound (ho : OneDefault E) {n : Nat} {vs : List (Visit T)} {c : S → Nat} {r : Nat} {s' : State T S N}
    (h : visitAll (visit E fc targets n) vs ⟨c, r, fun _ => 0, [], none⟩ = some s') {k : Nat} (hu : Uses E fc x vs k) : s'.counts x ≤ c x + k := by
  obtain ⟨D, cs, hD, hcn, hc, ht⟩ := hu
  obtain ⟨i0, m, ht', hm, rfl⟩ := ht.split
  obtain ⟨i, a, hi, ha, rfl⟩ := ht'.split
  obtain ⟨tot, htot, rfl⟩ := Totals.choose (fun c => (⟨E.constraintType c, false, false⟩ : Visit T)) ha
  have hw := within_list (within E fc targets s'.default _ (reached_closed E fc vs s'.default) n) vs _ _ h (fun v hv => .root hv) (fun _ hy => hy)
  have hd : s'.default = none ∨ s'.default = D := by
    cases hd : s'.default with
    | none => exact .inl rfl
    | some y =>
      refine .inr (default_unique ho (fc := fc) (vs := vs) ?_ hD)
      rcases hw.default y hd with h0 | ⟨t, d, ht, hf, hy⟩
      · cases h0
      · rw [hd] at ht; exact ⟨d, ⟨t, ht, hf⟩, hy⟩
  have hsub : ∀ t, Reached E fc vs s'.default t → Reached E fc vs D t := by
    intro t ht
    rcases hd with h0 | h0
    · rw [h0] at ht; exact reached_mono ht
    · rw [h0] at ht; exact ht
  have hcs : ∀ c' ∈ s'.constraints, c' ∈ cs := by
    intro c' hc'
    rcases hw.constraints c' hc' with h0 | ⟨t, d, ht, hf, hy⟩
    · cases h0
    · exact (hc c').2 ⟨d, ⟨t, hsub t ht, hf⟩, hy⟩
  have hnd : s'.constraints.Nodup := visitAll_of (nodup_steps (T := T) (N := N) targets).refl (nodup_steps targets).trans (visit_of (nodup_steps targets) E fc n) vs _ _ h .nil
  have hb := bound_list (bound E fc targets x tot m n) vs _ _ i h hi (fun c' hc' => htot c' (hcs c' hc')) (by
    intro y hy
    rcases hd with h0 | h0
    · rw [h0] at hy; cases hy
    · rw [← h0, hy] at hm; exact hm.of_single)
  have hs := sum_sub tot hnd hcs
  simp only [seenTotal, List.map_nil, List.sum_nil, Option.isSome_none, Bool.false_eq_true, if_false] at hb
  split at hb <;> omega

include hn hx in
theorem collectAll_exact {n : Nat} : ∀ {rs : List (Root T)} {c c' : (S → Nat) × Nat}, collectAll E fc targets n rs c = some c' → Right targets c.1 c.2 →
    Right targets c'.1 c'.2 ∧ c.1 x ≤ c'.1 x ∧ (c'.1 x ≤ 2 → ∃ k, UsesAll E fc x rs k ∧ c'.1 x = c.1 x + k) ∧
    (OneDefault E → ∀ k, UsesAll E fc x rs k → c'.1 x ≤ c.1 x + k) := by
  intro rs
  induction rs with
  | nil =>
    intro c c' h hR
    simp only [collectAll, Option.some.injEq] at h
    subst h
    exact ⟨hR, Nat.le_refl _, fun _ => ⟨0, .nil, rfl⟩, fun _ k hk => by cases hk; omega⟩
  | cons r rs ih =>
    intro c c' h hR
    rw [collectAll] at h
    split at h
    · rename_i h0
      simp only [Option.some.injEq] at h
      subst h
      rw [h0] at hR
      have := hR.done hx
      refine ⟨by rw [h0]; exact hR, Nat.le_refl _, fun h => absurd h (by omega), fun _ k _ => by omega⟩
    · obtain ⟨u, e1, e2⟩ := Option.bind_eq_some_iff.1 h
      unfold collect at e1
      obtain ⟨s', e1', rfl⟩ := Option.map_eq_some_iff.1 e1
      replace e1 := e1'
      have hRu : Right targets s'.counts s'.remaining :=
        visitAll_of (right_steps (T := T) (N := N) targets hn).refl (right_steps targets hn).trans (visit_of (right_steps targets hn) E fc n) _ _ _ e1 hR
      have hg := visitAll_grows E fc targets e1
      obtain ⟨i1, i2, i3, i4⟩ := ih e2 hRu
      have hgx := hg.counts x
      simp only at i2 hgx
      refine ⟨i1, Nat.le_trans hgx i2, fun h2 => ?_, fun ho k hk => ?_⟩
      · obtain ⟨l, hl, el⟩ := i3 h2
        have hle : s'.counts x ≤ 2 := by omega
        obtain ⟨k, hk, ek⟩ := collect_exact E fc targets x hx e1 (hRu.live hx hle) hle
        simp only at el
        exact ⟨k + l, .cons hk hl, by omega⟩
      · cases hk with
        | @cons _ _ k l h1 h2 =>
          have a := collect_bound E fc targets x ho e1 h1
          have b := i4 ho l h2
          simp only at b
          omega

include hn hx in
/-- C95 (counting).  For every graph of types, however they contain themselves or each other, if the walk ends with a count of at most two for a type parameter, that is how often it is used:
stopping as soon as all candidates are used often enough and visiting no type more than nine times changes nothing.  Conversely, if it is used at most twice, that is what is counted
(provided that there is only one default). -/
theorem C95_counts (n : Nat) (roots : List (Root T)) (counts : S → Nat) (h : countUsage E fc targets n roots = some counts) :
    (counts x ≤ 2 → UsesAll E fc x roots (counts x)) ∧
    (OneDefault E → ∀ k, k ≤ 2 → (counts x = k ↔ UsesAll E fc x roots k)) := by
  unfold countUsage at h
  obtain ⟨c', e, rfl⟩ := Option.map_eq_some_iff.1 h
  have h0 : Right targets (fun _ : S => 0) targets.length := by unfold Right; simp
  obtain ⟨_, _, h3, h4⟩ := collectAll_exact E fc targets hn x hx e h0
  simp only [Nat.zero_add] at h3 h4
  have key : c'.1 x ≤ 2 → UsesAll E fc x roots (c'.1 x) := by
    intro h2
    obtain ⟨k, hk, ek⟩ := h3 h2
    have : c'.1 x = k := by omega
    rw [this]; exact hk
  refine ⟨key, fun ho k hk => ⟨fun h => h ▸ key (by omega), fun hu => ?_⟩⟩
  have := h4 ho k hu
  exact (key (by omega)).unique ho hu

/-! ## The walk ends -/

/-- The visits left. -/
def left (U : List T) (u : T → Nat) : Nat := (U.map fun t => 9 - u t).sum

omit [DecidableEq T] in
theorem left_le (U : List T) (u u' : T → Nat) (h : ∀ t, u t ≤ u' t) : left U u' ≤ left U u := by
  unfold left
  induction U with
  | nil => simp
  | cons t U ih => simp only [List.map_cons, List.sum_cons]; have := h t; omega

theorem left_bump (U : List T) (s : State T S N) (t : T) (ht : t ∈ U) (h9 : s.usages t < 9) : left U (s.bump t).usages < left U s.usages := by
  have hle : ∀ V : List T, left V (s.bump t).usages ≤ left V s.usages := fun V => left_le V _ _ fun x => by simp only [State.bump]; split <;> omega
  induction U with
  | nil => cases ht
  | cons a U ih =>
    have e : ∀ u : T → Nat, left (a :: U) u = (9 - u a) + left U u := fun u => by simp [left]
    rw [e, e]
    by_cases ha : a = t
    · have := hle U
      subst ha
      have hb : (s.bump a).usages a = s.usages a + 1 := by simp [State.bump]
      omega
    · have := ih (by rcases List.mem_cons.1 ht with h | h; exact absurd h.symm ha; exact h)
      have hb : (s.bump t).usages a = s.usages a := by simp [State.bump, ha]
      omega

theorem visit_ends (U : List T) (hin : ∀ t c, t ∈ U → Inside E fc t c → c ∈ U)
    (hcon : ∀ t d c, t ∈ U → (E.facts t).param = some (some d) → d.constraint = some c → E.constraintType c ∈ U)
    (hdef : ∀ t d y, t ∈ U → (E.facts t).param = some (some d) → d.default = some y → y ∈ U) :
    ∀ n v (s : State T S N), v.type ∈ U → left U s.usages < n → ∃ s', visit E fc targets n v s = some s' := by
  intro n
  induction n with
  | zero => intro v s _ h; omega
  | succ n ih =>
    intro v s hv h
    have hlist : ∀ (vs : List (Visit T)) (s : State T S N), (∀ v ∈ vs, v.type ∈ U) → left U s.usages < n → ∃ s', visitAll (visit E fc targets n) vs s = some s' := by
      intro vs
      induction vs with
      | nil => intro s _ _; exact ⟨s, rfl⟩
      | cons w ws ihl =>
        intro s hw hl
        rw [visitAll]
        split
        · exact ⟨s, rfl⟩
        · obtain ⟨u, hu⟩ := ih w s (hw w (by simp)) hl
          obtain ⟨s', hs'⟩ := ihl u (fun x hx => hw x (List.mem_cons_of_mem _ hx)) (Nat.lt_of_le_of_lt (left_le U _ _ (visit_grows E fc targets hu).usages) hl)
          exact ⟨s', by rw [hu]; exact hs'⟩
    rw [visit]
    split
    · exact ⟨_, rfl⟩
    · split
      · exact ⟨_, rfl⟩
      · rename_i h9
        have h9' : s.usages v.type < 9 := by
          simp only [State.bump, if_true] at h9; omega
        have hl := left_bump U s v.type hv h9'
        split
        · rename_i d hd
          obtain ⟨u1, u2, u3⟩ := use_same targets (s.bump v.type) d.symbol v.many
          have hc : ∃ u, visitConstraint E (visit E fc targets n) d.constraint ((s.bump v.type).use targets d.symbol v.many) = some u := by
            unfold visitConstraint
            split
            · rename_i c hc
              split
              · exact ⟨_, rfl⟩
              · exact ih _ _ (hcon _ _ _ hv hd hc) (by simp only [u1]; omega)
            · exact ⟨_, rfl⟩
          obtain ⟨u, hu⟩ := hc
          have hg := (visitConstraint_grows E fc targets hu).usages
          rw [hu]
          change ∃ s', visitDefault (visit E fc targets n) d.default u = some s'
          unfold visitDefault
          split
          · rename_i y hy
            split
            · exact ⟨_, rfl⟩
            · refine ih _ _ (hdef _ _ _ hv hd hy) ?_
              have := left_le U _ _ hg
              rw [u1] at this
              simp only
              omega
          · exact ⟨_, rfl⟩
        · exact ⟨_, rfl⟩
        · rename_i hd
          exact hlist _ _ (fun w hw => hin _ _ hv ((inside_iff E fc v w.type).2 ⟨hd, w, hw, rfl⟩)) (by omega)

/-- C95 (the walk ends).  If finitely many types can be reached from the declaration, however they refer to each other, counting ends. -/
theorem C95_ends (U : List T) (hin : ∀ t c, t ∈ U → Inside E fc t c → c ∈ U)
    (hcon : ∀ t d c, t ∈ U → (E.facts t).param = some (some d) → d.constraint = some c → E.constraintType c ∈ U)
    (hdef : ∀ t d y, t ∈ U → (E.facts t).param = some (some d) → d.default = some y → y ∈ U)
    (roots : List (Root T)) (hroots : ∀ r ∈ roots, ∀ v ∈ r.visits, v.type ∈ U) :
    ∃ counts, countUsage E fc targets (9 * U.length + 1) roots = some counts := by
  have hl : ∀ u, left U u < 9 * U.length + 1 := by
    intro u
    unfold left
    induction U with
    | nil => simp
    | cons t U ih =>
      have : ∀ V : List T, (V.map fun t => 9 - u t).sum ≤ 9 * V.length := by
        intro V
        induction V with
        | nil => simp
        | cons a V ih => simp only [List.map_cons, List.sum_cons, List.length_cons]; omega
      have := this (t :: U)
      omega
  generalize 9 * U.length + 1 = n at hl
  have hv := visit_ends (N := N) E fc targets U hin hcon hdef n
  have hlist : ∀ (vs : List (Visit T)) (s : State T S N), (∀ v ∈ vs, v.type ∈ U) → ∃ s', visitAll (visit E fc targets n) vs s = some s' := by
    intro vs
    induction vs with
    | nil => intro s _; exact ⟨s, rfl⟩
    | cons w ws ihl =>
      intro s hw
      rw [visitAll]
      split
      · exact ⟨s, rfl⟩
      · obtain ⟨u, hu⟩ := hv w s (hw w (by simp)) (hl _)
        obtain ⟨s', hs'⟩ := ihl u (fun x hx => hw x (List.mem_cons_of_mem _ hx))
        exact ⟨s', by rw [hu]; exact hs'⟩
  have hall : ∀ (rs : List (Root T)) (c : (S → Nat) × Nat), (∀ r ∈ rs, ∀ v ∈ r.visits, v.type ∈ U) → ∃ c', collectAll E fc targets n rs c = some c' := by
    intro rs
    induction rs with
    | nil => intro c _; exact ⟨c, rfl⟩
    | cons r rs ih =>
      intro c hr
      rw [collectAll]
      split
      · exact ⟨c, rfl⟩
      · obtain ⟨s', hs'⟩ := hlist r.visits ⟨c.1, c.2, fun _ => 0, [], none⟩ (hr r (by simp))
        obtain ⟨c', hc'⟩ := ih (s'.counts, s'.remaining) (fun r' hr' => hr r' (List.mem_cons_of_mem _ hr'))
        exact ⟨c', by rw [collect, hs']; exact hc'⟩
  obtain ⟨c', hc'⟩ := hall roots (fun _ => 0, targets.length) hroots
  exact ⟨c'.1, by rw [countUsage, hc']; rfl⟩

end Counts

/-! ## References -/

section Refs
variable [DecidableEq S]

mutual
theorem references_iff (x : S) (name : Nat) (r : Reference) : ∀ (anc : List Kind) (t : Syn S),
    r ∈ references x name anc t ↔ r.id ≠ name ∧ ∃ parent rest, In r.id (some x) r.pos r.start r.stop anc t (parent :: rest) ∧ parent ≠ .other ∧ (r.wrapped = true ↔ rest.head? = some .wrapping)
  | anc, .node k kids => by
    rw [references, referencesIn_iff]
    constructor
    · rintro ⟨c, hc, h, p, rest, hi, hp⟩; exact ⟨h, p, rest, .deeper hc hi, hp⟩
    · rintro ⟨h, p, rest, hi, hp⟩
      cases hi with
      | deeper hc hi => exact ⟨_, hc, h, p, rest, hi, hp⟩
  | [], .ident id symbol pos start stop => by
    rw [references.eq_def]
    constructor
    · intro h; cases h
    · rintro ⟨_, p, rest, hi, _⟩
      cases hi
  | q :: qs, .ident id symbol pos start stop => by
    rw [references.eq_def]
    constructor
    · intro h
      simp only at h
      split at h
      · rename_i hh
        obtain ⟨h1, h2, rfl⟩ := hh
        simp only [List.mem_singleton] at h
        subst h
        exact ⟨h1, q, qs, .here, h2, by simp⟩
      · cases h
    · rintro ⟨h, p, rest, hi, hp, hw⟩
      cases hi
      simp only
      rw [if_pos ⟨h, hp, trivial⟩]
      obtain ⟨rid, rpos, rstart, rstop, rw'⟩ := r
      simp only at hw
      simp only [List.mem_singleton, Reference.mk.injEq, true_and]
      cases rw' with
      | true => simp [hw.1 rfl]
      | false => simp at hw; simp [hw]
theorem referencesIn_iff (x : S) (name : Nat) (r : Reference) : ∀ (anc : List Kind) (ts : List (Syn S)),
    r ∈ referencesIn x name anc ts ↔ ∃ c ∈ ts, r.id ≠ name ∧ ∃ parent rest, In r.id (some x) r.pos r.start r.stop anc c (parent :: rest) ∧ parent ≠ .other ∧
      (r.wrapped = true ↔ rest.head? = some .wrapping)
  | _, [] => by simp [referencesIn]
  | anc, c :: cs => by
    rw [referencesIn, List.mem_append, references_iff x name r anc c, referencesIn_iff x name r anc cs]
    simp only [List.mem_cons, or_and_right, exists_or, exists_eq_left]
end

mutual
theorem references_ids (x : S) (name : Nat) : ∀ (anc : List Kind) (t : Syn S), ((references x name anc t).map (·.id)).Sublist (ids t)
  | anc, .node k kids => by rw [references, ids]; exact referencesIn_ids x name _ kids
  | anc, .ident id symbol pos start stop => by
    rw [references.eq_def, ids]
    simp only
    split
    · split
      · exact List.Sublist.refl _
      · exact List.nil_sublist _
    · exact List.nil_sublist _
theorem referencesIn_ids (x : S) (name : Nat) : ∀ (anc : List Kind) (ts : List (Syn S)), ((referencesIn x name anc ts).map (·.id)).Sublist (idsIn ts)
  | _, [] => by rw [referencesIn]; exact List.nil_sublist _
  | anc, c :: cs => by
    rw [referencesIn, idsIn, List.map_append]
    exact (references_ids x name anc c).append (referencesIn_ids x name anc cs)
end

open Classical in
omit [DecidableEq S] in
theorem repeated_iff (p : Param S) (body : Option Nat) : ∀ (rs : List Reference) (n : Nat), n ≤ 1 →
    (repeatedLoop p body rs n = true ↔ 2 ≤ n + (rs.filter fun r => decide (Counts p body r)).length) := by
  intro rs
  induction rs with
  | nil => intro n h; simp [repeatedLoop]; omega
  | cons r rs ih =>
    intro n h
    rw [repeatedLoop]
    split
    · rename_i h1
      rw [ih n h, List.filter_cons_of_neg (by
        simp only [decide_eq_true_eq]
        intro hc
        have := hc.1
        omega)]
    · rename_i h1
      split
      · rename_i h2
        rw [ih n h, List.filter_cons_of_neg (by
          simp only [decide_eq_true_eq]
          intro hc
          cases body with
          | none => simp at h2
          | some b => have := hc.2 b rfl; simp at h2; omega)]
      · rename_i h2
        rw [List.filter_cons_of_pos (by
          simp only [decide_eq_true_eq]
          refine ⟨by omega, fun b hb => ?_⟩
          subst hb
          simp at h2; omega), List.length_cons]
        split
        · simp; omega
        · rw [ih (n + 1) (by omega)]; omega

end Refs

section Reports
variable [DecidableEq T] [DecidableEq S] [DecidableEq N]

theorem refers_iff (sorter : Sorter byPosition) (x : S) (name : Nat) (tree : Syn S) (r : Reference) :
    r ∈ sorter.sort (references x name [] tree) ↔ Refers x name tree r := by
  rw [(sorter.perm _).mem_iff, references_iff]; rfl

theorem two_of_nodup {A : Type} {l : List A} (h : l.Nodup) : 2 ≤ l.length ↔ ∃ a b, a ≠ b ∧ a ∈ l ∧ b ∈ l := by
  match l with
  | [] => simp
  | [a] => simp only [List.length_singleton, List.mem_singleton]; refine ⟨fun h => absurd h (by omega), ?_⟩; rintro ⟨x, y, hne, rfl, rfl⟩; exact absurd rfl hne
  | a :: b :: l =>
    refine ⟨fun _ => ⟨a, b, ?_, by simp, by simp⟩, fun _ => by simp⟩
    rintro rfl
    simp at h

theorem loop_iff (sorter : Sorter byPosition) (p : Param S) (x : S) (body : Option Nat) (tree : Syn S) (hids : (ids tree).Nodup) :
    repeatedLoop p body (sorter.sort (references x p.name [] tree)) 0 = true ↔ Repeated p x body tree := by
  classical
  rw [repeated_iff p body _ 0 (by omega), Nat.zero_add]
  have hn : (references x p.name [] tree).Nodup := by
    have h : ((references x p.name [] tree).map (·.id)).Nodup := List.Nodup.sublist (references_ids x p.name [] tree) hids
    exact List.Pairwise.of_map _ (fun a b h e => h (congrArg _ e)) h
  have hs : (sorter.sort (references x p.name [] tree)).Nodup := (sorter.perm _).nodup_iff.2 hn
  rw [two_of_nodup (hs.filter _)]
  simp only [List.mem_filter, refers_iff, decide_eq_true_eq]
  constructor
  · rintro ⟨a, b, h1, ⟨h2, h3⟩, h4, h5⟩; exact ⟨a, b, h1, h2, h4, h3, h5⟩
  · rintro ⟨a, b, h1, h2, h4, h3, h5⟩; exact ⟨a, b, h1, ⟨h2, h3⟩, h4, h5⟩

theorem mem_candidates (sorter : Sorter byPosition) (tree : Syn S) (body : Option Nat) (ps : List (Param S)) (hids : (ids tree).Nodup) (c : Candidate S) :
    c ∈ candidates sorter tree body ps ↔ c.param ∈ ps ∧ c.param.symbol = some c.symbol ∧ c.references = sorter.sort (references c.symbol c.param.name [] tree) ∧
      ¬Repeated c.param c.symbol body tree := by
  unfold candidates
  rw [List.mem_filterMap]
  constructor
  · rintro ⟨p, hp, h⟩
    split at h
    · cases h
    · rename_i x hx
      simp only at h
      split at h
      · cases h
      · rename_i hl
        simp only [Option.some.injEq] at h
        subst h
        exact ⟨hp, hx, rfl, fun hr => hl ((loop_iff sorter p x body tree hids).2 hr)⟩
  · rintro ⟨hp, hx, hr, hn⟩
    refine ⟨c.param, hp, ?_⟩
    rw [hx]
    simp only
    rw [if_neg fun h => hn ((loop_iff sorter _ _ body tree hids).1 h), ← hr]

theorem mem_distinct (l : List S) (x : S) : x ∈ distinct l ↔ x ∈ l := by
  induction l with
  | nil => simp [distinct]
  | cons a l ih =>
    rw [distinct]
    split
    · rename_i h
      rw [ih]
      simp only [List.mem_cons]
      refine ⟨.inr, fun h' => h'.elim (fun e => by subst e; simpa using h) id⟩
    · simp only [List.mem_cons, ih]

theorem nodup_distinct (l : List S) : (distinct l).Nodup := by
  induction l with
  | nil => simp [distinct]
  | cons a l ih =>
    rw [distinct]
    split
    · exact ih
    · rename_i h
      exact List.nodup_cons.2 ⟨fun h' => h (by simpa using (mem_distinct l a).1 h'), ih⟩

/-- C95 (reports).  Every reported type parameter is one that is not referenced twice in the signature and is used exactly once (only its own declaration: "never used") or twice
("used only once"); the label is the first reference.  Every such type parameter is reported (provided that there is only one default). -/
theorem C95_reports (E : Env T S N) (sorter : Sorter byPosition) (fc : Bool) (n : Nat) (tree : Syn S) (hids : (ids tree).Nodup) (body : Option Nat) (ps : List (Param S))
    (roots : List (Root T)) (rs : List (Report S)) (h : check E sorter fc n tree body ps roots = some rs) :
    (∀ r ∈ rs, r.param ∈ ps ∧ ∃ x, r.param.symbol = some x ∧ ¬Repeated r.param x body tree ∧ UsesAll E fc x roots (if r.never then 1 else 2) ∧
      (r.label = none → ∀ l, ¬Refers x r.param.name tree l) ∧
      (∀ l, r.label = some l → Refers x r.param.name tree l ∧ ∀ l', Refers x r.param.name tree l' → l.pos ≤ l'.pos)) ∧
    (OneDefault E → ∀ p ∈ ps, ∀ x, p.symbol = some x → ¬Repeated p x body tree → ∀ k, k = 1 ∨ k = 2 → UsesAll E fc x roots k →
      ∃ r ∈ rs, r.param = p ∧ (r.never = true ↔ k = 1)) := by
  unfold check at h
  simp only at h
  have hmem := mem_candidates sorter tree body ps hids
  generalize candidates sorter tree body ps = cs at h hmem
  split at h
  · rename_i he
    simp only [Option.some.injEq] at h
    subst h
    refine ⟨fun r hr => (by cases hr), fun _ p hp x hx hn => ?_⟩
    have : (⟨p, x, sorter.sort (references x p.name [] tree)⟩ : Candidate S) ∈ cs := (hmem _).2 ⟨hp, hx, rfl, hn⟩
    rw [List.isEmpty_iff] at he
    rw [he] at this
    cases this
  · obtain ⟨counts, hc, rfl⟩ := Option.map_eq_some_iff.1 h
    have key : ∀ c ∈ cs, _ := fun c hcm => C95_counts E fc (distinct (cs.map (·.symbol))) (nodup_distinct _) c.symbol
      ((mem_distinct _ _).2 (List.mem_map.2 ⟨c, hcm, rfl⟩)) n roots counts hc
    refine ⟨fun r hr => ?_, fun ho p hp x hx hn k hk hu => ?_⟩
    · obtain ⟨c, hcm, hr⟩ := List.mem_filterMap.1 hr
      obtain ⟨h1, h2, h3, h4⟩ := (hmem c).1 hcm
      unfold reportOf at hr
      split at hr
      · cases hr
      · rename_i hk
        simp only [Option.some.injEq] at hr
        subst hr
        refine ⟨h1, c.symbol, h2, h4, ?_, fun hl l hr => ?_, fun l hl => ?_⟩
        · have := (key c hcm).1 (by omega)
          by_cases h1 : counts c.symbol = 1
          · simpa [h1] using this
          · have h2 : counts c.symbol = 2 := by omega
            simpa [h2] using this
        · simp only [List.head?_eq_none_iff] at hl
          rw [← refers_iff sorter, ← h3, hl] at hr
          cases hr
        · simp only at hl
          refine ⟨(refers_iff sorter _ _ _ _).1 (h3 ▸ List.mem_of_mem_head? hl), fun l' hl' => ?_⟩
          rw [← refers_iff sorter, ← h3] at hl'
          have hs := sorter.sorted (references c.symbol c.param.name [] tree)
          rw [← h3] at hs
          cases hrefs : c.references with
          | nil => rw [hrefs] at hl; cases hl
          | cons a as =>
            rw [hrefs] at hl hl' hs
            simp only [List.head?_cons, Option.some.injEq] at hl
            subst hl
            rcases List.mem_cons.1 hl' with rfl | hl'
            · exact Nat.le_refl _
            · have := (List.pairwise_cons.1 hs).1 l' hl'
              unfold byPosition at this
              omega
    · have hcm : (⟨p, x, sorter.sort (references x p.name [] tree)⟩ : Candidate S) ∈ cs := (hmem _).2 ⟨hp, hx, rfl, hn⟩
      have hcount : counts x = k := ((key _ hcm).2 ho k (by omega)).2 hu
      refine ⟨⟨p, counts x = 1, (sorter.sort (references x p.name [] tree)).head?⟩, List.mem_filterMap.2 ⟨_, hcm, ?_⟩, rfl, ?_⟩
      · unfold reportOf
        simp only
        rw [if_neg (by omega)]
      · simp [hcount]

end Reports

/-! ## The suggestion -/

def Piece.seg (c : Constraint) : Piece → Seg
  | .keep t => .keep t
  | .ref t w => .sub t (Piece.replaced c (.ref t w))

theorem seg_old (c : Constraint) (ps : List Piece) : Seg.old (ps.map (Piece.seg c)) = textOf ps := by
  induction ps with
  | nil => rfl
  | cons p ps ih => cases p <;> simp [Piece.seg, Seg.old, textOf, Piece.text] <;> simpa [textOf] using ih

theorem seg_new (c : Constraint) (ps : List Piece) : Seg.new (ps.map (Piece.seg c)) = replacedOf c ps := by
  induction ps with
  | nil => rfl
  | cons p ps ih => cases p <;> simp [Piece.seg, Seg.new, replacedOf, Piece.replaced] <;> simpa [replacedOf] using ih

theorem seg_edits (c : Constraint) (ps : List Piece) : ∀ (n : Nat) (rs : List Reference), RefsOf n ps rs →
    Seg.edits n (ps.map (Piece.seg c)) = rs.map (fun r => ⟨replacement c r, r.start, r.stop⟩) := by
  induction ps with
  | nil => intro n rs h; cases h; rfl
  | cons p ps ih =>
    intro n rs h
    cases h with
    | keep h => simpa [Piece.seg, Seg.edits] using ih _ _ h
    | @ref _ t w _ rs r h1 h2 h3 h =>
      have := ih _ _ h
      simp only [List.map_cons, Piece.seg, Seg.edits, this, List.cons.injEq, and_true, Fix.mk.injEq]
      refine ⟨?_, by omega, by omega⟩
      unfold replacement Piece.replaced
      subst h3
      cases c with
      | none => rfl
      | some c => obtain ⟨t, b⟩ := c; simp only [Bool.and_eq_true]

theorem refs_bounds {ps : List Piece} : ∀ {n : Nat} {rs : List Reference}, RefsOf n ps rs → ∀ r ∈ rs, n ≤ r.start ∧ r.start ≤ r.stop ∧ r.stop ≤ n + (textOf ps).length := by
  induction ps with
  | nil => intro n rs h r hr; cases h; cases hr
  | cons p ps ih =>
    intro n rs h r hr
    cases h with
    | @keep _ t _ _ h =>
      have := ih h r hr
      simp only [textOf, List.flatMap_cons, List.length_append, Piece.text] at this ⊢
      omega
    | @ref _ t w _ rs r0 h1 h2 h3 h =>
      simp only [textOf, List.flatMap_cons, List.length_append, Piece.text]
      rcases List.mem_cons.1 hr with rfl | hr
      · omega
      · have := ih h r hr
        simp only [textOf] at this
        omega

theorem shuffle_move (l m : List Fix) (x : Fix) (h : ∀ y ∈ m, y.pos ≠ x.pos) : Shuffle (l ++ m ++ [x]) (l ++ x :: m) := by
  refine ⟨?_, fun p e => ?_⟩
  · rw [List.append_assoc]
    exact List.Perm.append_left _ (List.perm_append_singleton x m).symm
  · simp only [List.filter_append, List.append_assoc, List.filter_cons, List.filter_nil]
    congr 1
    split
    · rename_i hx
      have : m.filter (fun f => decide (f.pos = p ∧ f.stop = e)) = [] := by
        rw [List.filter_eq_nil_iff]
        intro y hy hd
        simp only [decide_eq_true_eq] at hd hx
        exact h y hy (hd.1.trans hx.1.symm)
      rw [this]; rfl
    · simp

/-- C95 (suggestion).  The suggestion replaces every reference outside the part of the type parameter list that is removed - in any number, before and after - by the constraint, in
parentheses where a union, intersection or conditional type needs them, and removes that part. -/
theorem C95_fix (c : Constraint) (before after : List Piece) (removed : Bytes) (hne : removed ≠ []) (rs inner ss : List Reference)
    (hr : RefsOf 0 before rs) (hs : RefsOf ((textOf before).length + removed.length) after ss)
    (hi : ∀ r ∈ inner, r.start < (textOf before).length + removed.length ∧ (textOf before).length < r.stop) :
    AppliesTo (textOf before ++ removed ++ textOf after) (fixes c ((textOf before).length, (textOf before).length + removed.length) (rs ++ inner ++ ss))
      (replacedOf c before ++ replacedOf c after) := by
  have hlen : 0 < removed.length := List.length_pos_iff.2 hne
  have key := Seg.applies_shuffle (before.map (Piece.seg c) ++ (Seg.sub removed [] :: after.map (Piece.seg c)))
    (fixes c ((textOf before).length, (textOf before).length + removed.length) (rs ++ inner ++ ss)) (by
      rw [Seg.edits_append, seg_edits c before 0 rs hr, seg_old, Seg.edits, Nat.zero_add, seg_edits c after _ ss hs]
      unfold fixes
      simp only [List.filter_append]
      have e1 : rs.filter (fun r => !(decide (r.start < (textOf before).length + removed.length) && decide (r.stop > (textOf before).length))) = rs := by
        rw [List.filter_eq_self]
        intro r h
        have := refs_bounds hr r h
        simp; omega
      have e2 : inner.filter (fun r => !(decide (r.start < (textOf before).length + removed.length) && decide (r.stop > (textOf before).length))) = [] := by
        rw [List.filter_eq_nil_iff]
        intro r h
        have := hi r h
        simp; omega
      have e3 : ss.filter (fun r => !(decide (r.start < (textOf before).length + removed.length) && decide (r.stop > (textOf before).length))) = ss := by
        rw [List.filter_eq_self]
        intro r h
        have := refs_bounds hs r h
        simp; omega
      rw [e1, e2, e3, List.append_nil, List.map_append]
      refine shuffle_move _ _ _ fun y hy => ?_
      obtain ⟨r, hr, rfl⟩ := List.mem_map.1 hy
      have := refs_bounds hs r hr
      simp only
      omega)
  rw [Seg.old_append, Seg.new_append, seg_old, seg_new, Seg.old, Seg.new, seg_old, seg_new] at key
  simpa using key

/-! ### What is removed -/

theorem takeWhile_length (a b : Bytes) (x : UInt8) (h : x ∉ a) : ((a ++ x :: b).takeWhile (· != x)).length = a.length := by
  rw [List.takeWhile_append_of_pos (by intro y hy; simp; rintro rfl; exact h hy), List.takeWhile_cons_of_neg (by simp)]
  simp

/-- C95 (the only type parameter).  The whole list with its brackets is removed, if no comment in it contains a `>`. -/
theorem C95_only (pre p tail post : Bytes) (h : (62 : UInt8) ∉ tail) (q : Param S) (hp : q.pos = pre.length + 1) (hs : q.stop = pre.length + 1 + p.length) (token : Nat → Nat) :
    removal (pre ++ ascii "<" ++ p ++ tail ++ ascii ">" ++ post) token [q] 0 q = (pre.length, pre.length + (ascii "<" ++ p ++ tail ++ ascii ">").length) := by
  have hd : (pre ++ ascii "<" ++ p ++ tail ++ ascii ">" ++ post).drop q.stop = tail ++ 62 :: post := by
    have e : pre ++ ascii "<" ++ p ++ tail ++ ascii ">" ++ post = (pre ++ ascii "<" ++ p) ++ (tail ++ 62 :: post) := by simp [ascii]
    rw [e, List.drop_left' (by simp [hs, ascii]; omega)]
  unfold removal
  simp only [List.length_singleton, if_true]
  unfold closing
  rw [hd]
  simp only [takeWhile_length tail post 62 h]
  have : tail.length < (tail ++ 62 :: post).length := by simp
  rw [if_pos this, if_neg (by omega), if_neg (by omega)]
  simp only [Prod.mk.injEq, List.length_append]
  have e1 : (ascii "<").length = 1 := rfl
  have e2 : (ascii ">").length = 1 := rfl
  omega

/-- C95 (the first of several).  It is removed with everything up to the next one. -/
theorem C95_first (text : Bytes) (q r : Param S) (rest : List (Param S)) (token : Nat → Nat) (h : q.pos < token r.pos) :
    removal text token (q :: r :: rest) 0 q = (q.pos, token r.pos) := by
  simp [removal, h]

/-- C95 (a later one).  It is removed with the comma before it, if no comment between contains a comma. -/
theorem C95_later (pre gap p post : Bytes) (h : (44 : UInt8) ∉ gap) (ps : List (Param S)) (i : Nat) (q r : Param S) (hi : ps[i]? = some q) (hl : ps.length ≠ 1) (token : Nat → Nat)
    (hq : q.stop = pre.length) (hr : r.pos = pre.length + gap.length + 1) (hs : r.stop = pre.length + gap.length + 1 + p.length) :
    removal (pre ++ gap ++ ascii "," ++ p ++ post) token ps (i + 1) r = (pre.length + gap.length, pre.length + gap.length + 1 + p.length) := by
  have hd : ((pre ++ gap ++ ascii "," ++ p ++ post).take r.pos).drop q.stop = gap ++ 44 :: [] := by
    have e : pre ++ gap ++ ascii "," ++ p ++ post = (pre ++ (gap ++ [44])) ++ (p ++ post) := by simp [ascii]
    rw [e, List.take_left' (by simp [hr]; omega), List.drop_left' (by simp [hq])]
  unfold removal
  rw [if_neg hl, if_neg (by omega)]
  simp only [Nat.add_sub_cancel, hi]
  unfold comma
  rw [hd]
  simp only [takeWhile_length gap [] 44 h]
  have : gap.length < (gap ++ [44]).length := by simp
  rw [if_pos this, hq, hs]

/-- C95 (hazard: a comma in a comment).  In `<A /* x, y */, T>` what is removed starts inside the comment, whose end goes with it. -/
theorem C95_hazard_comma (pre gap gap' p post : Bytes) (h : (44 : UInt8) ∉ gap) (ps : List (Param S)) (i : Nat) (q r : Param S) (hi : ps[i]? = some q) (hl : ps.length ≠ 1)
    (token : Nat → Nat) (hq : q.stop = pre.length) (hr : r.pos = pre.length + gap.length + 1 + gap'.length + 1) :
    removal (pre ++ gap ++ ascii "," ++ gap' ++ ascii "," ++ p ++ post) token ps (i + 1) r = (pre.length + gap.length, r.stop) := by
  have hd : ((pre ++ gap ++ ascii "," ++ gap' ++ ascii "," ++ p ++ post).take r.pos).drop q.stop = gap ++ 44 :: (gap' ++ [44]) := by
    have e : pre ++ gap ++ ascii "," ++ gap' ++ ascii "," ++ p ++ post = (pre ++ (gap ++ 44 :: (gap' ++ [44]))) ++ (p ++ post) := by simp [ascii]
    rw [e, List.take_left' (by simp [hr]; omega), List.drop_left' (by simp [hq])]
  unfold removal
  rw [if_neg hl, if_neg (by omega)]
  simp only [Nat.add_sub_cancel, hi]
  unfold comma
  rw [hd]
  simp only [takeWhile_length gap _ 44 h]
  have : gap.length < (gap ++ 44 :: (gap' ++ [44])).length := by simp
  rw [if_pos this, hq]

/-- C95 (hazard: a `>` in a comment).  In `<T /* -> */>` what is removed ends inside the comment. -/
theorem C95_hazard_closing (pre p tail tail' post : Bytes) (h : (62 : UInt8) ∉ tail) (q : Param S) (hp : q.pos = pre.length + 1) (hs : q.stop = pre.length + 1 + p.length)
    (token : Nat → Nat) :
    removal (pre ++ ascii "<" ++ p ++ tail ++ ascii ">" ++ tail' ++ ascii ">" ++ post) token [q] 0 q = (pre.length, pre.length + (ascii "<" ++ p ++ tail ++ ascii ">").length) := by
  have := C95_only pre p tail (tail' ++ ascii ">" ++ post) h q hp hs token
  simpa using this

/-! ## Samples -/

section Samples

def plain : Facts Nat Nat Nat := ⟨none, [], false, [], none, none, false, none, none, none⟩
def param (x : Nat) (c d : Option Nat) : Facts Nat Nat Nat := { plain with param := some (some ⟨x, c, d⟩) }

/-- Types: 1, 2, 3 the type parameters `T`, `U extends T`, `V = Map<T, string>`; 4 `string`; 5 `T[]`; 6 `Map<T, string>`; 7 `W = string`; 8 an object type that contains itself and `U`. -/
def sampleEnv : Env Nat Nat Nat where
  facts
    | 1 => param 1 none none
    | 2 => param 2 (some 1) none
    | 3 => param 3 none (some 6)
    | 5 => { plain with reference := some (.array true, [1]) }
    | 6 => { plain with reference := some (.other, [1, 4]) }
    | 7 => param 7 none (some 4)
    | 8 => { plain with object := some ⟨[8, 2], none, none, none, []⟩ }
    | _ => plain
  constraintType _ := 1

def signature (ps ts : List Nat) (r : Nat) : Root Nat := .signature (some ⟨none, ps, ts, r, none⟩)

/-- `<T>(x: T[]) => string`: used once. -/
example : (countUsage sampleEnv false [1] 20 [signature [5] [1] 4]).map (· 1) = some 2 := by decide
/-- `<T>() => T[]`: arrays that are returned count twice. -/
example : (countUsage sampleEnv false [1] 20 [signature [] [1] 5]).map (· 1) = some 3 := by decide
/-- `<T, U extends T>(x: Self, y: U)`: `T` is used once, in the constraint, `U` without end. -/
example : (countUsage sampleEnv false [1, 2] 100 [signature [8, 2] [1, 2] 4]).map (fun c => (c 1, c 2)) = some (2, 3) := by decide

/-- C95 (hazard: only one default).  In `<T, W = string, V = Map<T, string>>(w: W, v: V)` the default of `V` is not looked at, since that of `W` was, so that `T` counts as never used;
without `W` it would be used often enough.  (This is where `OneDefault` fails.) -/
theorem C95_hazard_default :
    (countUsage sampleEnv false [1] 100 [signature [7, 3] [1, 7, 3] 4]).map (· 1) = some 1 ∧
    (countUsage sampleEnv false [1] 100 [signature [3] [1, 3] 4]).map (· 1) = some 3 := by decide

/-- The hypotheses of `C95_ends` are met. -/
example : ∀ t ∈ [1, 2, 3, 4, 5, 6, 7, 8], ∀ p ∈ parts sampleEnv false ⟨t, false, false⟩, p.type ∈ [1, 2, 3, 4, 5, 6, 7, 8] := by decide

def sorter : Sorter byPosition := Sorter.ofMergeSort byPosition (by intro a b c; unfold byPosition; omega) (by intro a b; unfold byPosition; omega)

/-- `<T>(x: T[]) => string` with the name of the parameter at 1 and the reference at 6. -/
def sampleTree : Syn Nat := .node .other [.ident 0 (some 1) 1 1 2, .node .wrapping [.node .type [.ident 1 (some 1) 6 6 7]]]

example : (ids sampleTree).Nodup := by decide
example : (check sampleEnv sorter false 20 sampleTree none [⟨0, some 1, 1, 2⟩] [signature [5] [1] 4]).map (·.map fun r => (r.param.name, r.never, r.label)) =
    some [(0, false, some ⟨1, 6, 6, 7, true⟩)] := by decide +kernel

/-- `<T extends A | B>(x: T[])` becomes `(x: (A | B)[])`. -/
example : AppliesTo (ascii "<T extends A | B>(x: T[])") (fixes (some (ascii "A | B", true)) (0, 17) [⟨1, 20, 21, 22, true⟩]) (ascii "(x: (A | B)[])") :=
  C95_fix (some (ascii "A | B", true)) [] [.keep (ascii "(x: "), .ref (ascii "T") true, .keep (ascii "[])")] (ascii "<T extends A | B>") (by decide) [] [] [⟨1, 20, 21, 22, true⟩]
    .nil (.keep (.ref rfl rfl rfl (.keep .nil))) (by simp)

example : removal (ascii "f<T>()") id [(⟨0, some 1, 2, 3⟩ : Param Nat)] 0 ⟨0, some 1, 2, 3⟩ = (1, 4) := by decide
example : removal (ascii "f<A , T>()") id [(⟨0, some 1, 2, 3⟩ : Param Nat), ⟨1, some 2, 5, 7⟩] 1 ⟨1, some 2, 5, 7⟩ = (4, 7) := by decide

end Samples

end Tsgolint.TypeParameters
