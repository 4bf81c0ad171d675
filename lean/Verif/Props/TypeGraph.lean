import Verif.Proof.TypeGraph
/-! # C39: unsafe assignments; C40: any-like types; C51: builtin types and base types; C52: names, signatures, thenables -/
namespace Tsgolint.TypeGraph
variable {T : Type} [DecidableEq T]

/-! ## C39 -/

/-- C39 (termination).  The check ends on every type graph with finitely many types, cyclic or not, after at most one comparison per pair of
types. -/
theorem C39_terminates (shape : T → Shape T) (newMap : Bool) (U : List T) (hU : ClosedUnderArgs shape U) (t r : T) (ht : t ∈ U) (hr : r ∈ U) :
    ∃ o, isUnsafeAssignment shape newMap (U.length * U.length + 1) t r = some o := by
  have hlen : (unseen U (fun _ => none : Visited T)).length ≤ U.length * U.length := by
    have h1 : ∀ (l : List T), (l.flatMap fun a => U.map fun b => (a, b)).length = l.length * U.length := by
      intro l
      induction l with
      | nil => simp
      | cons a l ih => simp [ih, Nat.add_mul, Nat.add_comm]
    rw [← h1 U]
    exact List.length_filter_le _ _
  obtain ⟨o, v', h, _⟩ := unsafeWorker_some (newMap := newMap) hU (U.length * U.length + 1) (fun _ => none) t r ht hr (by omega)
  exact ⟨o, by simp [isUnsafeAssignment, h]⟩

/-- C39.  However much fuel is given, the answer is the same. -/
theorem C39_unique (shape : T → Shape T) (newMap : Bool) (n m : Nat) (t r : T) (o o' : Outcome T)
    (h : isUnsafeAssignment shape newMap n t r = some o) (h' : isUnsafeAssignment shape newMap m t r = some o') : o = o' := by
  refine mono_unique (f := fun n => isUnsafeAssignment shape newMap n t r) ?_ h h'
  intro n x hx
  simp only [isUnsafeAssignment, Option.map_eq_some_iff] at hx ⊢
  obtain ⟨a, ha, rfl⟩ := hx
  exact ⟨a, unsafeWorker_mono n _ _ _ _ ha, rfl⟩

/-- C39 (exact).  An assignment is called unsafe exactly if somewhere among the pairs compared `any` meets something that is neither `any` nor
`unknown`; the pair returned is then the one asked about.  It never panics if references to the same generic type have equally many arguments. -/
theorem C39_exact (shape : T → Shape T) (newMap : Bool) (n : Nat) (t r : T) (o : Outcome T)
    (hargs : ∀ a b, Compared shape newMap t r a b → ¬ Mismatch shape a b)
    (h : isUnsafeAssignment shape newMap n t r = some o) :
    (o = .bad r t ∧ ∃ a b, Compared shape newMap t r a b ∧ UnsafeAt shape a b) ∨
    (o = .safe ∧ ¬ ∃ a b, Compared shape newMap t r a b ∧ UnsafeAt shape a b) := by
  simp only [isUnsafeAssignment, Option.map_eq_some_iff] at h
  obtain ⟨⟨o', v'⟩, h, rfl⟩ := h
  have hok := (unsafeWorker_ok n _ _ _ _ _ h).2
  cases o' with
  | bad r' t' =>
    obtain ⟨rfl, rfl, hab⟩ := hok
    exact Or.inl ⟨rfl, hab⟩
  | panic =>
    obtain ⟨a, b, hc, hm⟩ := hok
    exact absurd hm (hargs a b hc)
  | safe =>
    refine Or.inr ⟨rfl, ?_⟩
    obtain ⟨hd, hc⟩ := hok
    have hnone : ∀ a b, ¬ Seen (fun _ => none : Visited T) a b := by rintro a b ⟨l, hl, _⟩; simp at hl
    have hall : ∀ a b, Compared shape newMap t r a b → Done shape v' a b := by
      intro a b hab
      induction hab with
      | self => exact hd
      | @arg a b target as bs x y i _ hn ha hb hx hy ih =>
        rcases ih with hs | ⟨h1, _⟩
        · rcases hc _ _ hs with h | h
          · exact absurd h (hnone _ _)
          · exact h.2 x y ⟨hn, target, as, bs, i, ha, hb, hx, hy⟩
        · rw [h1] at ha; cases ha
    rintro ⟨a, b, hab, hu⟩
    rcases hall a b hab with hs | ⟨h1, h2⟩
    · rcases hc _ _ hs with h | h
      · exact hnone _ _ h
      · exact h.1 hu
    · exact hu.2.2 h2

/-- C39 (panic).  The only way to panic is a pair of references to the same generic type of which the sender has more arguments. -/
theorem C39_panic (shape : T → Shape T) (newMap : Bool) (n : Nat) (t r : T) (h : isUnsafeAssignment shape newMap n t r = some .panic) :
    ∃ a b, Compared shape newMap t r a b ∧ Mismatch shape a b := by
  simp only [isUnsafeAssignment, Option.map_eq_some_iff] at h
  obtain ⟨⟨o', v'⟩, h, rfl⟩ := h
  exact (unsafeWorker_ok n _ _ _ _ _ h).2

/-- C39.  A value `new Map()` is unsafe to assign only if its type is `any` outright. -/
theorem C39_new_map (shape : T → Shape T) (n : Nat) (t r : T) (o : Outcome T) (h : isUnsafeAssignment shape true n t r = some o) :
    (o = .bad r t ∧ UnsafeAt shape t r) ∨ (o = .safe ∧ ¬ UnsafeAt shape t r) := by
  have hself : ∀ a b, Compared shape true t r a b → a = t ∧ b = r := by
    intro a b hab
    cases hab with
    | self => exact ⟨rfl, rfl⟩
    | arg _ _ hn => simp at hn
  have hne : o ≠ .panic := by
    rintro rfl
    simp only [isUnsafeAssignment, Option.map_eq_some_iff] at h
    obtain ⟨⟨o', v'⟩, h, rfl⟩ := h
    cases n with
    | zero => simp [unsafeWorker] at h
    | succ n =>
      rcases unsafeWorker_succ shape true n (fun _ => none) t r with ⟨_, _, e⟩ | ⟨_, e⟩ | ⟨_, _, e⟩ | ⟨_, _, _, _, e⟩ | ⟨_, _, hn, _⟩
      · rw [e] at h; simp at h
      · rw [e] at h; simp at h
      · rw [e] at h; simp at h
      · rw [e] at h; simp at h
      · simp at hn
  simp only [isUnsafeAssignment, Option.map_eq_some_iff] at h
  obtain ⟨⟨o', v'⟩, h, rfl⟩ := h
  cases n with
  | zero => simp [unsafeWorker] at h
  | succ n =>
    rcases unsafeWorker_succ shape true n (fun _ => none) t r with ⟨_, hr, e⟩ | ⟨hu, e⟩ | ⟨hu, _, e⟩ | ⟨hu, _, _, _, e⟩ | ⟨_, _, hn, _⟩
    · rw [e] at h; simp at h; obtain ⟨rfl, rfl⟩ := h; exact Or.inr ⟨rfl, fun h => h.2.2 hr⟩
    · rw [e] at h; simp at h; obtain ⟨rfl, rfl⟩ := h; exact Or.inl ⟨rfl, hu⟩
    · rw [e] at h; simp at h; obtain ⟨rfl, rfl⟩ := h; exact Or.inr ⟨rfl, hu⟩
    · rw [e] at h; simp at h; obtain ⟨rfl, rfl⟩ := h; exact Or.inr ⟨rfl, hu⟩
    · simp at hn

/-! A cyclic example: `interface A extends Box<A>`-like types 0 = Ref 5 [0, 2], 1 = Ref 5 [1, 3], 2 = any, 3 = number. -/

/-- The example graph. -/
def cyclic : Nat → Shape Nat
  | 0 => .ref 5 (some [0, 2])
  | 1 => .ref 5 (some [1, 3])
  | 2 => .any
  | _ => .other

example : (match isUnsafeAssignment cyclic false 17 0 1 with | some (.bad 1 0) => true | _ => false) = true := by decide

example : ClosedUnderArgs cyclic [0, 1, 2, 3] := by
  intro t ht target as h a ha
  simp only [List.mem_cons, List.not_mem_nil, or_false] at ht
  rcases ht with rfl | rfl | rfl | rfl <;> simp [cyclic] at h <;> obtain ⟨rfl, rfl⟩ := h <;> simp at ha <;> rcases ha with rfl | rfl <;> simp

example : ∃ a b, Compared cyclic false 0 1 a b ∧ UnsafeAt cyclic a b :=
  ⟨2, 3, .arg (a := 0) (b := 1) (target := 5) (as := [0, 2]) (bs := [1, 3]) 1 .self rfl rfl rfl rfl rfl, rfl, by simp [cyclic], by simp [cyclic]⟩

example : (match isUnsafeAssignment cyclic false 17 0 0 with | some .safe => true | _ => false) = true := by decide

/-! ## C40 -/

omit [DecidableEq T] in
theorem AwaitReach.head {E : AnyEnv T} {a b : T} (h : ∀ c, AwaitReach E a c → E.shape c ≠ .any) (hs : AwaitStep E a b) :
    ∀ c, AwaitReach E b c → E.shape c ≠ .any := fun c hc => h c (.step hs hc)

theorem worker_noAny (E : AnyEnv T) (n : Nat) : ∀ (a : T) (v : List T) (c : AnyClass) (v' : List T),
    (∀ b, AwaitReach E a b → E.shape b ≠ .any) → (∀ x ∈ v, E.shape x ≠ .any) → discriminateWorker E n a v = some (c, v') →
    c ≠ .any ∧ ∀ x ∈ v', E.shape x ≠ .any := by
  induction n with
  | zero => intro a v c v' _ _ h; simp [discriminateWorker] at h
  | succ n ih =>
    intro a v c v' hno hv h
    have ha : E.shape a ≠ .any := hno a .refl
    have hv1 : ∀ x ∈ v ++ [a], E.shape x ≠ .any := by
      intro x hx
      simp only [List.mem_append, List.mem_singleton] at hx
      rcases hx with hx | rfl
      · exact hv x hx
      · exact ha
    rw [discriminateWorker] at h
    split at h
    · simp at h; obtain ⟨rfl, rfl⟩ := h; exact ⟨by simp, hv⟩
    · simp only at h
      · split at h
        · simp at h; obtain ⟨rfl, rfl⟩ := h; exact ⟨by simp, hv1⟩
        · have key : ∀ b s', typeRecurser E.shape (awaitsAny E (discriminateWorker E n)) n a (v ++ [a]) = some (b, s') →
              b = false ∧ ∀ x ∈ s', E.shape x ≠ .any := by
            intro b s' hr
            have := typeRecurser_spec (I := fun s => ∀ x ∈ s, E.shape x ≠ .any) (Qt := fun _ => False) (Qf := fun _ => True) n a (v ++ [a]) b s'
              (by
                intro c s b s' hc hs hp
                unfold awaitsAny at hp
                split at hp
                · simp at hp; obtain ⟨rfl, rfl⟩ := hp; exact ⟨by simp, fun _ => ⟨trivial, hs⟩⟩
                · rename_i hth
                  split at hp
                  · simp at hp; obtain ⟨rfl, rfl⟩ := hp; exact ⟨by simp, fun _ => ⟨trivial, hs⟩⟩
                  · rename_i w hw
                    split at hp
                    · simp at hp
                    · rename_i c' v'' hd
                      have hstep : AwaitStep E a w := ⟨c, hc, by simpa using hth, hw⟩
                      have := ih w s c' v'' (AwaitReach.head hno hstep) hs hd
                      simp at hp
                      obtain ⟨hb, rfl⟩ := hp
                      refine ⟨fun hb' => ?_, fun _ => ⟨trivial, this.2⟩⟩
                      rw [← hb] at hb'
                      exact absurd (by simpa using hb') this.1) hv1 hr
            cases b with
            | true => obtain ⟨_, _, hf⟩ := this.1 rfl; exact hf.elim
            | false => exact ⟨rfl, (this.2 rfl).2⟩
          split at h
          · simp at h
          · rename_i hr; have := (key _ _ hr).1; simp at this
          · rename_i hr
            simp at h; obtain ⟨rfl, rfl⟩ := h
            exact ⟨by simp, (key _ _ hr).2⟩

/-- C40.  The class of a type: `any` itself; an array of `any`; a promise (or a union or intersection with a promise) of `any`; anything else.
Provided awaiting is complete, as it is in TypeScript. -/
theorem C40_exact (E : AnyEnv T) (n : Nat) (t : T) (c : AnyClass) (hfull : AwaitsFully E t) (h : discriminateAnyType E n t = some c) :
    (c = .any ↔ E.shape t = .any) ∧
    (c = .anyArray ↔ E.shape t ≠ .any ∧ E.isAnyArray t = true) ∧
    (c = .promiseAny ↔ E.shape t ≠ .any ∧ E.isAnyArray t = false ∧ ∃ a, AwaitStep E t a ∧ E.shape a = .any) := by
  simp only [discriminateAnyType, Option.map_eq_some_iff] at h
  obtain ⟨⟨c', v'⟩, h, rfl⟩ := h
  simp only
  cases n with
  | zero => simp [discriminateWorker] at h
  | succ n =>
    rw [discriminateWorker] at h
    simp only [List.contains_nil, Bool.false_eq_true, if_false, List.nil_append] at h
    by_cases hany : E.shape t = .any
    · rw [hany] at h; simp at h; obtain ⟨rfl, rfl⟩ := h; simp [hany]
    · split at h
      · rename_i hs; exact absurd hs hany
      · split at h
        · rename_i harr
          simp at h; obtain ⟨rfl, rfl⟩ := h; simp [hany, harr]
        · rename_i harr
          have key : ∀ b s', typeRecurser E.shape (awaitsAny E (discriminateWorker E n)) n t [t] = some (b, s') →
              (b = true ↔ ∃ a, AwaitStep E t a ∧ E.shape a = .any) := by
            intro b s' hr
            have := typeRecurser_spec (I := fun s => ∀ x ∈ s, E.shape x ≠ .any)
              (Qt := fun c => E.isThenable c = true ∧ ∃ a, E.awaited c = some a ∧ E.shape a = .any)
              (Qf := fun c => ¬ (E.isThenable c = true ∧ ∃ a, E.awaited c = some a ∧ E.shape a = .any)) n t [t] b s'
              (by
                intro c s b s' hc hs hp
                unfold awaitsAny at hp
                split at hp
                · rename_i hth
                  simp at hp; obtain ⟨rfl, rfl⟩ := hp; exact ⟨by simp, fun _ => ⟨by simp [hth], hs⟩⟩
                · rename_i hth
                  split at hp
                  · rename_i hw
                    simp at hp; obtain ⟨rfl, rfl⟩ := hp; exact ⟨by simp, fun _ => ⟨by simp [hw], hs⟩⟩
                  · rename_i w hw
                    split at hp
                    · simp at hp
                    · rename_i c' v'' hd
                      have hstep : AwaitStep E t w := ⟨c, hc, by simpa using hth, hw⟩
                      simp at hp
                      obtain ⟨hb, rfl⟩ := hp
                      by_cases hwa : E.shape w = .any
                      · have hc' : c' = .any := by
                          cases n with
                          | zero => simp [discriminateWorker] at hd
                          | succ n =>
                            rw [discriminateWorker] at hd
                            have hnot : s.contains w = false := by
                              cases hcon : s.contains w with
                              | false => rfl
                              | true => exact absurd hwa (hs w (by simpa using hcon))
                            rw [hnot] at hd
                            simp [hwa] at hd
                            exact hd.1.symm
                        refine ⟨fun _ => ⟨by simpa using hth, w, hw, hwa⟩, fun hbf => ?_⟩
                        rw [← hb, hc'] at hbf; simp at hbf
                      · have := worker_noAny E n w s c' v'' (hfull w hstep hwa) hs hd
                        refine ⟨fun hbt => ?_, fun _ => ⟨?_, this.2⟩⟩
                        · rw [← hb] at hbt; exact absurd (by simpa using hbt) this.1
                        · rintro ⟨_, a, ha, haa⟩
                          rw [hw] at ha; cases ha; exact hwa haa) (by simpa using hany) hr
            constructor
            · intro hb
              obtain ⟨c, hc, hth, a, ha, haa⟩ := this.1 hb
              exact ⟨a, ⟨c, hc, hth, ha⟩, haa⟩
            · rintro ⟨a, ⟨c, hc, hth, ha⟩, haa⟩
              cases b with
              | true => rfl
              | false => exact absurd ⟨hth, a, ha, haa⟩ ((this.2 rfl).1 c hc)
          split at h
          · simp at h
          · rename_i hr
            simp at h; obtain ⟨rfl, rfl⟩ := h
            have := (key _ _ hr).1 rfl
            simp [hany, harr, this]
          · rename_i hr
            simp at h; obtain ⟨rfl, rfl⟩ := h
            have hh := key _ _ hr
            simp only [Bool.false_eq_true, false_iff] at hh
            simp [hany, harr, hh]

/-- C40 (termination).  The classification ends on every finite type graph, however promises refer to themselves. -/
theorem C40_terminates (E : AnyEnv T) (U : List T) (depth : T → Nat) (D : Nat) (hU : FiniteBelow E U depth D) (t : T) (ht : t ∈ U) :
    ∃ c, discriminateAnyType E (U.length + D + 2) t = some c := by
  obtain ⟨hparts, hawait, hdepth⟩ := hU
  have main : ∀ n (t : T) (v : List T), t ∈ U → (U.filter fun x => !v.contains x).length + D + 1 < n →
      ∃ c v', discriminateWorker E n t v = some (c, v') ∧ ∀ x ∈ v, x ∈ v' := by
    intro n
    induction n with
    | zero => intro t v _ h; omega
    | succ n ih =>
      intro t v htU hlt
      rw [discriminateWorker]
      split
      · exact ⟨_, _, rfl, fun _ h => h⟩
      · rename_i hnot
        simp only
        have hv1 : ∀ x ∈ v, x ∈ v ++ [t] := fun x hx => by simp [hx]
        split
        · exact ⟨_, _, rfl, hv1⟩
        · split
          · exact ⟨_, _, rfl, hv1⟩
          · have hsmall : (U.filter fun x => !(v ++ [t]).contains x).length < (U.filter fun x => !v.contains x).length := by
              have hsub : (U.filter fun x => !(v ++ [t]).contains x) = (U.filter fun x => !v.contains x).filter (fun x => x ≠ t) := by
                rw [List.filter_filter]
                congr 1
                funext x
                by_cases h1 : x ∈ v <;> by_cases h2 : x = t <;> simp [h1, h2]
              rw [hsub]
              rcases Nat.lt_or_ge ((U.filter fun x => !v.contains x).filter (fun x => x ≠ t)).length (U.filter fun x => !v.contains x).length with h | h
              · exact h
              · have := List.filter_eq_self.1 (List.Sublist.eq_of_length_le List.filter_sublist h) t (by
                  simp only [List.mem_filter]; exact ⟨htU, by simpa using hnot⟩)
                simp at this
            obtain ⟨b, v', hr, hI⟩ := typeRecurser_total (shape := E.shape) (predicate := awaitsAny E (discriminateWorker E n))
              (I := fun s => ∀ x ∈ v ++ [t], x ∈ s) (U := fun x => x ∈ U) (depth := depth)
              (fun x ps hx hs p hp => hparts x hx ps hs p hp)
              (by
                intro c s hc hs
                unfold awaitsAny
                split
                · exact ⟨_, _, rfl, hs⟩
                · split
                  · exact ⟨_, _, rfl, hs⟩
                  · rename_i a ha
                    have hle : (U.filter fun x => !s.contains x).length ≤ (U.filter fun x => !(v ++ [t]).contains x).length := by
                      rw [← List.countP_eq_length_filter, ← List.countP_eq_length_filter]
                      apply List.countP_mono_left
                      intro x _ hx
                      have := hs x
                      simp only [Bool.not_eq_true', List.contains_eq_mem, decide_eq_false_iff_not] at hx ⊢
                      exact fun hm => hx (this hm)
                    obtain ⟨c', s', hw, hm⟩ := ih a s (hawait c hc a ha) (by omega)
                    rw [hw]
                    exact ⟨_, _, rfl, fun x hx => hm x (hs x hx)⟩) n t (v ++ [t]) htU (fun x hx => hx) (by have := hdepth t htU; omega)
            rw [hr]
            cases b with
            | true => exact ⟨_, _, rfl, fun x hx => hI x (hv1 x hx)⟩
            | false => exact ⟨_, _, rfl, fun x hx => hI x (hv1 x hx)⟩
  obtain ⟨c, v', h, _⟩ := main (U.length + D + 2) t [] ht (by
    have : (U.filter fun x => !([] : List T).contains x).length ≤ U.length := List.length_filter_le _ _
    omega)
  exact ⟨c, by simp [discriminateAnyType, h]⟩

/-- C40.  The answer does not depend on the fuel. -/
theorem C40_unique (E : AnyEnv T) (n m : Nat) (t : T) (c c' : AnyClass) (h : discriminateAnyType E n t = some c)
    (h' : discriminateAnyType E m t = some c') : c = c' := by
  refine mono_unique (f := fun n => discriminateAnyType E n t) ?_ h h'
  intro n x hx
  simp only [discriminateAnyType, Option.map_eq_some_iff] at hx ⊢
  obtain ⟨a, ha, rfl⟩ := hx
  exact ⟨a, discriminateWorker_mono n _ _ _ ha, rfl⟩

/-- A graph in which awaiting is not complete: 0 = 1 | 2, awaiting 1 gives 3, awaiting 3 gives any (4), awaiting 2 gives any (4). -/
def incomplete : AnyEnv Nat where
  shape | 0 => .union [1, 2] | 4 => .any | _ => .other
  isAnyArray _ := false
  isThenable t := t = 1 || t = 2 || t = 3
  awaited | 1 => some 3 | 2 => some 4 | 3 => some 4 | _ => none

/-- C40 (why the condition).  If awaiting an awaited type could give `any`, the set of visited types would hide a promise of `any`. -/
theorem C40_condition_needed : discriminateAnyType incomplete 9 0 = some .safe ∧ AwaitStep incomplete 0 4 ∧ incomplete.shape 4 = .any := by
  refine ⟨by decide, ⟨2, .union (ps := [1, 2]) rfl (by simp) (.self (by simp [incomplete]) (by simp [incomplete])), rfl, rfl⟩, rfl⟩

/-- Promise<any> | number: 0 = 1 | 2, awaiting 1 gives any (3). -/
def promiseOfAny : AnyEnv Nat where
  shape | 0 => .union [2, 1] | 3 => .any | _ => .other
  isAnyArray _ := false
  isThenable t := t = 1
  awaited t := if t = 1 then some 3 else none

example : discriminateAnyType promiseOfAny 9 0 = some .promiseAny := by decide

example : AwaitsFully promiseOfAny 0 := by
  rintro a ⟨c, _, _, hw⟩ hne
  simp only [promiseOfAny] at hw
  split at hw
  · cases hw; exact absurd rfl hne
  · cases hw

/-! ## C51 -/

omit [DecidableEq T]

/-- C51.  A type is reported as like a builtin exactly if it is so by its parts, its constraint, its own symbol or one of its base types. -/
theorem C51_builtin_like (E : BaseEnv T) (predicate : T → Matches) (n : Nat) : ∀ (t : T) (b : Bool),
    builtinRecurser E predicate n t = some b → (b = true ↔ BuiltinLike E predicate t) := by
  induction n with
  | zero => intro t b h; simp [builtinRecurser] at h
  | succ n ih =>
    intro t b h
    have hf : ∀ ps : List T, ∀ p ∈ ps, ∀ c, (fun t (_ : Unit) => (builtinRecurser E predicate n t).map fun b => (b, ())) p () = some (c, ()) →
        (c = true ↔ BuiltinLike E predicate p) := by
      intro ps p _ c hc
      exact ih p c (unit_map_iff.1 hc)
    rw [builtinRecurser] at h
    simp only at h
    split at h
    · rename_i ps hs
      simp only [Option.map_eq_some_iff] at h
      obtain ⟨⟨b', u⟩, h, rfl⟩ := h
      rw [someLoop_spec (Q := BuiltinLike E predicate) ps b' (hf ps) h]
      constructor
      · rintro ⟨p, hp, hl⟩; exact .intersection hs hp hl
      · intro hl
        cases hl with
        | intersection hs' hp hl => rw [hs] at hs'; cases hs'; exact ⟨_, hp, hl⟩
        | union hs' => rw [hs] at hs'; cases hs'
        | param hs' => rw [hs] at hs'; cases hs'
        | yes h1 => exact absurd hs (h1 ps)
        | base h1 => exact absurd hs (h1 ps)
    · rename_i ps hs
      simp only [Option.map_eq_some_iff] at h
      obtain ⟨⟨b', u⟩, h, rfl⟩ := h
      rw [everyLoop_spec (Q := BuiltinLike E predicate) ps b' (hf ps) h]
      constructor
      · exact fun hl => .union hs hl
      · intro hl
        cases hl with
        | union hs' hl => rw [hs] at hs'; cases hs'; exact hl
        | intersection hs' => rw [hs] at hs'; cases hs'
        | param hs' => rw [hs] at hs'; cases hs'
        | yes _ h1 => exact absurd hs (h1 ps)
        | base _ h1 => exact absurd hs (h1 ps)
    · rename_i c hs
      rw [ih c b h]
      constructor
      · exact fun hl => .param hs hl
      · intro hl
        cases hl with
        | param hs' hl => rw [hs] at hs'; cases hs'; exact hl
        | intersection hs' => rw [hs] at hs'; cases hs'
        | union hs' => rw [hs] at hs'; cases hs'
        | yes _ _ h1 => exact absurd hs (h1 _)
        | base _ _ h1 => exact absurd hs (h1 _)
    · rename_i hs
      simp at h; subst h
      simp only [Bool.false_eq_true, false_iff]
      intro hl
      cases hl with
      | param hs' => rw [hs] at hs'; cases hs'
      | intersection hs' => rw [hs] at hs'; cases hs'
      | union hs' => rw [hs] at hs'; cases hs'
      | yes _ _ h1 => exact absurd hs (h1 _)
      | base _ _ h1 => exact absurd hs (h1 _)
    · rename_i h1 h2 h3 h4
      have n1 : ∀ ps, E.shape t ≠ .intersection ps := fun ps hh => h1 ps hh
      have n2 : ∀ ps, E.shape t ≠ .union ps := fun ps hh => h2 ps hh
      have n3 : ∀ c, E.shape t ≠ .param c := fun c hh => by
        cases c with
        | none => exact h4 hh
        | some c => exact h3 c hh
      split at h
      · rename_i hp
        simp at h; subst h
        simp only [true_iff]
        exact .yes n1 n2 n3 hp
      · rename_i hp
        simp at h; subst h
        simp only [Bool.false_eq_true, false_iff]
        intro hl
        cases hl with
        | param hs' => exact n3 _ hs'
        | intersection hs' => exact n1 _ hs'
        | union hs' => exact n2 _ hs'
        | yes _ _ _ h => rw [hp] at h; cases h
        | base _ _ _ h => rw [hp] at h; cases h
      · rename_i hp
        split at h
        · rename_i bs hb
          simp only [Option.map_eq_some_iff] at h
          obtain ⟨⟨b', u⟩, h, rfl⟩ := h
          rw [someLoop_spec (Q := BuiltinLike E predicate) bs b' (hf bs) h]
          constructor
          · rintro ⟨p, hp', hl⟩; exact .base n1 n2 n3 hp hb hp' hl
          · intro hl
            cases hl with
            | param hs' => exact absurd hs' (n3 _)
            | intersection hs' => exact absurd hs' (n1 _)
            | union hs' => exact absurd hs' (n2 _)
            | yes _ _ _ h => rw [hp] at h; cases h
            | base _ _ _ _ hb' hm hl => rw [hb] at hb'; cases hb'; exact ⟨_, hm, hl⟩
        · rename_i hb
          simp at h; subst h
          simp only [Bool.false_eq_true, false_iff]
          intro hl
          cases hl with
          | param hs' => exact n3 _ hs'
          | intersection hs' => exact n1 _ hs'
          | union hs' => exact n2 _ hs'
          | yes _ _ _ h => rw [hp] at h; cases h
          | base _ _ _ _ hb' => rw [hb] at hb'; cases hb'

/-- C51 (termination).  The check ends for every type with no infinite chain of parts, constraints and base types below it. -/
theorem C51_terminates (E : BaseEnv T) (predicate : T → Matches) (t : T) (h : Acc (Below E) t) :
    ∃ n b, builtinRecurser E predicate n t = some b := by
  induction h with
  | intro t _ ih =>
    have many : ∀ ps : List T, (∀ p ∈ ps, ∃ n b, builtinRecurser E predicate n p = some b) →
        ∃ n, ∀ p ∈ ps, ∃ b, builtinRecurser E predicate n p = some b := by
      intro ps
      induction ps with
      | nil => intro _; exact ⟨0, by simp⟩
      | cons p ps ihp =>
        intro hp
        obtain ⟨n1, b, h1⟩ := hp p (by simp)
        obtain ⟨n2, h2⟩ := ihp fun q hq => hp q (by simp [hq])
        refine ⟨max n1 n2, ?_⟩
        intro q hq
        simp only [List.mem_cons] at hq
        rcases hq with rfl | hq
        · exact ⟨b, mono_le (f := fun n => builtinRecurser E predicate n q) (fun n x => builtinRecurser_mono n q x) (Nat.le_max_left _ _) h1⟩
        · obtain ⟨b', h'⟩ := h2 q hq
          exact ⟨b', mono_le (f := fun n => builtinRecurser E predicate n q) (fun n x => builtinRecurser_mono n q x) (Nat.le_max_right _ _) h'⟩
    have tot : ∀ n, ∀ ps : List T, (∀ p ∈ ps, ∃ b, builtinRecurser E predicate n p = some b) →
        ∀ p ∈ ps, ∃ c, (fun t (_ : Unit) => (builtinRecurser E predicate n t).map fun b => (b, ())) p () = some (c, ()) := by
      intro n ps hp p hpm
      obtain ⟨b, hb⟩ := hp p hpm
      exact ⟨b, by simp [hb]⟩
    cases hs : E.shape t with
    | intersection ps =>
      obtain ⟨n, hn⟩ := many ps fun p hp => ih p (Or.inl ⟨ps, Or.inl hs, hp⟩)
      obtain ⟨b, hb⟩ := someLoop_total (f := fun t (_ : Unit) => (builtinRecurser E predicate n t).map fun b => (b, ())) ps (tot n ps hn)
      exact ⟨n + 1, b, by simp [builtinRecurser, hs, hb]⟩
    | union ps =>
      obtain ⟨n, hn⟩ := many ps fun p hp => ih p (Or.inl ⟨ps, Or.inr hs, hp⟩)
      obtain ⟨b, hb⟩ := everyLoop_total (f := fun t (_ : Unit) => (builtinRecurser E predicate n t).map fun b => (b, ())) ps (tot n ps hn)
      exact ⟨n + 1, b, by simp [builtinRecurser, hs, hb]⟩
    | param c =>
      cases c with
      | none => exact ⟨1, false, by simp [builtinRecurser, hs]⟩
      | some c =>
        obtain ⟨n, b, hb⟩ := ih c (Or.inr (Or.inl hs))
        exact ⟨n + 1, b, by simp [builtinRecurser, hs, hb]⟩
    | _ =>
      cases hp : predicate t with
      | yes => exact ⟨1, true, by simp [builtinRecurser, hs, hp]⟩
      | no => exact ⟨1, false, by simp [builtinRecurser, hs, hp]⟩
      | unknown =>
        cases hb : E.bases t with
        | none => exact ⟨1, false, by simp [builtinRecurser, hs, hp, hb]⟩
        | some bs =>
          obtain ⟨n, hn⟩ := many bs fun p hp => ih p (Or.inr (Or.inr ⟨bs, hb, hp⟩))
          obtain ⟨b, hb'⟩ := someLoop_total (f := fun t (_ : Unit) => (builtinRecurser E predicate n t).map fun b => (b, ())) bs (tot n bs hn)
          exact ⟨n + 1, b, by simp [builtinRecurser, hs, hp, hb, hb']⟩

/-- C51 (`IsBuiltinSymbolLike`).  The predicate used for `Promise`, `Error` and the like: the symbol is one of those named and is declared in
a default library. -/
theorem C51_symbol_like (E : BaseEnv T) (symbol : T → Option Symbol) (names : List String) (n : Nat) (t : T) (b : Bool)
    (h : isBuiltinSymbolLike E symbol names n t = some b) :
    (b = true ↔ BuiltinLike E (fun t => match symbol t with
      | none => .no
      | some s => if s.name ∈ names ∧ true ∈ s.inLib then .yes else .unknown) t) := by
  have hp : symbolPredicate symbol names = (fun t => match symbol t with
      | none => .no
      | some s => if s.name ∈ names ∧ true ∈ s.inLib then .yes else .unknown) := by
    funext t
    simp only [symbolPredicate, anySymbolPredicate]
    cases symbol t with
    | none => rfl
    | some s => simp [Symbol.fromLib]
  unfold isBuiltinSymbolLike at h
  rw [hp] at h
  exact C51_builtin_like E _ n t b h

/-- C51 (`IsAnyBuiltinSymbolLike`). -/
theorem C51_any_symbol_like (E : BaseEnv T) (symbol : T → Option Symbol) (n : Nat) (t : T) (b : Bool)
    (h : isAnyBuiltinSymbolLike E symbol n t = some b) :
    (b = true ↔ BuiltinLike E (fun t => match symbol t with
      | none => .no
      | some s => if true ∈ s.inLib then .yes else .unknown) t) := by
  have hp : anySymbolPredicate symbol = (fun t => match symbol t with
      | none => .no
      | some s => if true ∈ s.inLib then .yes else .unknown) := by
    funext t
    simp only [symbolPredicate, anySymbolPredicate]
    cases symbol t with
    | none => rfl
    | some s => simp [Symbol.fromLib]
  unfold isAnyBuiltinSymbolLike at h
  rw [hp] at h
  exact C51_builtin_like E _ n t b h

/-- C51 (`MatchesTypeOrBaseType`).  The predicate holds of the type or of a base type, transitively. -/
theorem C51_matches_base (bases : T → List T) (predicate : T → Bool) (n : Nat) : ∀ (t : T) (b : Bool),
    matchesTypeOrBase bases predicate n t = some b → (b = true ↔ ∃ a, Ancestor bases t a ∧ predicate a = true) := by
  induction n with
  | zero => intro t b h; simp [matchesTypeOrBase] at h
  | succ n ih =>
    intro t b h
    rw [matchesTypeOrBase] at h
    split at h
    · rename_i hp
      simp at h; subst h
      simp only [true_iff]
      exact ⟨t, .self, hp⟩
    · rename_i hp
      simp only [Option.map_eq_some_iff] at h
      obtain ⟨⟨b', u⟩, h, rfl⟩ := h
      rw [someLoop_spec (Q := fun t => ∃ a, Ancestor bases t a ∧ predicate a = true) (bases t) b'
        (fun p _ c hc => ih p c (unit_map_iff.1 hc)) h]
      constructor
      · rintro ⟨p, hp', a, ha, hpa⟩; exact ⟨a, .base hp' ha, hpa⟩
      · rintro ⟨a, ha, hpa⟩
        cases ha with
        | self => exact absurd hpa hp
        | base hm ha => exact ⟨_, hm, a, ha, hpa⟩

/-- C51 (termination).  It ends unless there is an infinite chain of base types (which the type checker rules out). -/
theorem C51_matches_terminates (bases : T → List T) (predicate : T → Bool) (t : T) (h : Acc (fun b t => b ∈ bases t) t) :
    ∃ n b, matchesTypeOrBase bases predicate n t = some b := by
  induction h with
  | intro t _ ih =>
    have many : ∀ ps : List T, (∀ p ∈ ps, ∃ n b, matchesTypeOrBase bases predicate n p = some b) →
        ∃ n, ∀ p ∈ ps, ∃ b, matchesTypeOrBase bases predicate n p = some b := by
      intro ps
      induction ps with
      | nil => intro _; exact ⟨0, by simp⟩
      | cons p ps ihp =>
        intro hp
        obtain ⟨n1, b, h1⟩ := hp p (by simp)
        obtain ⟨n2, h2⟩ := ihp fun q hq => hp q (by simp [hq])
        refine ⟨max n1 n2, ?_⟩
        intro q hq
        simp only [List.mem_cons] at hq
        rcases hq with rfl | hq
        · exact ⟨b, mono_le (f := fun n => matchesTypeOrBase bases predicate n q) (fun n x => matches_mono n q x) (Nat.le_max_left _ _) h1⟩
        · obtain ⟨b', h'⟩ := h2 q hq
          exact ⟨b', mono_le (f := fun n => matchesTypeOrBase bases predicate n q) (fun n x => matches_mono n q x) (Nat.le_max_right _ _) h'⟩
    cases hp : predicate t with
    | true => exact ⟨1, true, by simp [matchesTypeOrBase, hp]⟩
    | false =>
      obtain ⟨n, hn⟩ := many (bases t) ih
      obtain ⟨b, hb⟩ := someLoop_total (f := fun t (_ : Unit) => (matchesTypeOrBase bases predicate n t).map fun b => (b, ())) (bases t) (by
        intro p hpm
        obtain ⟨b, hb⟩ := hn p hpm
        exact ⟨b, by simp [hb]⟩)
      exact ⟨n + 1, b, by simp [matchesTypeOrBase, hp, hb]⟩

/-- `class E2 extends E1`, `E1 extends Error`: 0 = E2, 1 = E1, 2 = Error. -/
def errors : BaseEnv Nat where
  shape _ := .other
  bases | 0 => some [1] | 1 => some [2] | _ => some []

/-- Their symbols. -/
def errorSymbols : Nat → Option Symbol
  | 0 => some ⟨"E2", [false]⟩
  | 1 => some ⟨"E1", [false]⟩
  | 2 => some ⟨"Error", [false, true]⟩
  | _ => none

example : isBuiltinSymbolLike errors errorSymbols ["Error"] 4 0 = some true := by decide
example : isBuiltinSymbolLike errors errorSymbols ["Promise"] 4 0 = some false := by decide
example : Acc (Below errors) 0 := by
  have h : ∀ n, Acc (Below errors) (n + 2) := by
    intro n
    constructor
    rintro u (⟨ps, h, _⟩ | h | ⟨bs, h, hu⟩)
    · simp [errors] at h
    · simp [errors] at h
    · simp [errors] at h; subst h; simp at hu
  have h1 : Acc (Below errors) 1 := by
    constructor
    rintro u (⟨ps, h, _⟩ | h | ⟨bs, hb, hu⟩)
    · simp [errors] at h
    · simp [errors] at h
    · simp [errors] at hb; subst hb; simp at hu; subst hu; exact h 0
  constructor
  rintro u (⟨ps, h, _⟩ | h | ⟨bs, hb, hu⟩)
  · simp [errors] at h
  · simp [errors] at h
  · simp [errors] at hb; subst hb; simp at hu; subst hu; exact h1

/-! ## C52 -/

/-- C52.  `GetTypeName` answers `string` exactly for the types all of whose values are strings. -/
theorem C52_name_string (E : NameEnv T) (n : Nat) : ∀ (t : T) (s : String), getTypeName E n t = some s → (s = "string" ↔ Stringy E t) := by
  induction n with
  | zero => intro t s h; simp [getTypeName] at h
  | succ n ih =>
    intro t s h
    have hf : ∀ ps : List T, ∀ p ∈ ps, ∀ c,
        (fun t (_ : Unit) => (getTypeName E n t).map fun s => (decide (s = "string"), ())) p () = some (c, ()) → (c = true ↔ Stringy E p) := by
      intro ps p _ c hc
      cases hg : getTypeName E n p with
      | none => simp [hg] at hc
      | some w => simp [hg] at hc; rw [← hc]; simpa using ih p w hg
    rw [getTypeName] at h
    split at h
    · rename_i hl
      simp at h; subst h
      simp only [true_iff]
      exact .like hl
    · rename_i hl
      have hl : E.stringLike t = false := by simpa using hl
      split at h
      · rename_i k hs
        split at h
        · rename_i c hc
          rw [ih c s h]
          constructor
          · exact fun hh => .param hl hs hc hh
          · intro hh
            cases hh with
            | like h => rw [hl] at h; cases h
            | param _ _ hc' hh => rw [hc] at hc'; cases hc'; exact hh
            | union hs' => rw [hs] at hs'; cases hs'
            | intersection hs' => rw [hs] at hs'; cases hs'
            | printed _ hn => exact absurd hc (hn k c hs)
        · rename_i hc
          simp at h; subst h
          constructor
          · exact fun hh => .printed hh fun k' c' _ => by rw [hc]; simp
          · intro hh
            cases hh with
            | like h => rw [hl] at h; cases h
            | param _ _ hc' => rw [hc] at hc'; cases hc'
            | union hs' => rw [hs] at hs'; cases hs'
            | intersection hs' => rw [hs] at hs'; cases hs'
            | printed hp _ => exact hp
      · rename_i ps hs
        simp only [Option.map_eq_some_iff] at h
        obtain ⟨⟨b, u⟩, h, rfl⟩ := h
        have key := everyLoop_spec (Q := Stringy E) ps b (hf ps) h
        simp only
        split
        · rename_i hb
          simp only [true_iff]
          exact .union hs (key.1 hb)
        · rename_i hb
          constructor
          · exact fun hh => .printed hh fun k c hk => by rw [hs] at hk; cases hk
          · intro hh
            cases hh with
            | like h => rw [hl] at h; cases h
            | param _ hs' => rw [hs] at hs'; cases hs'
            | union hs' hall => rw [hs] at hs'; cases hs'; exact absurd (key.2 hall) hb
            | intersection hs' => rw [hs] at hs'; cases hs'
            | printed hp _ => exact hp
      · rename_i ps hs
        simp only [Option.map_eq_some_iff] at h
        obtain ⟨⟨b, u⟩, h, rfl⟩ := h
        have key := someLoop_spec (Q := Stringy E) ps b (hf ps) h
        simp only
        split
        · rename_i hb
          simp only [true_iff]
          obtain ⟨p, hp, hh⟩ := key.1 hb
          exact .intersection hs hp hh
        · rename_i hb
          constructor
          · exact fun hh => .printed hh fun k c hk => by rw [hs] at hk; cases hk
          · intro hh
            cases hh with
            | like h => rw [hl] at h; cases h
            | param _ hs' => rw [hs] at hs'; cases hs'
            | union hs' => rw [hs] at hs'; cases hs'
            | intersection hs' hp hh => rw [hs] at hs'; cases hs'; exact absurd (key.2 ⟨_, hp, hh⟩) hb
            | printed hp _ => exact hp
      · rename_i h1 h2 h3
        simp at h; subst h
        constructor
        · exact fun hh => .printed hh fun k c hk => absurd hk (h1 k)
        · intro hh
          cases hh with
          | like h => rw [hl] at h; cases h
          | param _ hs' => exact absurd hs' (h1 _)
          | union hs' => exact absurd hs' (h2 _)
          | intersection hs' => exact absurd hs' (h3 _)
          | printed hp _ => exact hp

/-- C52.  The signatures collected: all of a union's parts in order; of an intersection's, those of the one part that has any, and none if
several have some. -/
theorem C52_signatures {S : Type} (shape : T → Shape T) (sigs : T → List S) (t : T) :
    (∀ ps, shape t = .union ps → collectSignatures shape sigs t = ps.flatMap sigs) ∧
    (∀ ps, shape t = .intersection ps →
      (∀ pre p post, ps = pre ++ p :: post → (∀ q ∈ pre ++ post, sigs q = []) → collectSignatures shape sigs t = sigs p) ∧
      ((∀ q ∈ ps, sigs q = []) → collectSignatures shape sigs t = []) ∧
      (∀ pre p mid q post, ps = pre ++ p :: mid ++ q :: post → sigs p ≠ [] → sigs q ≠ [] → collectSignatures shape sigs t = [])) ∧
    ((∀ ps, shape t ≠ .union ps) → (∀ ps, shape t ≠ .intersection ps) → collectSignatures shape sigs t = sigs t) := by
  have none_ : ∀ ps f, (∀ q ∈ ps, sigs q = []) → intersectionSignatures sigs ps f = f.getD [] := by
    intro ps f h
    induction ps with
    | nil => rfl
    | cons p ps ih => simp [intersectionSignatures, h p (by simp), ih fun q hq => h q (by simp [hq])]
  have two : ∀ ps f, (∃ q ∈ ps, sigs q ≠ []) → intersectionSignatures sigs ps (some f) = [] := by
    intro ps f h
    induction ps with
    | nil => simp at h
    | cons p ps ih =>
      by_cases hp : sigs p = []
      · simp only [intersectionSignatures, hp, List.length_nil, ne_eq, not_true_eq_false, if_false]
        apply ih
        obtain ⟨q, hq, hne⟩ := h
        simp only [List.mem_cons] at hq
        rcases hq with rfl | hq
        · exact absurd hp hne
        · exact ⟨q, hq, hne⟩
      · simp [intersectionSignatures, hp]
  refine ⟨?_, ?_, ?_⟩
  · intro ps hs
    simp only [collectSignatures, hs]
    have : ∀ (l : List T) acc, l.foldl (fun acc p => acc ++ sigs p) acc = acc ++ l.flatMap sigs := by
      intro l
      induction l with
      | nil => simp
      | cons a l ih => intro acc; simp [ih]
    simpa using this ps []
  · intro ps hs
    simp only [collectSignatures, hs]
    refine ⟨?_, ?_, ?_⟩
    · rintro pre p post rfl h
      have : ∀ pre : List T, (∀ q ∈ pre, sigs q = []) → intersectionSignatures sigs (pre ++ p :: post) none = sigs p := by
        intro pre hpre
        induction pre with
        | nil =>
          by_cases hp : sigs p = []
          · rw [List.nil_append, none_ _ _ (by
              intro q hq; simp only [List.mem_cons] at hq
              rcases hq with rfl | hq
              · exact hp
              · exact h q (by simp [hq]))]
            simp [hp]
          · have hps : ∀ q ∈ post, sigs q = [] := fun q hq => h q (by simp [hq])
            simp [intersectionSignatures, hp, none_ post _ hps]
        | cons a pre ih => simp [intersectionSignatures, hpre a (by simp), ih fun q hq => hpre q (by simp [hq])]
      exact this pre fun q hq => h q (by simp [hq])
    · intro h; simpa using none_ ps none h
    · rintro pre p mid q post rfl hp hq
      clear hs
      induction pre with
      | nil =>
        simp only [List.nil_append, List.cons_append, intersectionSignatures, ne_eq, List.length_eq_zero_iff, hp, not_false_eq_true, if_true]
        exact two _ _ ⟨q, by simp, hq⟩
      | cons a pre ih =>
        by_cases ha : sigs a = []
        · simpa [intersectionSignatures, ha] using ih
        · simp only [List.cons_append, List.append_assoc, intersectionSignatures, ne_eq, List.length_eq_zero_iff, ha, not_false_eq_true, if_true]
          exact two _ _ ⟨p, by simp, hp⟩
  · intro h1 h2
    unfold collectSignatures
    split
    · rename_i hs; exact absurd hs (h1 _)
    · rename_i hs; exact absurd hs (h2 _)
    · rfl

/-- C52.  A type that is not all strings is named by its printed form, a constrained type parameter by that of its constraint. -/
theorem C52_name_other (E : NameEnv T) (n : Nat) : ∀ (t : T) (s : String), getTypeName E n t = some s → ¬ Stringy E t →
    ∃ u, Resolves E t u ∧ s = E.toString u := by
  induction n with
  | zero => intro t s h; simp [getTypeName] at h
  | succ n ih =>
    intro t s h hns
    have hlike : E.stringLike t = false := by
      cases hl : E.stringLike t with
      | false => rfl
      | true => exact absurd (.like hl) hns
    have hspec := C52_name_string E (n + 1) t s h
    rw [getTypeName] at h
    simp only [hlike, Bool.false_eq_true, if_false] at h
    split at h
    · rename_i k hs
      split at h
      · rename_i c hc
        obtain ⟨u, hu, rfl⟩ := ih c s h fun hh => hns (.param hlike hs hc hh)
        exact ⟨u, .param hlike hs hc hu, rfl⟩
      · rename_i hc
        simp at h
        exact ⟨t, .self hlike fun _ _ => hc, h.symm⟩
    · rename_i ps hs
      simp only [Option.map_eq_some_iff] at h
      obtain ⟨⟨b, u⟩, h, rfl⟩ := h
      refine ⟨t, .self hlike fun k hk => (by rw [hs] at hk; cases hk), ?_⟩
      simp only at hspec ⊢
      split
      · rename_i hb; rw [if_pos hb] at hspec; exact absurd (hspec.1 rfl) hns
      · rfl
    · rename_i ps hs
      simp only [Option.map_eq_some_iff] at h
      obtain ⟨⟨b, u⟩, h, rfl⟩ := h
      refine ⟨t, .self hlike fun k hk => (by rw [hs] at hk; cases hk), ?_⟩
      simp only at hspec ⊢
      split
      · rename_i hb; rw [if_pos hb] at hspec; exact absurd (hspec.1 rfl) hns
      · rfl
    · rename_i h1 _ _
      simp at h
      exact ⟨t, .self hlike fun k hk => absurd hk (h1 k), h.symm⟩

omit [DecidableEq T] in
theorem mem_unionParts (shape : T → Shape T) (t p : T) : p ∈ unionParts shape t ↔ UnionPart shape t p := by
  unfold unionParts UnionPart
  split
  · rename_i ps hs; simp [hs]
  · rename_i hs
    simp only [List.mem_singleton]
    constructor
    · exact fun h => .inr ⟨fun ps => hs ps, h⟩
    · rintro (⟨ps, h, _⟩ | ⟨_, h⟩)
      · exact absurd h (hs ps)
      · exact h

omit [DecidableEq T] in
/-- C52.  `IsThenableType` decides exactly whether the type is thenable. -/
theorem C52_thenable (E : ThenEnv T) (t : T) : isThenable E t = true ↔ Thenable E t := by
  unfold isThenable Thenable
  simp only [List.any_eq_true, mem_unionParts]
  constructor
  · rintro ⟨part, hpart, h⟩
    split at h
    · simp at h
    · rename_i th hth
      simp only [List.any_eq_true, mem_unionParts] at h
      obtain ⟨sub, hsub, sig, hsig, h⟩ := h
      split at h
      · simp at h
      · rename_i p
        unfold isCallback at h
        split at h
        · simp at h
        · rename_i q
          simp only [List.any_eq_true, decide_eq_true_eq, ne_eq, List.length_eq_zero_iff, mem_unionParts] at h
          obtain ⟨x, hx, hne⟩ := h
          exact ⟨part, hpart, th, hth, sub, hsub, q, hsig, x, hx, hne⟩
  · rintro ⟨part, hpart, th, hth, sub, hsub, p, hp, q, hq, hne⟩
    refine ⟨part, hpart, ?_⟩
    simp only [hth, List.any_eq_true, mem_unionParts]
    refine ⟨sub, hsub, some (some p), hp, ?_⟩
    simp only [isCallback, List.any_eq_true, decide_eq_true_eq, ne_eq, List.length_eq_zero_iff, mem_unionParts]
    exact ⟨q, hq, hne⟩

/-- C52.  Whether a value must, may or must not be awaited: unconstrained type parameters, `any` and `unknown` may; thenables must; the rest
must not.  Constrained type parameters count as their constraint. -/
theorem C52_awaitable (shape : T → Shape T) (thenable : T → Bool) (t : T) :
    (shape t = .param none → needsToBeAwaited shape thenable t = .may) ∧
    ∀ c, (shape t = .param (some c) ∨ ((∀ k, shape t ≠ .param k) ∧ c = t)) →
      (needsToBeAwaited shape thenable t = .may ↔ shape c = .any ∨ shape c = .unknown) ∧
      (needsToBeAwaited shape thenable t = .always ↔ shape c ≠ .any ∧ shape c ≠ .unknown ∧ thenable c = true) ∧
      (needsToBeAwaited shape thenable t = .never ↔ shape c ≠ .any ∧ shape c ≠ .unknown ∧ thenable c = false) := by
  refine ⟨fun h => by simp [needsToBeAwaited, h], ?_⟩
  intro c hc
  rcases hc with hc | ⟨hc, rfl⟩
  · cases hs : shape c <;> cases ht : thenable c <;> simp [needsToBeAwaited, hc, hs, ht]
  · cases hs : shape c <;> cases ht : thenable c <;> simp_all [needsToBeAwaited]

/-! `0` is a promise: its `then` is `1`, whose first parameter `2 | 3` accepts the callable `3`.  `4` has a `then` that takes only a `2`. -/

/-- The example for thenables. -/
def promiseLike : ThenEnv Nat where
  shape := fun t => if t = 5 then .union [2, 3] else if t = 6 then .union [4, 0] else .other
  apparent := id
  thenOf := fun t => if t = 0 then some 1 else if t = 4 then some 7 else none
  calls := fun t => if t = 1 then [some (some 5)] else if t = 3 then [none] else if t = 7 then [some (some 2)] else []

example : isThenable promiseLike 0 = true := by decide
example : isThenable promiseLike 6 = true := by decide
example : isThenable promiseLike 4 = false := by decide

/-- `0` is a type parameter extending the union `1` of the string-like `2` and the type parameter `3` that extends `4`, printed `number`. -/
def named : NameEnv Nat where
  shape := fun t => if t = 0 ∨ t = 3 then .param none else if t = 1 then .union [2, 2] else if t = 5 then .union [2, 3] else .other
  stringLike := fun t => t == 2
  declaredConstraint := fun t => if t = 0 then some 1 else if t = 3 then some 4 else none
  toString := fun t => if t = 4 then "number" else "?"

example : getTypeName named 4 0 = some "string" := by decide
example : getTypeName named 4 3 = some "number" := by decide
example : getTypeName named 4 5 = some "?" := by decide

/-- `9` is an intersection of `1` (two signatures) and `0` (none); `8` also has `2` with one; `7` is a union. -/
def callShape : Nat → Shape Nat
  | 9 => .intersection [0, 1]
  | 8 => .intersection [1, 0, 2]
  | 7 => .union [1, 0, 2]
  | _ => .other

/-- Their signatures. -/
def callSigs : Nat → List String
  | 1 => ["a", "b"]
  | 2 => ["c"]
  | _ => []

example : collectSignatures callShape callSigs 9 = ["a", "b"] := by decide
example : collectSignatures callShape callSigs 8 = [] := by decide
example : collectSignatures callShape callSigs 7 = ["a", "b", "c"] := by decide

example : needsToBeAwaited (fun t : Nat => if t = 0 then .param (some 1) else if t = 2 then .param none else .other) (· == 1) 0 = .always := by decide
example : needsToBeAwaited (fun t : Nat => if t = 0 then .param (some 1) else if t = 2 then .param none else .other) (· == 1) 2 = .may := by decide

end Tsgolint.TypeGraph
