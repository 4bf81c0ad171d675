import Verif.Spec.UnsafeArgument
/-! # C82 -/
namespace Tsgolint.UnsafeArgument
variable {T : Type}

theorem getLast_get (ts : List T) : ts[ts.length - 1]? = ts.getLast? := by rw [List.getLast?_eq_getElem?]

theorem map_some_iff (o : Option T) (r : T) : o.map some = some (some r) ↔ o = some r := by cases o <;> simp

/-- C82 (parameters).  The cursor yields what the value is bound to. -/
theorem C82_parameter (ps : List (Param T)) (k : Nat) (consumed : Bool) (r : T) :
    parameterType (splitParams ps) ⟨k, consumed⟩ = some (some r) ↔ Binds ps (if consumed then none else some k) r := by
  cases consumed with
  | false =>
    simp only [Bool.false_eq_true, if_false, Binds]
    induction ps generalizing k with
    | nil => simp [parameterType, splitParams]; intro h; cases h
    | cons p ps ih =>
      cases p with
      | normal t =>
        cases k with
        | zero =>
          have : parameterType (splitParams (.normal t :: ps)) ⟨0, false⟩ = some (some t) := by
            unfold parameterType
            rw [if_neg (by simp [splitParams])]
            rfl
          rw [this]
          simp only [Option.some.injEq]
          exact ⟨fun h => h ▸ .here, fun h => by cases h; rfl⟩
        | succ k =>
          have : Receives (.normal t :: ps) (k + 1) r ↔ Receives ps k r := ⟨fun h => by cases h; assumption, .later⟩
          rw [this, ← ih k]
          simp only [parameterType, splitParams, List.length_cons, ge_iff_le, Nat.add_le_add_iff_right, List.getElem?_cons_succ, Nat.add_sub_add_right]
      | rest x =>
        simp only [parameterType, splitParams, List.length_nil, Nat.zero_le, ge_iff_le, true_or, if_true, Nat.sub_zero, Bool.false_eq_true, if_false]
        cases x with
        | array e => simp only [Option.some.injEq]; exact ⟨fun h => h ▸ .array, fun h => by cases h; rfl⟩
        | other e => simp only [Option.some.injEq]; exact ⟨fun h => h ▸ .other, fun h => by cases h; rfl⟩
        | tuple ts =>
          have hr : Receives (.rest (.tuple ts) :: ps) k r ↔ ts[k]? = some r ∨ (ts.length ≤ k ∧ ts.getLast? = some r) :=
            ⟨fun h => by cases h with
              | element h => exact .inl h
              | beyond h h' => exact .inr ⟨h, h'⟩, fun h => h.elim .element fun h => .beyond h.1 h.2⟩
          rw [hr]
          by_cases h0 : ts.length = 0
          · have : ts = [] := List.length_eq_zero_iff.1 h0
            subst this
            simp
          · simp only [h0, if_false]
            by_cases hk : ts.length ≤ k
            · simp only [hk, if_true, true_and]
              rw [map_some_iff, getLast_get, List.getElem?_eq_none hk]
              simp
            · simp only [hk, if_false, false_and, or_false]
              rw [map_some_iff]
  | true =>
    simp only [if_true, Binds]
    induction ps generalizing k with
    | nil => simp [parameterType, splitParams]; intro h; cases h
    | cons p ps ih =>
      cases p with
      | normal t =>
        have : ReceivesLast (.normal t :: ps) r ↔ ReceivesLast ps r := ⟨fun h => by cases h; assumption, .later⟩
        rw [this, ← ih k]
        simp only [parameterType, splitParams, or_true, if_true]
      | rest x =>
        simp only [parameterType, splitParams, or_true, if_true]
        cases x with
        | array e => simp only [Option.some.injEq]; exact ⟨fun h => h ▸ .array, fun h => by cases h; rfl⟩
        | other e => simp only [Option.some.injEq]; exact ⟨fun h => h ▸ .other, fun h => by cases h; rfl⟩
        | tuple ts =>
          have hr : ReceivesLast (.rest (.tuple ts) :: ps) r ↔ ts.getLast? = some r := ⟨fun h => by cases h; assumption, .tuple⟩
          rw [hr]
          by_cases h0 : ts.length = 0
          · have : ts = [] := List.length_eq_zero_iff.1 h0
            subst this
            simp
          · simp only [h0, if_false]
            rw [map_some_iff, getLast_get]

theorem parameterType_some (s : Sig T) (c : Cursor) : ∃ p, parameterType s c = some p := by
  have last : ∀ ts : List T, ts.length ≠ 0 → ∃ p, (ts[ts.length - 1]?).map some = some p := by
    intro ts h
    rw [List.getElem?_eq_getElem (by omega)]
    exact ⟨_, rfl⟩
  unfold parameterType
  split
  · cases s.rest with
    | none => exact ⟨_, rfl⟩
    | some r => cases r with
      | array e => exact ⟨_, rfl⟩
      | other e => exact ⟨_, rfl⟩
      | tuple ts =>
        simp only
        split
        · exact ⟨_, rfl⟩
        · next h0 =>
          split
          · exact last ts h0
          · split
            · exact last ts h0
            · rw [List.getElem?_eq_getElem (by omega)]; exact ⟨_, rfl⟩
  · next h =>
    have : c.index < s.params.length := by
      rcases Nat.lt_or_ge c.index s.params.length with h' | h'
      · exact h'
      · exact absurd (.inl h') h
    rw [List.getElem?_eq_getElem this]
    exact ⟨_, rfl⟩

/-- The reports of a tuple, in order. -/
theorem tupleLoop_spec (u : Unsafe T) (s : Sig T) (id : Nat) : ∀ (ts : List T) (c : Cursor), ∃ rs, tupleLoop u s id c ts = some (rs, ⟨c.index + ts.length, c.consumed⟩) ∧
    (∀ r ∈ rs, r.id = id) ∧
    ∀ m, ⟨id, m⟩ ∈ rs ↔ ∃ j t p, ts[j]? = some t ∧ parameterType s ⟨c.index + j, c.consumed⟩ = some (some p) ∧ u none t p = true ∧ m = .tupleSpread t p
  | [], c => ⟨[], rfl, by simp, by simp⟩
  | t :: ts, c => by
    obtain ⟨rs, h1, h2, h3⟩ := tupleLoop_spec u s id ts c.skip
    obtain ⟨p, hp⟩ := parameterType_some s c
    have len : (⟨c.skip.index + ts.length, c.skip.consumed⟩ : Cursor) = ⟨c.index + (t :: ts).length, c.consumed⟩ := by
      simp [Cursor.skip]; omega
    rw [len] at h1
    have rest : ∀ m : Msg T, (∃ j t' q, (t :: ts)[j]? = some t' ∧ parameterType s ⟨c.index + j, c.consumed⟩ = some (some q) ∧ u none t' q = true ∧ m = .tupleSpread t' q) ↔
        (∃ q, p = some q ∧ u none t q = true ∧ m = .tupleSpread t q) ∨ ⟨id, m⟩ ∈ rs := by
      intro m
      rw [h3]
      constructor
      · rintro ⟨j, t', q, hj, hq, hu, hm⟩
        cases j with
        | zero =>
          simp only [List.getElem?_cons_zero, Option.some.injEq] at hj
          subst hj
          have : p = some q := by simpa [hp] using hq
          exact .inl ⟨q, this, hu, hm⟩
        | succ j =>
          refine .inr ⟨j, t', q, by simpa using hj, ?_, hu, hm⟩
          rw [← hq]
          simp [Cursor.skip, Nat.add_assoc, Nat.add_comm 1]
      · rintro (⟨q, hq, hu, hm⟩ | ⟨j, t', q, hj, hq, hu, hm⟩)
        · exact ⟨0, t, q, rfl, by simpa [hq] using hp, hu, hm⟩
        · refine ⟨j + 1, t', q, by simpa using hj, ?_, hu, hm⟩
          rw [← hq]
          simp [Cursor.skip, Nat.add_assoc, Nat.add_comm 1]
    rw [tupleLoop, hp, Option.bind_some, h1, Option.map_some]
    simp only [rest]
    cases p with
    | none => exact ⟨rs, rfl, h2, by simp⟩
    | some p =>
      simp only
      by_cases hu : u none t p = true
      · rw [if_pos hu]
        exact ⟨_, rfl, by simpa using h2, by intro m; simp [hu]⟩
      · rw [if_neg hu]
        exact ⟨rs, rfl, h2, by intro m; simp [hu]⟩

/-- The cursor stands at the position. -/
def Matches (c : Cursor) : Option Nat → Prop
  | some k => c = ⟨k, false⟩
  | none => c.consumed = true

theorem matches_binds {ps : List (Param T)} {c : Cursor} {p : Option Nat} (h : Matches c p) (j : Nat) (r : T) :
    parameterType (splitParams ps) ⟨c.index + j, c.consumed⟩ = some (some r) ↔ Binds ps (nth p j) r := by
  rw [C82_parameter]
  cases p with
  | none => rw [show c.consumed = true from h]; rfl
  | some k => cases (show c = ⟨k, false⟩ from h); rfl

/-- The reports of one argument and the cursor after it. -/
def own (u : Unsafe T) (s : Sig T) (c : Cursor) : Arg T → List (Report T)
  | .spreadAny i t => [⟨i, .spread t⟩]
  | .spreadAnyArray i t => [⟨i, .arraySpread t⟩]
  | .spreadOther _ _ => []
  | .spreadTuple i ts _ => ((tupleLoop u s i c ts).map Prod.fst).getD []
  | .plain i can t => if !can then [] else match (parameterType s c).getD none with
    | none => []
    | some p => if u (some i) t p then [⟨i, .argument t p⟩] else []

def next (c : Cursor) : Arg T → Cursor
  | .spreadTuple _ ts v => ⟨c.index + ts.length, c.consumed || v⟩
  | .plain .. => c.skip
  | _ => c

theorem argLoop_cons (u : Unsafe T) (s : Sig T) (c : Cursor) (a : Arg T) (as : List (Arg T)) :
    argLoop u s c (a :: as) = (argLoop u s (next c a) as).map (own u s c a ++ ·) := by
  cases a with
  | spreadAny i t => rw [argLoop]; rfl
  | spreadAnyArray i t => rw [argLoop]; rfl
  | spreadOther i t => rw [argLoop, own]; simp [next]
  | spreadTuple i ts v =>
    obtain ⟨rs, h, -⟩ := tupleLoop_spec u s i ts c
    rw [argLoop, own, h, next]
    simp only [Option.bind_some, Option.map_some, Option.getD_some]
    cases v <;> simp [Cursor.consume]
  | plain i can t =>
    rw [argLoop, own, next]
    cases can with
    | false => simp
    | true =>
      obtain ⟨p, hp⟩ := parameterType_some s c
      rw [hp]
      simp only [Bool.not_true, Bool.false_eq_true, if_false, Option.bind_some, Option.getD_some]
      cases p with
      | none => simp
      | some p => by_cases hu : u (some i) t p = true <;> simp [hu]

theorem own_ids (u : Unsafe T) (s : Sig T) (c : Cursor) (a : Arg T) : ∀ r ∈ own u s c a, r.id = a.id := by
  cases a with
  | spreadTuple i ts v =>
    obtain ⟨rs, h, h2, -⟩ := tupleLoop_spec u s i ts c
    rw [own, h]
    exact h2
  | plain i can t =>
    rw [own]
    split
    · simp
    · split
      · simp
      · split <;> simp [Arg.id]
  | _ => simp [Arg.id, own]

def reportsOf (u : Unsafe T) (s : Sig T) : Cursor → List (Arg T) → List (Report T)
  | _, [] => []
  | c, a :: as => own u s c a ++ reportsOf u s (next c a) as

theorem argLoop_eq (u : Unsafe T) (s : Sig T) : ∀ (as : List (Arg T)) (c : Cursor), argLoop u s c as = some (reportsOf u s c as)
  | [], c => rfl
  | a :: as, c => by rw [argLoop_cons, argLoop_eq u s as, reportsOf]; rfl

def advance : Cursor → List (Arg T) → Cursor := List.foldl next

theorem reportsOf_append (u : Unsafe T) (s : Sig T) : ∀ (as bs : List (Arg T)) (c : Cursor),
    reportsOf u s c (as ++ bs) = reportsOf u s c as ++ reportsOf u s (advance c as) bs
  | [], bs, c => rfl
  | a :: as, bs, c => by
    rw [List.cons_append, reportsOf, reportsOf, reportsOf_append u s as bs, List.append_assoc]
    rfl

theorem reportsOf_ids (u : Unsafe T) (s : Sig T) : ∀ (as : List (Arg T)) (c : Cursor), ∀ r ∈ reportsOf u s c as, ∃ a ∈ as, a.id = r.id
  | [], c, r, h => by simp [reportsOf] at h
  | a :: as, c, r, h => by
    rw [reportsOf] at h
    rcases List.mem_append.1 h with h | h
    · exact ⟨a, by simp, (own_ids u s c a r h).symm⟩
    · obtain ⟨b, h1, h2⟩ := reportsOf_ids u s as _ r h
      exact ⟨b, by simp [h1], h2⟩

theorem width_next {a : Arg T} {w : Nat} (h : Width a w) (c : Cursor) : next c a = ⟨c.index + w, c.consumed⟩ := by
  cases h with
  | plain => rfl
  | tuple => simp [next]

theorem position_advance {start : Nat} {as : List (Arg T)} {p : Option Nat} (h : Position start as p) : Matches (advance ⟨start, false⟩ as) p := by
  have snoc : ∀ (as : List (Arg T)) a, advance ⟨start, false⟩ (as ++ [a]) = next (advance ⟨start, false⟩ as) a := by intro as a; simp [advance]
  induction h with
  | nil => rfl
  | known _ w ih => rw [snoc, width_next w, show advance _ _ = ⟨_, false⟩ from ih]; rfl
  | unknown _ ih => rw [snoc]; simp [Matches, next]
  | after _ w ih => rw [snoc, width_next w]; exact ih

/-- C82 (no panic).  The check panics exactly if no signature is found for a call that has to be checked; no index is out of range. -/
theorem C82_total (u : Unsafe T) (tagged calleeAny : Bool) (sig : Option (List (Param T))) (args : List (Arg T)) :
    checkArguments u tagged calleeAny sig args = none ↔ sig = none ∧ calleeAny = false ∧ ∃ a ∈ args, a.canBeUnsafe = true := by
  unfold checkArguments
  cases h : args.any Arg.canBeUnsafe with
  | false =>
    simp only [Bool.not_false, if_true, reduceCtorEq, false_iff, not_and]
    rintro - - ⟨a, h1, h2⟩
    rw [List.any_eq_true.2 ⟨a, h1, h2⟩] at h
    cases h
  | true =>
    have := List.any_eq_true.1 h
    cases calleeAny <;> cases sig <;> simp [argLoop_eq]
    exact this

/-- The reports about the call, split at an argument. -/
theorem split_at (u : Unsafe T) (tagged : Bool) (ps : List (Param T)) (pre : List (Arg T)) (a : Arg T) (post : List (Arg T)) (rs : List (Report T))
    (hs : ∀ b ∈ a :: (pre ++ post), b.canBeUnsafe = false → ∀ s c, own u s c b = [])
    (h : checkArguments u tagged false (some ps) (pre ++ a :: post) = some rs) :
    ∃ before after, rs = before ++ own u (splitParams ps) (advance ⟨if tagged then 1 else 0, false⟩ pre) a ++ after ∧
      (∀ r ∈ before, ∃ b ∈ pre, b.id = r.id) ∧ (∀ r ∈ after, ∃ b ∈ post, b.id = r.id) := by
  unfold checkArguments at h
  cases hc : (pre ++ a :: post).any Arg.canBeUnsafe with
  | false =>
    rw [hc] at h
    simp only [Bool.not_false, if_true, Option.some.injEq] at h
    have ha : a.canBeUnsafe = false := by
      have := List.any_eq_false.1 hc a (by simp)
      simpa using this
    rw [hs a (by simp) ha]
    exact ⟨[], [], by simp [← h], by simp, by simp⟩
  | true =>
    rw [hc] at h
    simp only [Bool.not_true, Bool.false_eq_true, if_false, argLoop_eq, Option.some.injEq, reportsOf_append] at h
    have hc : (if tagged = true then (⟨1, false⟩ : Cursor) else ⟨0, false⟩) = ⟨if tagged then 1 else 0, false⟩ := by cases tagged <;> rfl
    rw [hc, reportsOf, ← List.append_assoc] at h
    exact ⟨_, _, h.symm, reportsOf_ids _ _ _ _, reportsOf_ids _ _ _ _⟩

theorem plain_skip (u : Unsafe T) (b : Arg T) (h : b.canBeUnsafe = false) (s : Sig T) (c : Cursor) : own u s c b = [] := by
  cases b <;> simp_all [Arg.canBeUnsafe, own]

/-- The own reports of an argument: those the call has besides those of the arguments before and after it, in order. -/
def Has (rs : List (Report T)) (pre : List (Arg T)) (own : List (Report T)) (post : List (Arg T)) : Prop :=
  ∃ before after, rs = before ++ own ++ after ∧ (∀ r ∈ before, ∃ b ∈ pre, b.id = r.id) ∧ (∀ r ∈ after, ∃ b ∈ post, b.id = r.id)

/-- C82 (arguments).  A plain argument after plain arguments and tuples is reported, once, exactly if assigning it to the parameter it is bound to is unsafe.
Assumes that an argument whose syntax rules out an unsafe type (`canBeUnsafe` is false) has none. -/
theorem C82_argument (u : Unsafe T) (tagged : Bool) (ps : List (Param T)) (pre : List (Arg T)) (id : Nat) (can : Bool) (t : T) (post : List (Arg T))
    (rs : List (Report T)) (p : Option Nat) (hp : Position (if tagged then 1 else 0) pre p)
    (hcan : can = false → ∀ r, u (some id) t r = false)
    (h : checkArguments u tagged false (some ps) (pre ++ .plain id can t :: post) = some rs) :
    (∃ r, Binds ps p r ∧ u (some id) t r = true ∧ Has rs pre [⟨id, .argument t r⟩] post) ∨
    ((∀ r, Binds ps p r → u (some id) t r = false) ∧ Has rs pre [] post) := by
  obtain ⟨before, after, e, h1, h2⟩ := split_at u tagged ps pre _ post rs (fun b _ hb s c => plain_skip u b hb s c) h
  have hm := position_advance hp
  have hb : ∀ r, parameterType (splitParams ps) (advance ⟨if tagged then 1 else 0, false⟩ pre) = some (some r) ↔ Binds ps p r := by
    intro r
    have := matches_binds (ps := ps) hm 0 r
    cases p <;> exact this
  generalize advance ⟨if tagged then 1 else 0, false⟩ pre = c at e hb
  cases can with
  | false =>
    right
    exact ⟨fun r _ => hcan rfl r, before, after, by simpa [own] using e, h1, h2⟩
  | true =>
    obtain ⟨q, hq⟩ := parameterType_some (splitParams ps) c
    cases q with
    | none =>
      right
      refine ⟨fun r hr => ?_, before, after, by simpa [own, hq] using e, h1, h2⟩
      rw [← hb, hq] at hr
      cases hr
    | some q =>
      have hbq := (hb q).1 hq
      by_cases hu : u (some id) t q = true
      · left
        exact ⟨q, hbq, hu, before, after, by simpa [own, hq, hu] using e, h1, h2⟩
      · right
        refine ⟨fun r hr => ?_, before, after, by simpa [own, hq, hu] using e, h1, h2⟩
        rw [← hb, hq] at hr
        cases hr
        simpa using hu

/-- C82 (tuples).  For a spread tuple after plain arguments and tuples, exactly the elements whose assignment to the parameter they are bound to is unsafe are reported. -/
theorem C82_tuple (u : Unsafe T) (tagged : Bool) (ps : List (Param T)) (pre : List (Arg T)) (id : Nat) (ts : List T) (v : Bool) (post : List (Arg T))
    (rs : List (Report T)) (p : Option Nat) (hp : Position (if tagged then 1 else 0) pre p)
    (h : checkArguments u tagged false (some ps) (pre ++ .spreadTuple id ts v :: post) = some rs) :
    ∃ own, Has rs pre own post ∧ (∀ r ∈ own, r.id = id) ∧
      ∀ m, ⟨id, m⟩ ∈ own ↔ ∃ j t r, ts[j]? = some t ∧ Binds ps (nth p j) r ∧ u none t r = true ∧ m = .tupleSpread t r := by
  obtain ⟨before, after, e, h1, h2⟩ := split_at u tagged ps pre _ post rs (fun b _ hb s c => plain_skip u b hb s c) h
  have hm := position_advance hp
  obtain ⟨own', h3, h4, h5⟩ := tupleLoop_spec u (splitParams ps) id ts (advance ⟨if tagged then 1 else 0, false⟩ pre)
  rw [own, h3] at e
  refine ⟨own', ⟨before, after, e, h1, h2⟩, h4, fun m => ?_⟩
  rw [h5]
  simp only [matches_binds hm]

/-- C82 (other spreads).  A spread `any` or `any[]` is reported wherever it stands, another iterable never. -/
theorem C82_spread (u : Unsafe T) (tagged : Bool) (ps : List (Param T)) (pre : List (Arg T)) (id : Nat) (t : T) (post : List (Arg T)) (rs : List (Report T)) :
    (checkArguments u tagged false (some ps) (pre ++ .spreadAny id t :: post) = some rs → Has rs pre [⟨id, .spread t⟩] post) ∧
    (checkArguments u tagged false (some ps) (pre ++ .spreadAnyArray id t :: post) = some rs → Has rs pre [⟨id, .arraySpread t⟩] post) ∧
    (checkArguments u tagged false (some ps) (pre ++ .spreadOther id t :: post) = some rs → Has rs pre [] post) :=
  ⟨fun h => split_at u tagged ps pre _ post rs (fun b _ hb s c => plain_skip u b hb s c) h,
   fun h => split_at u tagged ps pre _ post rs (fun b _ hb s c => plain_skip u b hb s c) h,
   fun h => split_at u tagged ps pre _ post rs (fun b _ hb s c => plain_skip u b hb s c) h⟩

/-- C82 (callees).  Nothing is reported about the arguments of an `any` callee (no-unsafe-call does that). -/
theorem C82_callee (u : Unsafe T) (tagged : Bool) (sig : Option (List (Param T))) (args : List (Arg T)) : checkArguments u tagged true sig args = some [] := by
  unfold checkArguments
  split <;> simp

/-! ## Findings -/

/-- Types: 0 is `any`, 1 is `number`, 2 is `unknown`. -/
def unsafeTo : Unsafe Nat := fun _ s r => s == 0 && r != 2

/-- C82 (finding).  A spread iterable does not move the cursor, so arguments after it are compared with the parameter the iterable stands at: in `f(...numbers, x)` for
`f(a: unknown, ...rest: number[])` the `any` value `x` is compared with `a`.  (The compiler rejects such calls: an iterable may only be spread into a rest parameter.) -/
theorem C82_hazard_iterable :
    checkArguments unsafeTo false false (some [.normal 2, .rest (.array 1)]) [.plain 1 true 1, .plain 2 true 0] = some [⟨2, .argument 0 1⟩] ∧
    checkArguments unsafeTo false false (some [.normal 2, .rest (.array 1)]) [.spreadOther 1 1, .plain 2 true 0] = some [] := by
  constructor <;> decide

/-- C82 (finding).  After a tuple with a rest the last element type of a rest parameter of tuple type is assumed. -/
theorem C82_hazard_middle :
    checkArguments unsafeTo false false (some [.rest (.tuple [1, 2])]) [.spreadTuple 1 [] true, .plain 2 true 0] = some [] := by decide

/-! ## Cases -/

example : Position (T := Nat) 0 [.plain 1 true 0, .spreadTuple 2 [0, 1] false] (some 3) :=
  .known (as := [.plain 1 true 0]) (.known (as := []) .nil .plain) .tuple
example : Position (T := Nat) 1 [.spreadTuple 2 [0, 1] true, .plain 1 true 0] none := .after (as := [.spreadTuple 2 [0, 1] true]) (.unknown (as := []) .nil) .plain
example : Binds (T := Nat) [.normal 2, .rest (.tuple [1, 2])] (some 1) 1 := Receives.later (.element rfl)
example : Binds (T := Nat) [.normal 2, .rest (.tuple [1, 2])] none 2 := ReceivesLast.later (.tuple rfl)
example : checkArguments unsafeTo false false (some [.normal 2, .normal 1, .rest (.array 1)]) [.spreadTuple 1 [0, 0] false, .plain 2 true 0, .plain 3 false 1]
    = some [⟨1, .tupleSpread 0 1⟩, ⟨2, .argument 0 1⟩] := by decide
example : checkArguments unsafeTo true false (some [.normal 2, .normal 1]) [.plain 2 true 0] = some [⟨2, .argument 0 1⟩] := by decide
example : checkArguments unsafeTo false false none [.plain 2 true 0] = none := by decide

end Tsgolint.UnsafeArgument
