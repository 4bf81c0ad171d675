import Verif.Spec.NullishMeaning
import Verif.Props.Nullish
/-! # C102: the suggestions of prefer-nullish-coalescing for conditional expressions and if statements keep the meaning -/
namespace Tsgolint.Nullish
variable {V : Type} [DecidableEq V]

/-! ### Similar expressions have the same value -/

/-- The value if every access were optional -/
def World.lax (W : World V) : Expr → Option V
  | .prop _ o n p => (lax W o).bind fun v => if W.Nullish v then some W.undefined else (if p then W.getPrivate v n else W.get v (W.str n))
  | .elem _ o a => (lax W o).bind fun v => if W.Nullish v then some W.undefined else (lax W a).bind fun k => W.get v k
  | .paren e => lax W e
  | .nonNull e => lax W e
  | .ident n => W.env n
  | .null => some W.null
  | .this => some W.this
  | .str _ t => some (W.str t)
  | .num t => some (W.num t)
  | .big t => some (W.big t)
  | e => W.eval e

theorem finish_ofOption (W : World V) (v : Option V) : W.finish (ofOption v) = v := by cases v <;> rfl

theorem access_lax (W : World V) (q : Bool) (get : V → Option V) (r : Result V) (v : V) (h : W.finish (W.access q get r) = some v) :
    ∃ o, W.finish r = some o ∧ (if W.Nullish o then some W.undefined else get o) = some v := by
  cases r with
  | throws => cases h
  | short => cases h; exact ⟨_, rfl, by rw [if_pos (.inr rfl)]⟩
  | value o =>
    refine ⟨o, rfl, ?_⟩
    rw [World.access] at h
    split at h
    · rename_i ho
      rw [if_pos ho]
      cases q
      · cases h
      · exact h
    · rename_i ho
      rw [if_neg ho]
      rwa [finish_ofOption] at h

/-- An expression that does not throw has its lax value. -/
theorem eval_lax (W : World V) (e : Expr) (v : V) (h : W.eval e = some v) : W.lax e = some v := by
  induction e generalizing v with
  | prop q o n p ih =>
    rw [World.eval, World.result] at h
    obtain ⟨u, h1, h2⟩ := access_lax W q _ _ v h
    rw [World.lax, ih u h1]
    exact h2
  | elem q o a ih1 ih2 =>
    rw [World.eval, World.result] at h
    obtain ⟨u, h1, h2⟩ := access_lax W q _ _ v h
    rw [World.lax, ih1 u h1]
    simp only [Option.bind_some]
    split at h2
    · rename_i hu; rw [if_pos hu]; exact h2
    · rename_i hu
      rw [if_neg hu]
      rw [Option.bind_eq_some_iff] at h2
      obtain ⟨k, hk, h2⟩ := h2
      rw [ih2 k hk]
      exact h2
  | paren e ih => rw [World.eval, World.result, finish_ofOption] at h; exact ih v h
  | nonNull e ih => exact ih v h
  | ident n => rw [World.eval, World.result, finish_ofOption] at h; exact h
  | _ => exact h

theorem lax_bare (W : World V) {e u : Expr} (h : Bare e u) : W.lax e = W.lax u := by
  induction h with
  | paren _ ih => exact ih
  | nonNull => rfl
  | plain => rfl

theorem lax_equal (W : World V) {a b : Expr} (h : Equal a b) : W.lax a = W.lax b := by
  induction h with
  | prop _ ih => rw [World.lax, World.lax, ih]
  | elem _ _ ih1 ih2 => rw [World.lax, World.lax, ih1, ih2]
  | _ => rfl

theorem bare_hyps {e u : Expr} (h : Bare e u) : (Names e → Names u) ∧ (NoHash e → NoHash u) ∧ (KeysPlain e → KeysPlain u) := by
  induction h with
  | paren _ ih => exact ih
  | nonNull => exact ⟨id, id, id⟩
  | plain => exact ⟨id, id, id⟩

theorem reads_hyps {e o : Expr} {n : String} (h : Reads e o n) :
    (Names e → Names o) ∧ (NoHash e → NoHash o) ∧ (KeysPlain e → KeysPlain o) := by
  cases h
  · exact ⟨fun h => h.1, id, id⟩
  · exact ⟨fun h => h.1, fun h => h.1, fun h => h.1⟩

theorem lax_similar (W : World V) {a b : Expr} (h : Similar a b) (na : Names a) (nb : Names b) (ha : NoHash a) (hb : NoHash b) : W.lax a = W.lax b := by
  induction h with
  | equal h1 h2 h3 => rw [lax_bare W h1, lax_bare W h2, lax_equal W h3]
  | named h1 h2 h3 h4 _ ih =>
    rw [lax_bare W h1, lax_bare W h2]
    have na' := (bare_hyps h1).1 na; have nb' := (bare_hyps h2).1 nb
    have ha' := (bare_hyps h1).2.1 ha; have hb' := (bare_hyps h2).2.1 hb
    have ih := ih ((reads_hyps h3).1 na') ((reads_hyps h4).1 nb') ((reads_hyps h3).2.1 ha') ((reads_hyps h4).2.1 hb')
    cases h3 with
    | @prop q o n p =>
      cases h4 with
      | @prop q' o' n p' =>
        have : p = p' := by
          have h1 := na'.2; have h2 := nb'.2
          cases p <;> cases p' <;> simp_all
        rw [World.lax, World.lax, ih, this]
      | @elem q' o' b t =>
        have : p = false := by
          have h1 := na'.2; have h2 := hb'.2.2 _ _ rfl
          cases p
          · rfl
          · exact absurd (h1.1 rfl) h2
        rw [World.lax, World.lax, ih, this]
        rfl
    | @elem q o b t =>
      cases h4 with
      | @prop q' o' n p' =>
        have : p' = false := by
          have k1 := nb'.2
          have k2 := ha'.2.2 _ _ rfl
          cases p'
          · rfl
          · exact absurd (k1.1 rfl) k2
        rw [World.lax, World.lax, ih, this]
        rfl
      | @elem q' o' b' t => rw [World.lax, World.lax, ih]; rfl
  | computed h1 h2 _ h4 ih =>
    rw [lax_bare W h1, lax_bare W h2]
    have na' := (bare_hyps h1).1 na; have nb' := (bare_hyps h2).1 nb
    have ha' := (bare_hyps h1).2.1 ha; have hb' := (bare_hyps h2).2.1 hb
    rw [World.lax, World.lax, ih na'.1 nb'.1 ha'.1 hb'.1, lax_equal W h4]

/-- C102 (similar expressions): if neither throws, they have the same value. -/
theorem C102_similar (W : World V) (a b : Expr) (h : Similar a b) (na : Names a) (nb : Names b) (ha : NoHash a) (hb : NoHash b) (v w : V)
    (hv : W.eval a = some v) (hw : W.eval b = some w) : v = w := by
  have := lax_similar W h na nb ha hb
  rw [eval_lax W a v hv, eval_lax W b w hw] at this
  exact Option.some.inj this

/-! ### Comparisons -/

theorem eval_skip (W : World V) (e : Expr) : W.eval e.skip = W.eval e := by
  induction e with
  | paren e ih =>
    have : W.eval (.paren e) = W.eval e := by rw [World.eval, World.result, finish_ofOption]; rfl
    rw [this]; exact ih
  | _ => rfl

theorem eval_literal (W : World V) (hW : W.Lawful) {c : Expr} (h : NullishLiteral c) :
    ∃ k, W.eval c = some k ∧ W.Nullish k ∧ (c = .null → k = W.null) ∧ (c = .ident "undefined" → k = W.undefined) := by
  rcases h with rfl | rfl
  · exact ⟨W.null, rfl, .inl rfl, fun _ => rfl, nofun⟩
  · exact ⟨W.undefined, by rw [World.eval, World.result, finish_ofOption, hW.undefined], .inr rfl, nofun, fun _ => rfl⟩

/-- What a comparison with null or undefined tells about a value -/
def World.Matches (W : World V) (strict : Bool) (c : Expr) (u : V) : Prop :=
  if strict then (c = .null ∧ u = W.null) ∨ (c = .ident "undefined" ∧ u = W.undefined) else W.Nullish u

theorem matches_nullish {W : World V} {s : Bool} {c : Expr} {u : V} (h : W.Matches s c u) : W.Nullish u := by
  cases s
  · exact h
  · rcases h with ⟨_, h⟩ | ⟨_, h⟩
    · exact .inl h
    · exact .inr h

theorem strict_matches (W : World V) (hW : W.Lawful) {c : Expr} (hc : NullishLiteral c) {k u : V} (hk : W.eval c = some k) :
    (W.strictEq u k = true ↔ W.Matches true c u) ∧ (W.strictEq k u = true ↔ W.Matches true c u) ∧ (W.looseEq u k = true ↔ W.Matches false c u) ∧
      (W.looseEq k u = true ↔ W.Matches false c u) := by
  obtain ⟨k', hk', hn, h1, h2⟩ := eval_literal W hW hc
  rw [hk] at hk'; cases hk'
  have hm : W.Matches true c u ↔ u = k := by
    rcases hc with rfl | rfl
    · rw [h1 rfl]; simp [World.Matches]
    · rw [h2 rfl]; simp [World.Matches]
  rw [hm]
  exact ⟨(hW.strict u k hn).1, (hW.strict u k hn).2, (hW.loose u k hn).1, (hW.loose u k hn).2⟩

/-- One comparison with a literal -/
theorem compares_spec (W : World V) (hW : W.Lawful) {e : Expr} {neg s : Bool} {xs : List Expr} (h : Compares e neg s xs)
    (hp : ∃ x ∈ xs, NullishLiteral x) (hn : ¬ ∀ x ∈ xs, NullishLiteral x) :
    ∃ x c, (xs = [x, c] ∨ xs = [c, x]) ∧ NullishLiteral c ∧ ¬ NullishLiteral x ∧
      ∀ b, W.eval e = some b → ∃ u, W.eval x = some u ∧ (W.truthy b = true ↔ (neg = false ↔ W.Matches s c u)) := by
  have key : ∀ (op : Op) (l r : Expr) (neg s : Bool), e = .binary op l r → xs = [l.skip, r.skip] →
      (∀ v w : V, W.binary op (some v) (some w) = some (W.bool (neg ^^ (if s then W.strictEq v w else W.looseEq v w)))) →
      (∀ v w, W.binary op v w = none ∨ ∃ a b, v = some a ∧ w = some b) →
      ∃ x c, (xs = [x, c] ∨ xs = [c, x]) ∧ NullishLiteral c ∧ ¬ NullishLiteral x ∧
        ∀ b, W.eval e = some b → ∃ u, W.eval x = some u ∧ (W.truthy b = true ↔ (neg = false ↔ W.Matches s c u)) := by
    rintro op l r neg s rfl rfl hb hnone
    have ev : ∀ b, W.eval (.binary op l r) = some b → ∃ v w, W.eval l.skip = some v ∧ W.eval r.skip = some w ∧
        W.truthy b = (neg ^^ (if s then W.strictEq v w else W.looseEq v w)) := by
      intro b h
      rw [World.eval, World.result, finish_ofOption] at h
      rcases hnone (W.eval l) (W.eval r) with h' | ⟨v, w, hv, hw⟩
      · rw [World.eval, World.eval] at h'; rw [h'] at h; cases h
      · refine ⟨v, w, (eval_skip W l).trans hv, (eval_skip W r).trans hw, ?_⟩
        rw [World.eval] at hv hw
        rw [hv, hw, hb] at h
        cases h
        exact hW.bool _
    by_cases hl : NullishLiteral l.skip
    · have hr : ¬ NullishLiteral r.skip := by
        intro hr; exact hn (by simp only [List.mem_cons, List.not_mem_nil, or_false]; rintro x (rfl | rfl) <;> assumption)
      refine ⟨r.skip, l.skip, .inr rfl, hl, hr, fun b h => ?_⟩
      obtain ⟨v, w, hv, hw, ht⟩ := ev b h
      refine ⟨w, hw, ?_⟩
      have hm := strict_matches W hW hl (u := w) hv
      rw [ht]
      cases s
      · rw [← hm.2.2.2]; cases neg <;> simp
      · rw [← hm.2.1]; cases neg <;> simp
    · have hr : NullishLiteral r.skip := by
        obtain ⟨x, hx, hx'⟩ := hp
        simp only [List.mem_cons, List.not_mem_nil, or_false] at hx
        rcases hx with rfl | rfl
        · exact absurd hx' hl
        · exact hx'
      refine ⟨l.skip, r.skip, .inl rfl, hr, hl, fun b h => ?_⟩
      obtain ⟨v, w, hv, hw, ht⟩ := ev b h
      refine ⟨v, hv, ?_⟩
      have hm := strict_matches W hW hr (u := v) hw
      rw [ht]
      cases s
      · rw [← hm.2.2.1]; cases neg <;> simp
      · rw [← hm.1]; cases neg <;> simp
  have none_of : ∀ op, (op = .eq ∨ op = .notEq ∨ op = .strictEq ∨ op = .strictNotEq) → ∀ v w, W.binary op v w = none ∨ ∃ a b, v = some a ∧ w = some b := by
    intro op hop v w
    cases v <;> cases w <;> rcases hop with rfl | rfl | rfl | rfl <;> simp [World.binary]
  cases h with
  | eq => exact key _ _ _ _ _ rfl rfl (fun v w => by simp [World.binary, World.compare]) (none_of _ (by simp))
  | notEq => exact key _ _ _ _ _ rfl rfl (fun v w => by simp [World.binary, World.compare]) (none_of _ (by simp))
  | strictEq => exact key _ _ _ _ _ rfl rfl (fun v w => by simp [World.binary, World.compare]) (none_of _ (by simp))
  | strictNotEq => exact key _ _ _ _ _ rfl rfl (fun v w => by simp [World.binary, World.compare]) (none_of _ (by simp))

/-- What is asked of the expressions compared -/
def Fine (e : Expr) : Prop := Names e ∧ NoHash e

theorem skip_fine {e : Expr} (h : Fine e) : Fine e.skip := by
  induction e with
  | paren e ih => exact ih h
  | _ => exact h

theorem skip_keys {e : Expr} (h : KeysPlain e) : KeysPlain e.skip := by
  induction e with
  | paren e ih => exact ih h
  | _ => exact h

theorem compares_fine {e : Expr} {neg s : Bool} {xs : List Expr} (h : Compares e neg s xs) (hf : Fine e) : ∀ x ∈ xs, Fine x := by
  cases h <;> (obtain ⟨h1, h2⟩ := hf; intro x hx; simp only [List.mem_cons, List.not_mem_nil, or_false] at hx;
               rcases hx with rfl | rfl; exact skip_fine ⟨h1.1, h2.1⟩; exact skip_fine ⟨h1.2, h2.2⟩)

theorem compares_keys {e : Expr} {neg s : Bool} {xs : List Expr} (h : Compares e neg s xs) (hf : KeysPlain e) : ∀ x ∈ xs, KeysPlain x := by
  cases h <;> (obtain ⟨h1, h2⟩ := hf; intro x hx; simp only [List.mem_cons, List.not_mem_nil, or_false] at hx;
               rcases hx with rfl | rfl; exact skip_keys h1; exact skip_keys h2)

theorem compared_fine {e : Expr} {neg s : Bool} {xs : List Expr} (h : Compared e neg s xs) (hf : Fine e) : ∀ x ∈ xs, Fine x := by
  cases h with
  | one h => exact compares_fine h hf
  | either h1 h2 _ _ =>
    intro x hx
    rcases List.mem_append.1 hx with hx | hx
    · exact compares_fine h1 ⟨hf.1.1, hf.2.1⟩ x hx
    · exact compares_fine h2 ⟨hf.1.2, hf.2.2⟩ x hx
  | both h1 h2 _ _ =>
    intro x hx
    rcases List.mem_append.1 hx with hx | hx
    · exact compares_fine h1 ⟨hf.1.1, hf.2.1⟩ x hx
    · exact compares_fine h2 ⟨hf.1.2, hf.2.2⟩ x hx

theorem compared_keys {e : Expr} {neg s : Bool} {xs : List Expr} (h : Compared e neg s xs) (hf : KeysPlain e) : ∀ x ∈ xs, KeysPlain x := by
  cases h with
  | one h => exact compares_keys h hf
  | either h1 h2 _ _ =>
    intro x hx
    rcases List.mem_append.1 hx with hx | hx
    · exact compares_keys h1 hf.1 x hx
    · exact compares_keys h2 hf.2 x hx
  | both h1 h2 _ _ =>
    intro x hx
    rcases List.mem_append.1 hx with hx | hx
    · exact compares_keys h1 hf.1 x hx
    · exact compares_keys h2 hf.2 x hx

/-- Complete comparisons tell nullish values. -/
theorem complete_matches (W : World V) (s : Bool) (nodes : List Expr) (t : Ty) (h : Complete s nodes t) (cs : List (Bool × Expr))
    (hc : ∀ x ∈ nodes, NullishLiteral x → ∃ p ∈ cs, p.2 = x) (hs : s = false → ∃ p ∈ cs, p.1 = false) (u : V) (hu : W.Fits u t) :
    W.Nullish u ↔ ∃ p ∈ cs, W.Matches p.1 p.2 u := by
  refine ⟨fun hn => ?_, fun ⟨p, _, hp⟩ => matches_nullish hp⟩
  have hit : ∀ x ∈ nodes, ((x = .null ∧ u = W.null) ∨ (x = .ident "undefined" ∧ u = W.undefined)) → ∃ p ∈ cs, W.Matches p.1 p.2 u := by
    intro x hx h
    obtain ⟨p, hp, rfl⟩ := hc x hx (h.elim (fun h => .inl h.1) (fun h => .inr h.1))
    refine ⟨p, hp, ?_⟩
    rw [World.Matches]
    split
    · exact h
    · exact hn
  rcases h with ⟨h1, h2⟩ | ⟨h1, h2⟩
  · rcases hn with rfl | rfl
    · exact hit _ h1 (.inl ⟨rfl, rfl⟩)
    · exact hit _ h2 (.inr ⟨rfl, rfl⟩)
  · rcases h2 with h2 | ⟨ha, h3, h4⟩
    · obtain ⟨p, hp, hp'⟩ := hs h2
      refine ⟨p, hp, ?_⟩
      rw [World.Matches, hp']
      simpa using hn
    · rcases hu with hu | ⟨hu1, hu2⟩
      · rw [ha] at hu; cases hu
      · rcases hn with hn | hn
        · obtain ⟨p, hp, hp'⟩ := hu1 hn
          refine hit .null (h1.elim id fun h => ?_) (.inl ⟨rfl, hn⟩)
          rw [h4 h p hp] at hp'; cases hp'
        · obtain ⟨p, hp, hp'⟩ := hu2 hn
          refine hit (.ident "undefined") (h1.elim (fun h => ?_) id) (.inr ⟨rfl, hn⟩)
          rw [h3 h p hp] at hp'; cases hp'

theorem complete_exists {s : Bool} {nodes : List Expr} {t : Ty} (h : Complete s nodes t) : ∃ x ∈ nodes, NullishLiteral x := by
  rcases h with ⟨h, _⟩ | ⟨h | h, _⟩
  · exact ⟨_, h, .inl rfl⟩
  · exact ⟨_, h, .inl rfl⟩
  · exact ⟨_, h, .inr rfl⟩

theorem only_mem {value left : Expr} {nodes : List Expr} (h : Only value nodes left) : left ∈ nodes ∧ ¬ NullishLiteral left ∧ Similar left value := by
  obtain ⟨b, a, rfl, _, h1, h2, _⟩ := h
  exact ⟨by simp, h1, h2⟩

theorem only_similar {value left : Expr} {nodes : List Expr} (h : Only value nodes left) : ∀ x ∈ nodes, NullishLiteral x ∨ Similar x value := by
  obtain ⟨b, a, rfl, h0, h1, h2, h3⟩ := h
  intro x hx
  rcases List.mem_append.1 hx with hx | hx
  · exact .inl (h0 x hx)
  · rcases List.mem_cons.1 hx with rfl | hx
    · exact .inr h2
    · exact h3 x hx

/-- The first that is no literal -/
theorem only_first {value left : Expr} {nodes : List Expr} (h : Only value nodes left) (b a : List Expr) (x : Expr) (hn : nodes = b ++ x :: a)
    (hb : ∀ x ∈ b, NullishLiteral x) (hx : ¬ NullishLiteral x) : left = x := by
  obtain ⟨b', a', h, h0, h1, _, _⟩ := h
  rw [hn] at h
  clear hn
  induction b generalizing b' with
  | nil =>
    cases b' with
    | nil => cases h; rfl
    | cons y b' => cases h; exact absurd (h0 _ (List.mem_cons_self ..)) hx
  | cons y b ih =>
    cases b' with
    | nil => cases h; exact absurd (hb _ (List.mem_cons_self ..)) h1
    | cons y' b' =>
      rw [List.cons_append, List.cons_append, List.cons.injEq] at h
      obtain ⟨rfl, h⟩ := h
      exact ih (fun z hz => hb z (List.mem_cons_of_mem _ hz)) b' h (fun z hz => h0 z (List.mem_cons_of_mem _ hz))

theorem only_pair {value left x c : Expr} {nodes rest : List Expr} (h : Only value (nodes ++ rest) left) (hn : nodes = [x, c] ∨ nodes = [c, x])
    (hc : NullishLiteral c) (hx : ¬ NullishLiteral x) : left = x := by
  rcases hn with rfl | rfl
  · exact only_first h [] ([c] ++ rest) x rfl nofun hx
  · exact only_first h [c] rest x rfl (by simpa using hc) hx

theorem pair_mem {x c y : Expr} {nodes : List Expr} (hn : nodes = [x, c] ∨ nodes = [c, x]) (hx : ¬ NullishLiteral x) (hy : y ∈ nodes) (h : NullishLiteral y) : c = y := by
  rcases hn with rfl | rfl <;> simp only [List.mem_cons, List.not_mem_nil, or_false] at hy <;> rcases hy with rfl | rfl
  · exact absurd h hx
  · rfl
  · rfl
  · exact absurd h hx

theorem pair_fst {x c : Expr} {nodes : List Expr} (hn : nodes = [x, c] ∨ nodes = [c, x]) : x ∈ nodes := by
  rcases hn with rfl | rfl <;> simp

/-- What the test says about the value -/
theorem compared_spec (W : World V) (hW : W.Lawful) {e : Expr} {neg s : Bool} {nodes : List Expr} (h : Compared e neg s nodes) (hp : Proper e)
    {value left : Expr} (ho : Only value nodes left) {t : Ty} (hc : Complete s nodes t) (hf : Fine e) (hv : Fine value) {b : V} (hb : W.eval e = some b)
    (ht : ∀ u, W.eval left = some u → W.Fits u t) : ∃ u, W.eval left = some u ∧ (W.truthy b = true ↔ (neg = false ↔ W.Nullish u)) := by
  have two : ∀ {l r : Expr} {neg s s' : Bool} {xs ys : List Expr}, Compares l neg s xs → Compares r neg s' ys → ¬ (∀ x ∈ xs, NullishLiteral x) →
      ¬ (∀ y ∈ ys, NullishLiteral y) → (∃ x ∈ xs, NullishLiteral x) → (∃ y ∈ ys, NullishLiteral y) → Fine l → Fine r → Only value (xs ++ ys) left →
      Complete (s && s') (xs ++ ys) t →
      (∃ bl, W.eval l = some bl ∧ (if W.truthy bl = !neg then W.truthy b = !neg else ∃ br, W.eval r = some br ∧ W.truthy b = W.truthy br)) →
      ∃ u, W.eval left = some u ∧ (W.truthy b = true ↔ (neg = false ↔ W.Nullish u)) := by
    intro l r neg s s' xs ys h1 h2 n1 n2 p1 p2 f1 f2 ho hc ⟨bl, hbl, hbb⟩
    obtain ⟨x, c, hxs, hc1, hx1, sp1⟩ := compares_spec W hW h1 p1 n1
    obtain ⟨y, d, hys, hc2, hx2, sp2⟩ := compares_spec W hW h2 p2 n2
    obtain ⟨u, hu, hu'⟩ := sp1 bl hbl
    have hl : left = x := only_pair ho hxs hc1 hx1
    refine ⟨u, by rw [hl]; exact hu, ?_⟩
    have hm := complete_matches W _ _ _ hc [(s, c), (s', d)] (by
      intro z hz hz'
      rcases List.mem_append.1 hz with hz | hz
      · exact ⟨_, List.mem_cons_self .., pair_mem hxs hx1 hz hz'⟩
      · exact ⟨_, List.mem_cons_of_mem _ (List.mem_cons_self ..), pair_mem hys hx2 hz hz'⟩) (by
      intro hs
      cases s
      · exact ⟨_, List.mem_cons_self .., rfl⟩
      · exact ⟨_, List.mem_cons_of_mem _ (List.mem_cons_self ..), by simpa using hs⟩) u (ht u (by rw [hl]; exact hu))
    simp only [List.mem_cons, List.not_mem_nil, or_false, exists_eq_or_imp, exists_eq_left] at hm
    rw [hm]
    have hr : ∀ br, W.eval r = some br → (W.truthy br = true ↔ (neg = false ↔ W.Matches s' d u)) := by
      intro br hbr
      obtain ⟨u', hy, hy'⟩ := sp2 br hbr
      have hsx : Similar x value := hl ▸ (only_mem ho).2.2
      have hsy : Similar y value := (only_similar ho y (List.mem_append_right _ (pair_fst hys))).resolve_left hx2
      have fx := compares_fine h1 f1 x (pair_fst hxs)
      have fy := compares_fine h2 f2 y (pair_fst hys)
      have e1 := lax_similar W hsx fx.1 hv.1 fx.2 hv.2
      have e2 := lax_similar W hsy fy.1 hv.1 fy.2 hv.2
      rw [eval_lax W x u hu] at e1
      rw [eval_lax W y u' hy, ← e1] at e2
      cases e2
      exact hy'
    split at hbb
    · rename_i ht'
      rw [hbb]; rw [ht'] at hu'
      cases neg <;> simp_all
    · rename_i ht'
      obtain ⟨br, hbr, hbb⟩ := hbb
      have hr := hr br hbr
      rw [hbb]
      cases neg <;> cases hq : W.truthy br <;> cases hq' : W.truthy bl <;> simp_all
  cases h with
  | one h =>
    obtain ⟨x, c, hxs, hc1, hx1, sp⟩ := compares_spec W hW h (complete_exists hc) (fun hall => (only_mem ho).2.1 (hall _ (only_mem ho).1))
    obtain ⟨u, hu, hu'⟩ := sp b hb
    have hl : left = x := only_pair (rest := []) (by simpa using ho) hxs hc1 hx1
    refine ⟨u, by rw [hl]; exact hu, ?_⟩
    have hm := complete_matches W _ _ _ hc [(s, c)] (fun z hz hz' => ⟨_, List.mem_cons_self .., pair_mem hxs hx1 hz hz'⟩)
      (fun hs => ⟨_, List.mem_cons_self .., hs⟩) u (ht u (by rw [hl]; exact hu))
    simp only [List.mem_cons, List.not_mem_nil, or_false, exists_eq_left] at hm
    rw [hm]
    exact hu'
  | @either l r s s' xs ys h1 h2 n1 n2 =>
    obtain ⟨p1, p2⟩ : (∃ x ∈ xs, NullishLiteral x) ∧ ∃ y ∈ ys, NullishLiteral y := by
      cases hp with
      | one hp => cases h1 <;> cases h2 <;> rcases hp with (h | h) | (h | h) <;> cases h
      | two q1 q2 => cases h1 <;> cases h2 <;> exact ⟨by simpa using q1, by simpa using q2⟩
    refine two h1 h2 n1 n2 p1 p2 ⟨hf.1.1, hf.2.1⟩ ⟨hf.1.2, hf.2.2⟩ ho hc ?_
    rw [World.eval, World.result, finish_ofOption, World.binary, Option.bind_eq_some_iff] at hb
    obtain ⟨bl, hbl, hb⟩ := hb
    refine ⟨bl, hbl, ?_⟩
    cases ht' : W.truthy bl
    · rw [ht'] at hb
      exact ⟨b, hb, rfl⟩
    · rw [ht'] at hb
      cases hb
      exact ht'
  | @both l r s s' xs ys h1 h2 n1 n2 =>
    obtain ⟨p1, p2⟩ : (∃ x ∈ xs, NullishLiteral x) ∧ ∃ y ∈ ys, NullishLiteral y := by
      cases hp with
      | one hp => cases h1 <;> cases h2 <;> rcases hp with (h | h) | (h | h) <;> cases h
      | two q1 q2 => cases h1 <;> cases h2 <;> exact ⟨by simpa using q1, by simpa using q2⟩
    refine two h1 h2 n1 n2 p1 p2 ⟨hf.1.1, hf.2.1⟩ ⟨hf.1.2, hf.2.2⟩ ho hc ?_
    rw [World.eval, World.result, finish_ofOption, World.binary, Option.bind_eq_some_iff] at hb
    obtain ⟨bl, hbl, hb⟩ := hb
    refine ⟨bl, hbl, ?_⟩
    cases ht' : W.truthy bl
    · rw [ht'] at hb
      cases hb
      exact ht'
    · rw [ht'] at hb
      exact ⟨b, hb, rfl⟩

/-! ### Conditional expressions -/

theorem eval_cond (W : World V) {t y n : Expr} {v : V} (h : W.eval (.cond t y n) = some v) :
    ∃ b, W.eval t = some b ∧ (if W.truthy b then W.eval y else W.eval n) = some v := by
  rw [World.eval, World.result, finish_ofOption, Option.bind_eq_some_iff] at h
  exact h

theorem eval_coalesce (W : World V) {l r : Expr} {u : V} (h : W.eval l = some u) : W.eval (.binary .coalesce l r) = if W.Nullish u then W.eval r else some u := by
  rw [World.eval] at h
  rw [World.eval, World.result, finish_ofOption, World.binary, h]
  rfl

theorem eval_not (W : World V) (hW : W.Lawful) {e : Expr} {b : V} (h : W.eval (.not e) = some b) : ∃ u, W.eval e = some u ∧ W.truthy b = !W.truthy u := by
  rw [World.eval, World.result, finish_ofOption, Option.map_eq_some_iff] at h
  obtain ⟨u, hu, rfl⟩ := h
  exact ⟨u, hu, hW.bool _⟩

theorem not_fine {t e : Expr} (h : Fine t) (ht : t.skip = .not e) : Fine e.skip := by
  have := skip_fine h
  rw [ht] at this
  exact skip_fine this

/-- C102 (conditional expressions): if the conditional expression has a value, the suggested `left ?? right` has the same, provided: the comparisons are with `null` or `undefined`; if the truth
of the expression is tested, it is truthy if not nullish; the value is of the type; private names are only used as such. -/
theorem C102_ternary (W : World V) (hW : W.Lawful) (o : Options) (typeOf : Expr → Ty) (up : List Frame) (test yes no left right : Expr)
    (h : Ternary o typeOf up test yes no left right) (hp : ∀ op l r, test.skip = .binary op l r → Proper test.skip)
    (hn : ∀ e, e = test ∨ e = yes ∨ e = no → Names e ∧ NoHash e)
    (ht : (∀ op l r, test.skip ≠ .binary op l r) → ∀ u, W.eval left = some u → W.Nullish u ∨ W.truthy u = true)
    (hf : ∀ u, W.eval left = some u → W.Fits u (typeOf left)) (v : V) (hv : W.eval (.cond test yes no) = some v) :
    W.eval (.binary .coalesce left right) = some v := by
  have ft := hn test (.inl rfl); have fy := hn yes (.inr (.inl rfl)); have fn := hn no (.inr (.inr rfl))
  obtain ⟨b, hb, hv⟩ := eval_cond W hv
  rw [← eval_skip W test] at hb
  cases h with
  | truthy _ hm hs _ =>
    rw [eval_coalesce W hb]
    rcases ht (fun op l r h => by rw [h] at hm; cases hm) b hb with h | h
    · rw [if_pos h]
      rw [hW.falsy b h] at hv
      exact hv
    · rw [h] at hv
      rw [if_neg (fun h' => by rw [hW.falsy b h'] at h; cases h)]
      rw [C102_similar W _ _ hs (skip_fine ft).1 fy.1 (skip_fine ft).2 fy.2 b v hb hv]
  | @negated e _ he hm hs _ =>
    rw [he] at hb
    obtain ⟨u, hu, hbu⟩ := eval_not W hW hb
    rw [← eval_skip W e] at hu
    rw [eval_coalesce W hu]
    have fe := not_fine ft he
    rw [hbu] at hv
    rcases ht (fun op l r h => by rw [h] at he; cases he) u hu with h | h
    · rw [if_pos h]
      rw [hW.falsy u h] at hv
      exact hv
    · rw [h] at hv
      rw [if_neg (fun h' => by rw [hW.falsy u h'] at h; cases h)]
      rw [C102_similar W _ _ hs fe.1 fn.1 fe.2 fn.2 u v hu hv]
  | equal _ hc ho hco =>
    obtain ⟨op, l, r, hop⟩ : ∃ op l r, test.skip = .binary op l r := by
      cases hx : test.skip <;> rw [hx] at hc <;> first | exact ⟨_, _, _, rfl⟩ | (cases hc; rename_i hc; cases hc)
    obtain ⟨u, hu, hbu⟩ := compared_spec W hW hc (hp op l r hop) ho hco (skip_fine ft) fn hb hf
    rw [eval_coalesce W hu]
    have fl := compared_fine hc (skip_fine ft) left (only_mem ho).1
    split
    · rename_i h
      rw [if_pos (hbu.2 ⟨fun _ => h, fun _ => rfl⟩)] at hv
      exact hv
    · rename_i h
      rw [if_neg (fun h' => h ((hbu.1 h').1 rfl))] at hv
      rw [C102_similar W _ _ (only_mem ho).2.2 fl.1 fn.1 fl.2 fn.2 u v hu hv]
  | notEqual _ hc ho hco =>
    obtain ⟨op, l, r, hop⟩ : ∃ op l r, test.skip = .binary op l r := by
      cases hx : test.skip <;> rw [hx] at hc <;> first | exact ⟨_, _, _, rfl⟩ | (cases hc; rename_i hc; cases hc)
    obtain ⟨u, hu, hbu⟩ := compared_spec W hW hc (hp op l r hop) ho hco (skip_fine ft) fy hb hf
    rw [eval_coalesce W hu]
    have fl := compared_fine hc (skip_fine ft) left (only_mem ho).1
    split
    · rename_i h
      rw [if_neg (fun h' => by cases (hbu.1 h').2 h)] at hv
      exact hv
    · rename_i h
      rw [if_pos (hbu.2 ⟨nofun, fun h' => absurd h' h⟩)] at hv
      rw [C102_similar W _ _ (only_mem ho).2.2 fl.1 fy.1 fl.2 fy.2 u v hu hv]

/-! ### If statements -/

theorem eval_bare (W : World V) {e u : Expr} (h : Bare e u) : W.eval e = W.eval u := by
  induction h with
  | paren _ ih => rw [← ih]; rw [World.eval, World.result, finish_ofOption]; rfl
  | nonNull => rfl
  | plain => rfl

theorem result_value (W : World V) {r : Result V} {u : V} (h : W.finish r = some u) (hu : ¬ W.Nullish u) : r = .value u := by
  cases r with
  | throws => cases h
  | short => cases h; exact absurd (.inr rfl) hu
  | value v => cases h; rfl

/-- A value that is not nullish is read from an object that is not. -/
theorem access_value (W : World V) {q : Bool} {get : V → Option V} {r : Result V} {u : V} (h : W.finish (W.access q get r) = some u) (hu : ¬ W.Nullish u) :
    ∃ w, r = .value w ∧ ¬ W.Nullish w ∧ get w = some u := by
  cases r with
  | throws => cases h
  | short => cases h; exact absurd (.inr rfl) hu
  | value w =>
    rw [World.access] at h
    split at h
    · cases q
      · cases h
      · cases h; exact absurd (.inr rfl) hu
    · rename_i hw
      rw [finish_ofOption] at h
      exact ⟨w, rfl, hw, h⟩

theorem access_of (W : World V) {q : Bool} {get : V → Option V} {r : Result V} {w : V} (h : W.finish r = some w) (hw : ¬ W.Nullish w) :
    W.finish (W.access q get r) = get w := by
  rw [result_value W h hw, World.access, if_neg hw, finish_ofOption]

/-- Without `?.` nothing is skipped. -/
theorem access_plain (W : World V) {get : V → Option V} {r : Result V} {u : V} (h : W.access false get r = .value u) :
    ∃ w, r = .value w ∧ ¬ W.Nullish w ∧ get w = some u := by
  cases r with
  | throws => cases h
  | short => cases h
  | value w =>
    rw [World.access] at h
    split at h
    · cases h
    · rename_i hw
      refine ⟨w, rfl, hw, ?_⟩
      cases hg : get w with
      | none => rw [hg] at h; cases h
      | some x => rw [hg] at h; cases h; rfl

theorem plain_short (W : World V) {a b : Expr} (h : Equal a b) (hp : NoOptional a) : W.result a ≠ .short := by
  have acc : ∀ (get : V → Option V) r, r ≠ .short → W.access false get r ≠ .short := by
    intro get r hr
    cases r with
    | throws => nofun
    | short => exact absurd rfl hr
    | value w =>
      rw [World.access]
      split
      · nofun
      · cases get w <;> nofun
  induction h with
  | ident => rw [World.result]; cases W.env _ <;> nofun
  | prop _ ih =>
    obtain ⟨rfl, hp⟩ := hp
    rw [World.result]
    exact acc _ _ (ih hp)
  | elem _ _ ih _ =>
    obtain ⟨rfl, hp, _⟩ := hp
    rw [World.result]
    exact acc _ _ (ih hp)
  | _ => nofun

theorem plain_equal (W : World V) {a b : Expr} (h : Equal a b) (hp : NoOptional a) (u : V) (hu : W.eval a = some u) : W.eval b = some u := by
  induction h generalizing u with
  | @prop q q' o o' n he ih =>
    obtain ⟨rfl, hp⟩ := hp
    have hs := plain_short W (.prop (q := false) (q' := false) (n := n) he) ⟨rfl, hp⟩
    rw [World.eval] at hu
    have hv : W.result (.prop false o n false) = .value u := by
      cases hr : W.result (.prop false o n false) with
      | throws => rw [hr] at hu; cases hu
      | short => exact absurd hr hs
      | value w => rw [hr] at hu; cases hu; rfl
    rw [World.result] at hv
    obtain ⟨w, hw, hw', hg⟩ := access_plain W hv
    have := ih hp w (by rw [World.eval, hw]; rfl)
    rw [World.eval, World.result, access_of W this hw']
    exact hg
  | @elem q q' o o' k k' he hk ih ih2 =>
    obtain ⟨rfl, hp, hpk⟩ := hp
    have hs := plain_short W (.elem (q := false) (q' := false) he hk) ⟨rfl, hp, hpk⟩
    rw [World.eval] at hu
    have hv : W.result (.elem false o k) = .value u := by
      cases hr : W.result (.elem false o k) with
      | throws => rw [hr] at hu; cases hu
      | short => exact absurd hr hs
      | value w => rw [hr] at hu; cases hu; rfl
    rw [World.result] at hv
    obtain ⟨w, hw, hw', hg⟩ := access_plain W hv
    have := ih hp w (by rw [World.eval, hw]; rfl)
    rw [World.eval, World.result, access_of W this hw']
    rw [Option.bind_eq_some_iff] at hg ⊢
    obtain ⟨kv, hkv, hg⟩ := hg
    exact ⟨kv, ih2 hpk kv hkv, hg⟩
  | _ => exact hu

theorem value_equal (W : World V) {a b : Expr} (h : Equal a b) (hp : KeysPlain a) (u : V) (hu : W.eval a = some u) (hn : ¬ W.Nullish u) : W.eval b = some u := by
  induction h generalizing u with
  | prop _ ih =>
    rw [World.eval, World.result] at hu
    obtain ⟨w, hw, hw', hg⟩ := access_value W hu hn
    have := ih hp w (by rw [World.eval, hw]; rfl) hw'
    rw [World.eval, World.result, access_of W this hw']
    exact hg
  | elem _ hk ih _ =>
    rw [World.eval, World.result] at hu
    obtain ⟨w, hw, hw', hg⟩ := access_value W hu hn
    have := ih hp.1 w (by rw [World.eval, hw]; rfl) hw'
    rw [World.eval, World.result, access_of W this hw']
    rw [Option.bind_eq_some_iff] at hg ⊢
    obtain ⟨kv, hkv, hg⟩ := hg
    exact ⟨kv, plain_equal W hk hp.2 kv hkv, hg⟩
  | _ => exact hu

theorem eval_reads (W : World V) {e o : Expr} {n : String} (h : Reads e o n) (hf : Fine e) {u w : V} (hw : W.eval o = some w) (hw' : ¬ W.Nullish w) :
    W.eval e = some u ↔ ((∃ q, e = .prop q o n true) ∧ W.getPrivate w n = some u) ∨ ((∀ q, e ≠ .prop q o n true) ∧ W.get w (W.str n) = some u) := by
  cases h with
  | @prop q o n p =>
    rw [World.eval, World.result, access_of W hw hw']
    cases p <;> simp
  | elem => rw [World.eval, World.result, access_of W hw hw']; simp [World.result, World.finish]

/-- A similar expression has the same value, if that is not nullish. -/
theorem value_similar (W : World V) {a b : Expr} (h : Similar a b) (na : Names a) (nb : Names b) (ha : NoHash a) (hb : NoHash b) (hp : KeysPlain a) (u : V)
    (hu : W.eval a = some u) (hn : ¬ W.Nullish u) : W.eval b = some u := by
  induction h generalizing u with
  | equal h1 h2 h3 =>
    rw [eval_bare W h1] at hu
    rw [eval_bare W h2]
    exact value_equal W h3 ((bare_hyps h1).2.2 hp) u hu hn
  | @named a b a' b' o o' n h1 h2 h3 h4 _ ih =>
    rw [eval_bare W h1] at hu
    rw [eval_bare W h2]
    have na' := (bare_hyps h1).1 na; have nb' := (bare_hyps h2).1 nb
    have ha' := (bare_hyps h1).2.1 ha; have hb' := (bare_hyps h2).2.1 hb
    have hp' := (bare_hyps h1).2.2 hp
    have ih := ih ((reads_hyps h3).1 na') ((reads_hyps h4).1 nb') ((reads_hyps h3).2.1 ha') ((reads_hyps h4).2.1 hb') ((reads_hyps h3).2.2 hp')
    obtain ⟨w, hw, hw', hg⟩ : ∃ w, W.eval o = some w ∧ ¬ W.Nullish w ∧ ((∃ q, a' = .prop q o n true) ∧ W.getPrivate w n = some u ∨
        (∀ q, a' ≠ .prop q o n true) ∧ W.get w (W.str n) = some u) := by
      have : ∃ w, W.eval o = some w ∧ ¬ W.Nullish w := by
        cases h3 <;> rw [World.eval, World.result] at hu <;> obtain ⟨w, hw, hw', _⟩ := access_value W hu hn <;>
          exact ⟨w, by rw [World.eval, hw]; rfl, hw'⟩
      obtain ⟨w, hw, hw'⟩ := this
      exact ⟨w, hw, hw', (eval_reads W h3 ⟨na', ha'⟩ hw hw').1 hu⟩
    refine (eval_reads W h4 ⟨nb', hb'⟩ (ih w hw hw') hw').2 ?_
    have : (∃ q, a' = .prop q o n true) ↔ ∃ q, b' = .prop q o' n true := by
      have key : ∀ {e o : Expr}, Reads e o n → Names e → NoHash e → ((∃ q, e = .prop q o n true) ↔ n.front = '#') := by
        intro e o h k1 k2
        cases h with
        | @prop q o n p => rw [← k1.2]; simp
        | elem => exact ⟨nofun, fun h => absurd h (k2.2.2 _ _ rfl)⟩
      rw [key h3 na' ha', key h4 nb' hb']
    rw [← this]
    rcases hg with ⟨h, hg⟩ | ⟨h, hg⟩
    · exact .inl ⟨h, hg⟩
    · exact .inr ⟨fun q hq => (this.2 ⟨q, hq⟩).elim h, hg⟩
  | computed h1 h2 _ h4 ih =>
    rw [eval_bare W h1] at hu
    rw [eval_bare W h2]
    have na' := (bare_hyps h1).1 na; have nb' := (bare_hyps h2).1 nb
    have ha' := (bare_hyps h1).2.1 ha; have hb' := (bare_hyps h2).2.1 hb
    have hp' := (bare_hyps h1).2.2 hp
    rw [World.eval, World.result] at hu
    obtain ⟨w, hw, hw', hg⟩ := access_value W hu hn
    have := ih na'.1 nb'.1 ha'.1 hb'.1 hp'.1 w (by rw [World.eval, hw]; rfl) hw'
    rw [World.eval, World.result, access_of W this hw']
    rw [Option.bind_eq_some_iff] at hg ⊢
    obtain ⟨kv, hkv, hg⟩ := hg
    exact ⟨kv, plain_equal W h4 hp'.2 kv hkv, hg⟩

/-- A place that exists is read without throwing but for what reading the property does. -/
theorem place_eval (W : World V) (e : Expr) (h : W.place e = true) : W.eval e = W.lax e := by
  induction e with
  | ident n => rw [World.eval, World.result, finish_ofOption, World.lax]
  | prop q o n p =>
    rw [World.place] at h
    split at h
    · rename_i w hw
      have hw' : ¬ W.Nullish w := by simpa using h
      have ho : W.eval o = some w := by rw [World.eval, hw]; rfl
      rw [World.eval, World.result, access_of W ho hw', World.lax, eval_lax W o w ho, Option.bind_some, if_neg hw']
    · cases h
  | elem q o a =>
    rw [World.place] at h
    split at h
    · rename_i w hw
      simp only [Bool.and_eq_true, Bool.not_eq_true', decide_eq_false_iff_not] at h
      obtain ⟨hw', ha⟩ := h
      have ho : W.eval o = some w := by rw [World.eval, hw]; rfl
      obtain ⟨k, hk⟩ := Option.isSome_iff_exists.1 ha
      rw [World.eval, World.result, access_of W ho hw', World.lax, eval_lax W o w ho, Option.bind_some, if_neg hw', eval_lax W a k hk]
      rw [World.eval] at hk
      rw [hk]
    · cases h
  | paren e ih =>
    rw [World.lax, ← ih h, World.eval, World.result, finish_ofOption]; rfl
  | _ => cases h

/-- The tested expression decides alike. -/
theorem assign_same (W : World V) {test target e x : Expr} (hs : Similar x target) (fx : Fine x) (ft : Fine target) (kx : KeysPlain x) {b u : V}
    (hb : W.eval test = some b) (hu : W.eval x = some u) (hbu : W.truthy b = true ↔ W.Nullish u) (h : W.ifAssign test target e ≠ .throws) :
    W.coalesceAssign target e = W.ifAssign test target e := by
  rw [World.ifAssign, hb] at h ⊢
  simp only at h ⊢
  by_cases hn : W.Nullish u
  · rw [if_pos (hbu.2 hn)] at h ⊢
    have hpl : W.place target = true := by
      rw [World.store.eq_def] at h
      split at h
      · exact absurd rfl h
      · split at h
        · assumption
        · exact absurd rfl h
    have : W.eval target = some u := by
      rw [place_eval W target hpl, ← lax_similar W hs fx.1 ft.1 fx.2 ft.2, eval_lax W x u hu]
    rw [World.coalesceAssign, this]
    simp only
    rw [if_pos hn]
  · rw [if_neg (fun h' => hn (hbu.1 h'))]
    have : W.eval target = some u := value_similar W hs fx.1 ft.1 fx.2 ft.2 kx u hu hn
    rw [World.coalesceAssign, this]
    simp only
    rw [if_neg hn]

/-- C102 (if statements): if the if statement does not throw, the suggested `target ??= value` does the same, provided what is said above, the assignment is plain, and there is no `?.` in the
keys of the tested expression. -/
theorem C102_if (W : World V) (hW : W.Lawful) (o : Options) (typeOf : Expr → Ty) (up : List Frame) (test : Expr) (body : Stmt) (hasElse : Bool) (target value e : Expr)
    (h : If o typeOf up test body hasElse target value) (_hb : Single body e) (_he : e.skip = .assign true target value)
    (hp : ∀ op l r, test.skip = .binary op l r → Proper test.skip) (hn : ∀ x, x = test ∨ x = target → Names x ∧ NoHash x) (hk : KeysPlain test)
    (ht : ∀ x, test.skip = .not x → ∀ u, W.eval x = some u → W.Nullish u ∨ W.truthy u = true)
    (hf : ∀ x u, Similar x target → W.eval x = some u → W.Fits u (typeOf target)) (hx : W.ifAssign test target value ≠ .throws) :
    W.coalesceAssign target value = W.ifAssign test target value := by
  have ft := hn test (.inl rfl); have fg := hn target (.inr rfl)
  obtain ⟨b, hb⟩ : ∃ b, W.eval test = some b := by
    cases hb : W.eval test with
    | none => rw [World.ifAssign, hb] at hx; exact absurd rfl hx
    | some b => exact ⟨b, rfl⟩
  have hb' := hb
  rw [← eval_skip W test] at hb'
  cases h with
  | @negated _ x _ _ _ _ _ _ _ _ hnot _ hs _ =>
    rw [hnot] at hb'
    obtain ⟨u, hu, hbu⟩ := eval_not W hW hb'
    have hu' := hu
    rw [← eval_skip W x] at hu'
    have kx : KeysPlain x.skip := by
      have := skip_keys hk
      rw [hnot] at this
      exact skip_keys this
    refine assign_same W hs (not_fine ft hnot) fg kx hb hu' ?_ hx
    rw [hbu]
    rcases ht x hnot u hu with h | h
    · simp [h, hW.falsy u h]
    · simp only [h, Bool.not_true, Bool.false_eq_true, false_iff]
      exact fun h' => by rw [hW.falsy u h'] at h; cases h
  | equal _ _ _ _ _ hc ho hco =>
    obtain ⟨op, l, r, hop⟩ : ∃ op l r, test.skip = .binary op l r := by
      cases hx : test.skip <;> rw [hx] at hc <;> first | exact ⟨_, _, _, rfl⟩ | (cases hc; rename_i hc; cases hc)
    obtain ⟨u, hu, hbu⟩ := compared_spec W hW hc (hp op l r hop) ho hco (skip_fine ft) fg hb' (fun u hu => hf _ u (only_mem ho).2.2 hu)
    have hm := (only_mem ho).1
    refine assign_same W (only_mem ho).2.2 (compared_fine hc (skip_fine ft) _ hm) fg (compared_keys hc (skip_keys hk) _ hm) hb hu ?_ hx
    rw [hbu]
    simp

/-! ### Cases, and what the suggestions do not keep -/

/-- null, undefined, false, true, and others; `x` is given -/
def sampleWorld (x : Nat) : World Nat where
  null := 0
  undefined := 1
  env n := if n = "undefined" then some 1 else if n = "x" then some x else if n = "y" then some 10 else none
  this := 4
  str t := 20 + t.length
  num _ := 5
  big _ := 6
  bool b := if b then 3 else 2
  get v k := some (v + k)
  getPrivate _ _ := some 7
  truthy v := decide (3 ≤ v)
  looseEq v w := if v ≤ 1 ∨ w ≤ 1 then decide (v ≤ 1 ∧ w ≤ 1) else v == w
  strictEq v w := v == w
  op _ v w := some (v + w)
  other _ := none

theorem sampleWorld_lawful (x : Nat) : (sampleWorld x).Lawful where
  distinct := nofun
  undefined := rfl
  bool b := by cases b <;> rfl
  falsy v h := by rcases h with rfl | rfl <;> rfl
  strict v w h := by
    simp only [sampleWorld, beq_iff_eq, true_and]
    exact eq_comm
  loose v w h := by
    have : w ≤ 1 := by rcases h with h | h <;> (rw [h]; show (_ : Nat) ≤ 1; simp [sampleWorld])
    have hv : (sampleWorld x).Nullish v ↔ v ≤ 1 := by
      rw [World.Nullish]
      show v = 0 ∨ v = 1 ↔ _
      omega
    rw [hv]
    simp [sampleWorld, this]

/-- `x === null || x === undefined ? y : x` -/
example (x : Nat) : (sampleWorld x).eval (.binary .coalesce (.ident "x") (.ident "y")) = if x ≤ 1 then some 10 else some x := by
  have hr : Ternary options (fun _ => ⟨true, []⟩) []
      (.binary .or (.binary .strictEq (.ident "x") .null) (.binary .strictEq (.ident "x") (.ident "undefined"))) (.ident "y") (.ident "x") (.ident "x") (.ident "y") :=
    (C101_ternary ..).1 (by decide)
  refine C102_ternary (sampleWorld x) (sampleWorld_lawful x) options _ _ _ _ _ _ _ hr (fun op l r h => ?_) ?_ ?_ ?_ (if x ≤ 1 then 10 else x) ?_ |>.trans ?_
  · exact .two (.inr (.inl rfl)) (.inr (.inr rfl))
  · rintro e (rfl | rfl | rfl) <;> exact ⟨by simp [Names], by simp [NoHash]⟩
  · intro h; exact absurd rfl (h _ _ _)
  · intro u _
    exact .inl rfl
  · rcases x with _ | _ | x
    · rfl
    · rfl
    · simp [World.eval, World.result, World.finish, ofOption, World.binary, World.compare, sampleWorld]
  · split <;> rfl

/-- `if (x == null) x = y` -/
example (x : Nat) : (sampleWorld x).coalesceAssign (.ident "x") (.ident "y") = if x ≤ 1 then .assigned 10 else .nothing := by
  have hr : If options (fun _ => nullableString) [] (.binary .eq (.ident "x") .null) (.block [.expression (.assign true (.ident "x") (.ident "y"))]) false (.ident "x") (.ident "y") :=
    (C101_if ..).1 (by decide)
  have he : (sampleWorld x).ifAssign (.binary .eq (.ident "x") .null) (.ident "x") (.ident "y") = if x ≤ 1 then .assigned 10 else .nothing := by
    rcases x with _ | _ | x
    · rfl
    · rfl
    · simp [World.ifAssign, World.eval, World.result, World.finish, ofOption, World.binary, World.compare, sampleWorld]
  rw [← he]
  refine C102_if (sampleWorld x) (sampleWorld_lawful x) options (fun _ => ⟨true, []⟩) [] _ (.block [.expression (.assign true (.ident "x") (.ident "y"))]) false _ _ _
    ((C101_if ..).1 (by decide)) .block rfl (fun op l r h => .one (.inr (.inl rfl))) ?_ (by simp [KeysPlain]) (fun x h => by cases h) (fun _ _ _ _ => .inl rfl) ?_
  · rintro e (rfl | rfl) <;> exact ⟨by simp [Names], by simp [NoHash]⟩
  · rw [he]; split <;> nofun

/-- Not kept: `x === x || x === null ? y : x` is reported, although `x` is compared with itself. -/
theorem C102_hazard_self : ternary options (fun _ => nullableString) [] (.binary .or (.binary .strictEq (.ident "x") (.ident "x")) (.binary .strictEq (.ident "x") .null)) (.ident "y") (.ident "x") =
      some (.ident "x", .ident "y") ∧
    (sampleWorld 5).eval (.cond (.binary .or (.binary .strictEq (.ident "x") (.ident "x")) (.binary .strictEq (.ident "x") .null)) (.ident "y") (.ident "x")) = some 10 ∧
    (sampleWorld 5).eval (.binary .coalesce (.ident "x") (.ident "y")) = some 5 := by decide

/-- Not kept: `x["#b"] != null ? x.#b : y` is reported, and `x["#b"] ?? y` suggested. -/
theorem C102_hazard_private : ternary options (fun _ => nullableString) [] (.binary .notEq (.elem false (.ident "x") (.str false "#b")) .null) (.prop false (.ident "x") "#b" true) (.ident "y") =
      some (.elem false (.ident "x") (.str false "#b"), .ident "y") ∧
    (sampleWorld 5).eval (.cond (.binary .notEq (.elem false (.ident "x") (.str false "#b")) .null) (.prop false (.ident "x") "#b" true) (.ident "y")) = some 7 ∧
    (sampleWorld 5).eval (.binary .coalesce (.elem false (.ident "x") (.str false "#b")) (.ident "y")) = some 27 := by decide

/-- Not kept: `if (x[y?.b] == null) x[y.b] = y` is reported; when `y` is undefined, `x[y.b] ??= y` throws. -/
theorem C102_hazard_keys : ifStatement options (fun _ => nullableString) [] (.binary .eq (.elem false (.ident "y") (.prop true (.ident "x") "b" false)) .null)
      (.expression (.assign true (.elem false (.ident "y") (.prop false (.ident "x") "b" false)) (.ident "y"))) false =
      some (.elem false (.ident "y") (.prop false (.ident "x") "b" false), .ident "y") ∧
    (sampleWorld 1).ifAssign (.binary .eq (.elem false (.ident "y") (.prop true (.ident "x") "b" false)) .null) (.elem false (.ident "y") (.prop false (.ident "x") "b" false)) (.ident "y") = .nothing ∧
    (sampleWorld 1).coalesceAssign (.elem false (.ident "y") (.prop false (.ident "x") "b" false)) (.ident "y") = .throws := by decide

/-- `if (test) target op= e;` -/
def World.ifUpdate (W : World V) (op : Nat) (test target e : Expr) : Effect V :=
  match W.eval test with
  | none => .throws
  | some v => if W.truthy v then W.store target ((W.eval target).bind fun x => (W.eval e).bind fun y => W.op op x y) else .nothing

/-- Not kept: `if (x == null) x += y` is reported, and `x ??= y` suggested. -/
theorem C102_hazard_update : ifStatement options (fun _ => nullableString) [] (.binary .eq (.ident "x") .null) (.expression (.assign false (.ident "x") (.ident "y"))) false =
      some (.ident "x", .ident "y") ∧
    (sampleWorld 1).ifUpdate 0 (.binary .eq (.ident "x") .null) (.ident "x") (.ident "y") = .assigned 11 ∧
    (sampleWorld 1).coalesceAssign (.ident "x") (.ident "y") = .assigned 10 := by decide

end Tsgolint.Nullish
