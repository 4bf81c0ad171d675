import Verif.Props.OptionalCode
import Verif.Spec.OptionalOr

/-!
# C115: the optional chain that replaces an OR chain means what the OR chain meant
-/

namespace Tsgolint.OptionalChain

open Expr

variable {V : Type}

theorem text_not (e : Expr) : (Expr.unary .not e).text = "!".toList ++ e.text := rfl

theorem disj_split (W : World V) (l : Expr) (r : V) : ∀ gs : List Expr, W.disjunction (gs ++ [l]) = some r →
    ((∀ g ∈ gs, ∃ v, W.value g = some v ∧ W.truthy v = false) ∧ W.value l = some r) ∨
    (∃ a f b, gs = a ++ f :: b ∧ (∀ g ∈ a, ∃ v, W.value g = some v ∧ W.truthy v = false) ∧ W.value f = some r ∧ W.truthy r = true)
  | [], h => .inl ⟨nofun, h⟩
  | g :: gs, h => by
    have hcons : W.disjunction (g :: gs ++ [l]) = match W.value g with
      | none => none
      | some v => if W.truthy v = true then some v else W.disjunction (gs ++ [l]) := by
      cases gs <;> rfl
    rw [hcons] at h
    cases hg : W.value g with
    | none => rw [hg] at h; cases h
    | some v =>
      rw [hg] at h
      simp only at h
      split at h
      · rename_i ht
        cases h
        exact .inr ⟨[], g, gs, rfl, nofun, hg, ht⟩
      · rename_i ht
        have ht : W.truthy v = false := by simpa using ht
        rcases disj_split W l r gs h with ⟨h1, h2⟩ | ⟨a, f, b, h1, h2, h3, h4⟩
        · refine .inl ⟨fun g' hg' => ?_, h2⟩
          rcases List.mem_cons.1 hg' with rfl | hg'
          · exact ⟨v, hg, ht⟩
          · exact h1 g' hg'
        · refine .inr ⟨g :: a, f, b, by rw [h1]; rfl, fun g' hg' => ?_, h3, h4⟩
          rcases List.mem_cons.1 hg' with rfl | hg'
          · exact ⟨v, hg, ht⟩
          · exact h2 g' hg'

theorem nullishLit_value (W : World V) (hW : W.Lawful) (e : Expr) (h : e.isNullishLit = true) : ∃ v, W.value e = some v ∧ W.Nullish v := by
  unfold isNullishLit at h
  rw [Bool.or_eq_true] at h
  rcases h with h | h
  · exact ⟨_, nullLit_value W e h, .inr rfl⟩
  · exact ⟨_, undefLit_value W hW e h, .inl rfl⟩

/-- an equality with null or undefined that is true -/
theorem equal_nullish (W : World V) (hW : W.Lawful) (o : Op) (ho : o = .seq ∨ o = .eq) (a b : V) (h : W.Nullish a ∨ W.Nullish b) (r : V) (hr : W.op o a b = some r)
    (ht : W.truthy r = true) : W.Nullish a ∧ W.Nullish b := by
  rcases ho with rfl | rfl
  · obtain ⟨r', h1, h2⟩ := hW.seq a b (by rcases h with h | h; exact .inl h; exact .inr (.inl h))
    rw [h1] at hr; cases hr
    have := h2.1 ht
    subst this
    rcases h with h | h <;> exact ⟨h, h⟩
  · obtain ⟨r', h1, h2⟩ := hW.eq a b h
    rw [h1] at hr; cases hr
    exact h2.1 ht

/-- the value of what a guard of an OR chain is about -/
theorem or_guard_value (W : World V) (hW : W.Lawful) (g : Expr) (hk : OrGuard (parse false g)) (r : V) (hr : W.value g = some r) :
    ∃ x, W.value (parse false g).expr = some x ∧ (W.truthy r = true → ((parse false g).kind = .not → W.truthy x = true ∨ W.Nullish x) → W.Nullish x) := by
  rcases hk with hk | ⟨hc, l, o, t, r', hu, ho, hside⟩
  · have hne : (parse false g).kind ≠ .comparison ∧ (parse false g).kind ≠ .invalid ∧ (parse false g).kind ≠ .typeof := by
      simp only [List.mem_cons, List.not_mem_nil, or_false] at hk
      rcases hk with h | h | h | h <;> rw [h] <;> exact ⟨nofun, nofun, nofun⟩
    rcases operand_tells W hW false g r hr hne.1 hne.2.1 with ⟨x, hx, hs⟩ | ⟨h, _⟩
    · refine ⟨x, hx, fun ht h => ?_⟩
      have hns := hs.1 ht
      simp only [List.mem_cons, List.not_mem_nil, or_false] at hk
      rcases hk with h' | h' | h' | h'
      · rw [h'] at hns
        rcases h h' with h | h
        · have : W.truthy x = false := hns
          rw [this] at h; cases h
        · exact h
      · rw [h'] at hns; exact hns
      · rw [h'] at hns; exact .inr hns
      · rw [h'] at hns; exact .inl hns
    · exact absurd h hne.2.2
  · rw [parse_node] at hu
    rw [← value_unwrap, hu] at hr
    have he : o.eager := by rcases ho with rfl | rfl <;> exact ⟨nofun, nofun, nofun⟩
    obtain ⟨a, b, ha, hb, hop⟩ := (value_binary W _ _ _ _ he _).1 hr
    rcases hside with ⟨hx, hn⟩ | ⟨hx, hn⟩
    · rw [hx, value_skip]
      obtain ⟨v, hv, hnv⟩ := nullishLit_value W hW _ hn
      rw [hv] at hb; cases hb
      exact ⟨a, ha, fun ht _ => (equal_nullish W hW o ho a _ (.inr hnv) r hop ht).1⟩
    · rw [hx, value_skip]
      obtain ⟨v, hv, hnv⟩ := nullishLit_value W hW _ hn
      rw [hv] at ha; cases ha
      exact ⟨b, hb, fun ht _ => (equal_nullish W hW o ho _ b (.inl hnv) r hop ht).2⟩

/-- the operands of an OR chain -/
def orParsed (gs : List Expr) (l : Expr) : List Operand := (gs ++ [l]).map (parse false)

theorem orParsed_eq (gs : List Expr) (l : Expr) : orParsed gs l = gs.map (parse false) ++ [parse false l] := by simp [orParsed]

theorem unbang_steps (m : Nat) : ∀ (ps : List Piece) (i : Nat), (unbang m i ps).map Piece.step = ps.map Piece.step ∧ (unbang m i ps).map Piece.opt = ps.map Piece.opt
  | [], _ => by simp [unbang]
  | p :: ps, i => by rw [unbang_cons]; simp [(unbang_steps m ps (i + 1)).1, (unbang_steps m ps (i + 1)).2]

/-- the code made from `T` in an OR chain -/
theorem orChain_code (W : World V) (gs : List Expr) (T : Expr) (hpre : ∀ g ∈ gs, BeginsAs (parse false g).expr T) (hb : BangedName T)
    (hmarks : ∀ g ∈ gs, KeepsMarks (parse false g).expr T) (hcalm : Calm W T) (L : List Nat) (hL : ∀ g ∈ gs, (parse false g).expr.size ∈ L) (c : Bool) (code : Text)
    (hcode : build (flat false T) L c true = some code) :
    ∃ e', code = e'.text ∧ e'.bare = T.bare ∧
      (∀ x, (∀ g ∈ gs, W.value (parse false g).expr ≠ none) → W.value T = some x → W.value e' = some x) ∧
      (∀ a f b x, gs = a ++ f :: b → (∀ g ∈ a, W.value (parse false g).expr ≠ none) → W.value (parse false f).expr = some x → W.Nullish x →
        ∃ y, W.Nullish y ∧ ((parse false f).expr.size < T.size → y = W.undef) ∧ W.value e' = some y) := by
  rw [rebuild_or T L c hb] at hcode
  split at hcode
  · cases hcode
  · simp only [Option.some.injEq] at hcode
    generalize hroot : (if (rootBang false T && firstOpt (withMarks L c 1 (links false T)) && decide (0 < longest L)) = true then (rootOf false T).unbanged else rootOf false T) = rt at hcode
    have hrt : rt = (rootOf false T).unbanged ∨ rt = rootOf false T := by
      rw [← hroot]; split
      · exact .inl rfl
      · exact .inr rfl
    have hcv : W.eval rt = W.eval (originOf T) := by
      rw [← rootOf_eval W false]
      rcases hrt with rfl | rfl
      · exact unbanged_eval W _
      · rfl
    have hst : (unbang (longest L) 1 (withMarks L c 1 (links false T))).map Piece.step = stepsOf T := by
      rw [(unbang_steps _ _ _).1, withMarks_steps, links_steps]
    have hget : ∀ (j : Nat) n, (unbang (longest L) 1 (withMarks L c 1 (links false T)))[j]? = some n →
        ∃ p, (links false T)[j]? = some p ∧ (p.opt = true → n.opt = true) ∧ (L.contains (1 + j) = true → n.opt = true) := by
      intro j n hn
      have h1 : ((unbang (longest L) 1 (withMarks L c 1 (links false T))).map Piece.opt)[j]? = some n.opt := by rw [List.getElem?_map, hn]; rfl
      rw [(unbang_steps _ _ _).2, List.getElem?_map] at h1
      obtain ⟨m, hm, hmo⟩ := Option.map_eq_some_iff.1 h1
      obtain ⟨p, hp, h2, h3⟩ := withMarks_get L c (links false T) 1 j m hm
      exact ⟨p, hp, fun h => by rw [← hmo]; exact h2 h, fun h => by rw [← hmo]; exact h3 h⟩
    have hm := chain_meaning W (gs.map fun g => (parse false g).expr) T rt _ hcv hst ?_ ?_ ?_ hcalm
    · refine ⟨_, hcode.symm, ?_, ?_, ?_⟩
      · rw [bare_assemble _ (links false T) (by rw [hst, links_steps]) rt (rootOf false T), bare_links]
        rcases hrt with rfl | rfl
        · exact bare_unbanged _
        · rfl
      · intro x hg hx
        refine hm.1 x ?_ hx
        intro t ht
        obtain ⟨g, hgm, rfl⟩ := List.mem_map.1 ht
        exact hg g hgm
      · intro a f b x hG hg hx hn
        refine hm.2 (a.map fun g => (parse false g).expr) _ (b.map fun g => (parse false g).expr) x (by rw [hG]; simp) ?_ hx hn
        intro t ht
        obtain ⟨g, hgm, rfl⟩ := List.mem_map.1 ht
        exact hg g hgm
    · intro i e p n hfind hp hn ho
      obtain ⟨q, hq, h1, _⟩ := hget i n hn
      refine h1 ?_
      have he := List.mem_of_find?_eq_some hfind
      rw [List.map_map] at he
      rcases List.mem_append.1 he with h | h
      · obtain ⟨g, hg, rfl⟩ := List.mem_map.1 h
        exact hmarks g hg i p q hp hq ho
      · rw [List.mem_singleton] at h; subst h
        rw [hq] at hp; cases hp; exact ho
    · intro t ht n hn
      obtain ⟨g, hgm, rfl⟩ := List.mem_map.1 ht
      obtain ⟨q, hq, _, h2⟩ := hget _ n hn
      refine h2 ?_
      have := hL g hgm
      rw [Expr.size, Nat.add_comm] at this
      simpa using this
    · intro t ht
      obtain ⟨g, hgm, rfl⟩ := List.mem_map.1 ht
      exact hpre g hgm

/-- the OR chain's code, if it does not end in a truth test -/
theorem orCode_eq (O : Options) (between : Text) (gs : List Expr) (l : Expr) (hne : gs ≠ []) (hk : (parse false l).kind ≠ .plain) (code : Text)
    (hcode : orCode O between (orParsed gs l) = some code) : ∃ L c inner, (∀ g ∈ gs, (parse false g).expr.size ∈ L) ∧ build (flat false (parse false l).expr) L c true = some inner ∧
      code = if (parse false l).kind.comparisonOrCheck then withOrComparison (parse false l).kind l inner else if (parse false l).kind == .not then "!".toList ++ inner else inner := by
  obtain ⟨init, s, rfl⟩ : ∃ init s, gs = init ++ [s] := by
    rcases List.eq_nil_or_concat gs with rfl | ⟨i, s, rfl⟩
    · exact absurd rfl hne
    · exact ⟨i, s, by simp⟩
  have hkeep : keepsPlain O (orParsed (init ++ [s]) l).reverse = false := by
    have hrev : (orParsed (init ++ [s]) l).reverse = parse false l :: parse false s :: (init.map (parse false)).reverse := by simp [orParsed]
    have hkp : ((parse false l).kind == .plain) = false := by simpa using hk
    rw [hrev]
    cases (init.map (parse false)).reverse with
    | nil => rfl
    | cons => simp only [keepsPlain, hkp, Bool.false_and]
  have hlast : (orParsed (init ++ [s]) l).getLast? = some (parse false l) := by rw [orParsed_eq]; simp
  obtain ⟨first, rest, hfirst⟩ : ∃ first rest, orParsed (init ++ [s]) l = first :: rest := by
    cases init <;> exact ⟨_, _, rfl⟩
  unfold orCode at hcode
  simp only [hkeep, Bool.false_eq_true, if_false, hlast] at hcode
  generalize hP : orParsed (init ++ [s]) l = P at hcode hfirst
  subst hfirst
  simp only at hcode
  split at hcode
  · cases hcode
  · obtain ⟨inner, h1, h2⟩ := Option.map_eq_some_iff.1 hcode
    have hkp : ((parse false l).kind == .plain) = false := by simpa using hk
    simp only [hkp, Bool.false_eq_true, if_false, Operand.target] at h1
    refine ⟨_, _, inner, ?_, h1, ?_⟩
    · intro g hg
      refine List.mem_map.2 ⟨parse false g, ?_, flat_length _ _⟩
      rw [← hP, orParsed]
      exact List.mem_map.2 ⟨g, List.mem_append.2 (.inl hg), rfl⟩
    · rw [← h2, parse_node]

theorem or_pre (gs : List Expr) (l : Expr) (hlink : Linked (orParsed gs l)) : ∀ g ∈ gs, BeginsAs (parse false g).expr (parse false l).expr := by
  intro g hg
  have hpw := linked_pairwise _ hlink
  rw [orParsed_eq, List.pairwise_append] at hpw
  exact hpw.2.2 _ (List.mem_map.2 ⟨g, hg, rfl⟩) _ (List.mem_singleton.2 rfl)

/-- **C115** An OR chain of negations and equalities with null or undefined that ends in the negation of an access is replaced by the negation of the same access with
more question marks. It has the same value where the guards let through; where one stopped, both are truthy -/
theorem or_meaning (W : World V) (hW : W.Lawful) (O : Options) (gs : List Expr) (l : Expr) (hne : gs ≠ []) (hlink : Linked (orParsed gs l)) (hk : ∀ g ∈ gs, OrGuard (parse false g))
    (hl : (parse false l).kind = .not) (hb : BangedName (parse false l).expr) (hmarks : ∀ g ∈ gs, KeepsMarks (parse false g).expr (parse false l).expr)
    (hcalm : Calm W (parse false l).expr)
    (hplain : ∀ g ∈ gs, (parse false g).kind = .not → ∀ v, W.value (parse false g).expr = some v → W.truthy v = true ∨ W.Nullish v)
    (between code : Text) (hcode : orCode O between (orParsed gs l) = some code) :
    ∃ e', code = e'.text ∧ e'.bare = l.bare ∧ ∀ r, W.disjunction (gs ++ [l]) = some r → (W.value e' = some r ∨ (W.truthy r = true ∧ ∃ z, W.truthy z = true ∧ W.value e' = some z)) := by
  obtain ⟨L, c, inner, hL, hbuild, hc⟩ := orCode_eq O between gs l hne (by rw [hl]; nofun) code hcode
  have hco : (parse false l).kind.comparisonOrCheck = false := by rw [hl]; rfl
  have hcn : ((parse false l).kind == .not) = true := by rw [hl]; rfl
  rw [hco, hcn] at hc
  simp only [Bool.false_eq_true, if_false, if_true] at hc
  obtain ⟨e', h1, h2, h3, h4⟩ := orChain_code W gs _ (or_pre gs l hlink) hb hmarks hcalm L hL c inner hbuild
  have hun : l.unwrap = .unary .not (parse false l).expr := by
    have := (not_iff false l (parse false l).expr).1 (by
      show parse false l = ⟨.not, l, (parse false l).expr⟩
      have hn := parse_node false l
      generalize parse false l = x at hl hn
      obtain ⟨k, n, e⟩ := x
      cases hl; cases hn; rfl)
    exact this.1
  refine ⟨.unary .not e', ?_, ?_, fun r hr => ?_⟩
  · rw [hc, h1, text_not]
  · rw [← bare_unwrap l, hun, Expr.bare, Expr.bare, h2]
  · have hval : ∀ g ∈ gs, (∃ v, W.value g = some v ∧ W.truthy v = false) → W.value (parse false g).expr ≠ none := by
      intro g hg ⟨v, hv, _⟩
      obtain ⟨x, hx, _⟩ := or_guard_value W hW g (hk g hg) v hv
      rw [hx]; nofun
    have hnot : ∀ a x, W.value e' = some a → W.unary .not a = some x → W.value (.unary .not e') = some x := by
      intro a x ha hx
      rw [World.value] at ha ⊢
      rw [World.eval, ha]; simp only [Res.after, hx, Res.value]
    rcases disj_split W l r gs hr with ⟨hg, hlr⟩ | ⟨a, f, b, hG, hg, hf, htrue⟩
    · left
      rw [← value_unwrap, hun, World.value, World.eval] at hlr
      cases hv : (W.eval (parse false l).expr).value W with
      | none => rw [hv] at hlr; cases hlr
      | some x =>
        rw [hv] at hlr
        simp only [Res.after] at hlr
        cases hx : W.unary .not x with
        | none => rw [hx] at hlr; cases hlr
        | some z =>
          rw [hx] at hlr
          simp only [Res.value, Option.some.injEq] at hlr
          subst hlr
          exact hnot x z (h3 x (fun g hgm => hval g hgm (hg g hgm)) hv) hx
    · right
      have hfm : f ∈ gs := by rw [hG]; simp
      obtain ⟨x, hx, hnull⟩ := or_guard_value W hW f (hk f hfm) r hf
      obtain ⟨y, hy, _, hye⟩ := h4 a f b x hG (fun g hgm => hval g (by rw [hG]; simp [hgm]) (hg g hgm)) hx (hnull htrue fun hp => hplain f hfm hp x hx)
      obtain ⟨z, hz, hzt⟩ := hW.not y
      refine ⟨htrue, z, hzt.2 ?_, hnot y z hye hz⟩
      rcases hy with rfl | rfl
      · exact W.undef_falsy
      · exact W.null_falsy

/-! ### A comparison at the end -/

/-- the optional chain is compared in the place of the access -/
theorem or_compared (W : World V) (hW : W.Lawful) (gs : List Expr) (lhs rhs : Expr) (o : Op) (t : Text) (ho : o.eager) 
    (hlink : Linked (orParsed gs (.binary lhs o t rhs))) (hk : ∀ g ∈ gs, OrGuard (parse false g))
    (hl : (parse false (.binary lhs o t rhs)).kind ∈ [.comparison, .notNull, .notUndef, .notBoth])
    (x y : Expr) (hxy : (x, y) = if onRight false lhs o rhs then (rhs, lhs) else (lhs, rhs)) (hx : isParen x = false)
    (hb : BangedName x) (hmarks : ∀ g ∈ gs, KeepsMarks (parse false g).expr x) (hlt : ∀ g ∈ gs, (parse false g).expr.size < x.size)
    (hcalm : Calm W x) (hy : W.value y ≠ none) (hsym : onRight false lhs o rhs = true → ∀ a b, W.op o a b = W.op o b a)
    (hsafe : ∀ b, W.value y = some b → ∃ z, W.op o W.undef b = some z ∧ W.truthy z = true)
    (hplain : ∀ g ∈ gs, (parse false g).kind = .not → ∀ v, W.value (parse false g).expr = some v → W.truthy v = true ∨ W.Nullish v)
    (L : List Nat) (c : Bool) (inner : Text) (hL : ∀ g ∈ gs, (parse false g).expr.size ∈ L)
    (hbuild : build (flat false (parse false (.binary lhs o t rhs)).expr) L c true = some inner) :
    ∃ e', withOrComparison (parse false (.binary lhs o t rhs)).kind (.binary lhs o t rhs) inner = e'.text ∧ e'.bare = (Expr.binary x o t y).bare ∧ ∀ r, W.disjunction (gs ++ [.binary lhs o t rhs]) = some r → (W.value e' = some r ∨ (W.truthy r = true ∧ ∃ z, W.truthy z = true ∧ W.value e' = some z)) := by
  have hki : (parse false (.binary lhs o t rhs)).kind ≠ .invalid ∧ (parse false (.binary lhs o t rhs)).kind ≠ .typeof ∧ (parse false (.binary lhs o t rhs)).kind ≠ .plain ∧
      (parse false (.binary lhs o t rhs)).kind.comparisonOrCheck = true ∧ ((parse false (.binary lhs o t rhs)).kind == .typeof) = false := by
    simp only [List.mem_cons, List.not_mem_nil, or_false] at hl
    rcases hl with h | h | h | h <;> rw [h] <;> exact ⟨nofun, nofun, nofun, rfl, rfl⟩
  have ht : (parse false (.binary lhs o t rhs)).expr = x := by
    rw [expr_side false lhs o t rhs hki.1 hki.2.1]
    cases hR : onRight false lhs o rhs <;> rw [hR] at hxy <;> simp only [Bool.false_eq_true, if_true, if_false, Prod.mk.injEq] at hxy ⊢ <;> rw [← hxy.1] <;> exact skip_bare x hx
  rw [ht] at hbuild
  have hpre := or_pre gs _ hlink
  rw [ht] at hpre
  obtain ⟨e', h1, h2, h3, h4⟩ := orChain_code W gs _ hpre hb hmarks hcalm L hL c inner hbuild
  have hval : ∀ g ∈ gs, (∃ v, W.value g = some v ∧ W.truthy v = false) → W.value (parse false g).expr ≠ none := by
    intro g hg ⟨v, hv, _⟩
    obtain ⟨x, hx, _⟩ := or_guard_value W hW g (hk g hg) v hv
    rw [hx]; nofun
  have hstop : ∀ r, ∀ a f b, gs = a ++ f :: b → (∀ g ∈ a, ∃ v, W.value g = some v ∧ W.truthy v = false) → W.value f = some r → W.truthy r = true → W.value e' = some W.undef := by
    intro r a f b hG hg hf htrue
    have hfm : f ∈ gs := by rw [hG]; simp
    obtain ⟨x', hx', hnull⟩ := or_guard_value W hW f (hk f hfm) r hf
    obtain ⟨y', _, hu, hye⟩ := h4 a f b x' hG (fun g hgm => hval g (by rw [hG]; simp [hgm]) (hg g hgm)) hx' (hnull htrue fun hp => hplain f hfm hp x' hx')
    rw [hye, hu (hlt f hfm)]
  obtain ⟨b, hbv⟩ := Option.ne_none_iff_exists'.1 hy
  obtain ⟨z, hz, hzt⟩ := hsafe b hbv
  have hres : ∀ t' r, W.disjunction (gs ++ [.binary lhs o t rhs]) = some r → W.value (.binary e' o t' y) = some r ∨ (W.truthy r = true ∧ ∃ z, W.truthy z = true ∧ W.value (.binary e' o t' y) = some z) := by
    intro t' r hr
    rcases disj_split W _ r gs hr with ⟨hg, hlr⟩ | ⟨a, f, b', hG, hg, hf, htrue⟩
    · left
      obtain ⟨va, vb, hva, hvb, hop⟩ := (value_binary W _ _ _ _ ho _).1 hlr
      cases hR : onRight false lhs o rhs with
      | false =>
        rw [hR] at hxy
        simp only [Bool.false_eq_true, if_false, Prod.mk.injEq] at hxy
        obtain ⟨rfl, rfl⟩ := hxy
        exact (value_binary W _ _ _ _ ho _).2 ⟨va, vb, h3 va (fun g hgm => hval g hgm (hg g hgm)) hva, hvb, hop⟩
      | true =>
        have hs := hsym hR
        rw [hR] at hxy
        simp only [if_true, Prod.mk.injEq] at hxy
        obtain ⟨rfl, rfl⟩ := hxy
        exact (value_binary W _ _ _ _ ho _).2 ⟨vb, va, h3 vb (fun g hgm => hval g hgm (hg g hgm)) hvb, hva, by rw [hs]; exact hop⟩
    · right
      exact ⟨htrue, z, hzt, (value_binary W _ _ _ _ ho _).2 ⟨_, b, hstop r a f b' hG hg hf htrue, hbv, hz⟩⟩
  cases hR : onRight false lhs o rhs with
  | false =>
    rw [hR] at hxy
    simp only [Bool.false_eq_true, if_false, Prod.mk.injEq] at hxy
    obtain ⟨rfl, rfl⟩ := hxy
    refine ⟨.binary e' o t y, ?_, ?_, hres t⟩
    · rw [text_binary, h1]; simp only [withOrComparison, hR, hx, hki.2.2.2.2, Bool.or_false, Bool.false_eq_true, if_false]
    · simp only [Expr.bare, h2]
  | true =>
    rw [hR] at hxy
    simp only [if_true, Prod.mk.injEq] at hxy
    obtain ⟨rfl, rfl⟩ := hxy
    refine ⟨.binary e' o (" ".toList ++ trimOp t ++ " ".toList) y, ?_, ?_, hres _⟩
    · rw [text_binary, h1]; simp only [withOrComparison, hR, Bool.true_or, if_true, List.append_assoc]
    · simp only [Expr.bare, h2]

/-- **C115** A comparison at the end is kept, with the optional chain on its left: the same value where the guards let through, and both truthy where one stopped, if
undefined compared with the other side is truthy (and, for a comparison written the other way round, if the operator's sides can be swapped) -/
theorem or_comparison_meaning (W : World V) (hW : W.Lawful) (O : Options) (gs : List Expr) (lhs rhs : Expr) (o : Op) (t : Text) (ho : o.eager) (hne : gs ≠ [])
    (hlink : Linked (orParsed gs (.binary lhs o t rhs))) (hk : ∀ g ∈ gs, OrGuard (parse false g))
    (hl : (parse false (.binary lhs o t rhs)).kind ∈ [.comparison, .notNull, .notUndef, .notBoth])
    (x y : Expr) (hxy : (x, y) = if onRight false lhs o rhs then (rhs, lhs) else (lhs, rhs)) (hx : isParen x = false)
    (hb : BangedName x) (hmarks : ∀ g ∈ gs, KeepsMarks (parse false g).expr x) (hlt : ∀ g ∈ gs, (parse false g).expr.size < x.size)
    (hcalm : Calm W x) (hy : W.value y ≠ none) (hsym : onRight false lhs o rhs = true → ∀ a b, W.op o a b = W.op o b a)
    (hsafe : ∀ b, W.value y = some b → ∃ z, W.op o W.undef b = some z ∧ W.truthy z = true)
    (hplain : ∀ g ∈ gs, (parse false g).kind = .not → ∀ v, W.value (parse false g).expr = some v → W.truthy v = true ∨ W.Nullish v)
    (between code : Text) (hcode : orCode O between (orParsed gs (.binary lhs o t rhs)) = some code) :
    ∃ e', code = e'.text ∧ e'.bare = (Expr.binary x o t y).bare ∧ ∀ r, W.disjunction (gs ++ [.binary lhs o t rhs]) = some r → (W.value e' = some r ∨ (W.truthy r = true ∧ ∃ z, W.truthy z = true ∧ W.value e' = some z)) := by
  have hki : (parse false (.binary lhs o t rhs)).kind ≠ .plain ∧ (parse false (.binary lhs o t rhs)).kind.comparisonOrCheck = true := by
    simp only [List.mem_cons, List.not_mem_nil, or_false] at hl
    rcases hl with h | h | h | h <;> rw [h] <;> exact ⟨nofun, rfl⟩
  obtain ⟨L, c, inner, hL, hbuild, hc⟩ := orCode_eq O between gs _ hne hki.1 code hcode
  rw [hki.2, if_pos rfl] at hc
  obtain ⟨e', h1, h2, h3⟩ := or_compared W hW gs lhs rhs o t ho hlink hk hl x y hxy hx hb hmarks hlt hcalm hy hsym hsafe hplain L c inner hL hbuild
  exact ⟨e', by rw [hc, h1], h2, h3⟩

/-! ### Where it does not mean the same -/

def sampleFive : Expr := .literal 0 .number ['5']
/-- `!x` -/
def sampleNot (e : Expr) : Expr := .unary .not e

/-- **C115** The sides of any operator are swapped: `!x || 5 - x.y` becomes `x?.y - 5` -/
theorem sides_swapped : orCode {} [] (orParsed [sampleNot (sampleVar "x")] (.binary sampleFive .minus " - ".toList (sampleAccess "x" "y"))) = some "x?.y - 5".toList := by
  decide +kernel

/-- **C115** What is compared with what is lost if the compared access is in parentheses or under `typeof`: `!x || (x.y) !== 5` becomes `x?.y !== (x.y)`, and
`!x || typeof x.y === 'undefined'` becomes `x?.y === typeof x.y` -/
theorem other_side_lost :
    orCode {} [] (orParsed [sampleNot (sampleVar "x")] (.binary (.paren (sampleAccess "x" "y")) .sne " !== ".toList sampleFive)) = some "x?.y !== (x.y)".toList ∧
    orCode {} [] (orParsed [sampleNot (sampleVar "x")] (.binary (.typeof (sampleAccess "x" "y")) .seq " === ".toList (.literal 0 .string "undefined".toList))) =
      some "x?.y === typeof x.y".toList := by
  decide +kernel

/-- `u?.a` -/
def sampleMarked : Expr := .prop (sampleVar "u") true ['a']

/-- **C115** The question marks of the guards are lost if there are three operands: `!u?.a || !u.a.b || !u.a.b.c` becomes `!u.a?.b?.c`, which throws where `u` is
undefined -/
theorem marks_lost : orCode {} [] (orParsed [sampleNot sampleMarked, sampleNot (sampleProp (sampleAccess "u" "a") "b")] (sampleNot (sampleProp (sampleProp (sampleAccess "u" "a") "b") "c"))) =
      some (sampleNot (.prop (.prop (sampleAccess "u" "a") true ['b']) true ['c'])).text ∧
    lawfulWorld.disjunction [sampleNot sampleMarked, sampleNot (sampleProp (sampleAccess "u" "a") "b"), sampleNot (sampleProp (sampleProp (sampleAccess "u" "a") "b") "c")] = some .tru ∧
    lawfulWorld.value (sampleNot (.prop (.prop (sampleAccess "u" "a") true ['b']) true ['c'])) = none := by
  have hu : lawfulWorld.eval (sampleVar "u") = .val .undef .undef := by rw [sampleVar, World.eval]; rfl
  refine ⟨by decide +kernel, ?_, ?_⟩
  · have h : lawfulWorld.value (sampleNot sampleMarked) = some .tru := by
      rw [World.value, sampleNot, World.eval, sampleMarked, World.eval, hu]
      simp only [Res.link]
      rw [if_pos ⟨rfl, (nullish_bool _).2 rfl⟩]; rfl
    simp only [World.disjunction, h]; rfl
  · rw [World.value, sampleNot, World.eval, World.eval, World.eval, sampleAccess, sampleProp, World.eval, hu]
    simp only [Res.link]
    rw [if_neg (by simp)]; rfl

/-! ### Examples -/

example : orCode {} [] (orParsed [sampleNot (sampleVar "x"), sampleNot (sampleAccess "x" "a")] (sampleNot (sampleProp (sampleAccess "x" "a") "b"))) = some "!x?.a?.b".toList := by
  decide +kernel
example : orCode {} [] (orParsed [.binary (sampleVar "x") .eq " == ".toList sampleNull] (.binary (sampleAccess "x" "a") .sne " !== ".toList sampleFive)) = some "x?.a !== 5".toList ∧
    orCode {} [] (orParsed [.binary (sampleVar "x") .eq " == ".toList sampleNull] (.binary sampleFive .sne " !== ".toList (sampleAccess "x" "a"))) = some "x?.a !== 5".toList := by
  decide +kernel
example : OrGuard (parse false (sampleNot (sampleVar "x"))) ∧ OrGuard (parse false (.binary (sampleVar "x") .eq " == ".toList sampleNull)) ∧
    OrGuard (parse false (.binary (sampleAccess "x" "a") .seq " === ".toList sampleNull)) :=
  ⟨.inl List.mem_cons_self, .inl (List.mem_cons_of_mem _ List.mem_cons_self), .inr ⟨rfl, _, _, _, _, rfl, .inl rfl, .inl ⟨rfl, rfl⟩⟩⟩
example : Linked (orParsed [sampleNot (sampleVar "x")] (sampleNot (sampleAccess "x" "a"))) := by
  intro a p q b h
  have hlen := congrArg List.length h
  simp [orParsed] at hlen
  have ha : a = [] := List.eq_nil_of_length_eq_zero (by omega)
  subst ha
  simp only [orParsed, List.nil_append, List.cons_append, List.map_cons, List.map_nil, List.cons.injEq] at h
  rw [← h.1, ← h.2.1]
  exact .inr (by decide +kernel)
example : (parse false (sampleNot (sampleAccess "x" "a"))).kind = .not ∧ BangedName (sampleAccess "x" "a") ∧ KeepsMarks (sampleVar "x") (sampleAccess "x" "a") :=
  ⟨rfl, nofun, fun i p q hp => by simp [sampleVar, links] at hp⟩
example : Calm lawfulWorld (sampleAccess "x" "a") := by
  refine ⟨?_, ?_⟩
  · have : rootOf false (sampleAccess "x" "a") = sampleVar "x" := rfl
    rw [this, World.value, sampleVar, World.eval]; simp only [lawfulWorld, sampleVars]; decide
  · intro p hp
    have : links false (sampleAccess "x" "a") = [⟨.prop ['a'], false, false⟩] := rfl
    rw [this, List.mem_singleton] at hp
    subst hp; trivial
example : (parse false (.binary (sampleAccess "x" "a") .sne " !== ".toList sampleFive)).kind = .comparison ∧ onRight false (sampleAccess "x" "a") .sne sampleFive = false ∧
    onRight false sampleFive .sne (sampleAccess "x" "a") = true ∧ (parse false (sampleNot (sampleVar "x"))).expr.size < (sampleAccess "x" "a").size := by decide +kernel
example : ∀ b, lawfulWorld.value sampleFive = some b → ∃ z, lawfulWorld.op .sne lawfulWorld.undef b = some z ∧ lawfulWorld.truthy z = true := by
  intro b hb
  have : lawfulWorld.value sampleFive = some (.num 1) := by rw [World.value, sampleFive, World.eval]; rfl
  rw [this] at hb; cases hb
  exact ⟨.tru, rfl, rfl⟩
example : ∀ a b, lawfulWorld.op .sne a b = lawfulWorld.op .sne b a := by
  intro a b
  have h : ∀ a b : Val, lawfulWorld.op .sne a b = some (.bool (a != b)) := fun _ _ => rfl
  rw [h, h]
  have : (a != b) = (b != a) := by rw [Bool.eq_iff_iff]; simp [ne_comm]
  rw [this]

end Tsgolint.OptionalChain
