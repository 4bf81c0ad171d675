import Verif.Props.OptionalFix
import Verif.Props.OptionalChains
import Verif.Spec.OptionalCode

/-!
# Running links: the lemmas for C114
-/

namespace Tsgolint.OptionalChain

open Expr

variable {V : Type}

theorem runs_cons (W : World V) (r : Res V) (p : Piece) (ps : List Piece) : runs W r (p :: ps) = runs W (.link W p.opt r (p.step.run W)) ps := rfl

theorem runs_fail (W : World V) : ∀ ps : List Piece, runs W .fail ps = .fail
  | [] => rfl
  | _ :: ps => runs_fail W ps

theorem runs_short (W : World V) : ∀ ps : List Piece, runs W .short ps = .short
  | [] => rfl
  | _ :: ps => runs_short W ps

theorem link_nullish (W : World V) (o : Bool) (s : Step) {t v : V} (h : W.Nullish v) : Res.link W o (.val t v) (s.run W) = if o then .short else .fail := by
  cases o with
  | true => exact if_pos ⟨rfl, h⟩
  | false => simp only [Res.link, Bool.false_eq_true, false_and, if_false]; exact run_nullish W s h

theorem link_other (W : World V) (o : Bool) (s : Step) {t v : V} (h : ¬ W.Nullish v) : Res.link W o (.val t v) (s.run W) = s.run W t v := by
  simp only [Res.link]; rw [if_neg (fun x => h x.2)]

theorem run_ne_short (W : World V) (s : Step) (t v : V) : s.run W t v = .fail ∨ ∃ t' v', s.run W t v = .val t' v' := by
  cases s with
  | prop n => cases h : W.get v n with
    | none => left; simp [Step.run, h, Res.after]
    | some x => right; exact ⟨v, x, by simp [Step.run, h, Res.after]⟩
  | elem x => cases h : (W.eval x).value W with
    | none => left; simp [Step.run, h, Res.after]
    | some k => cases h2 : W.getElem v k with
      | none => left; simp [Step.run, h, h2, Res.after]
      | some y => right; exact ⟨v, y, by simp [Step.run, h, h2, Res.after]⟩
  | call ts xs => cases h : W.evals xs with
    | none => left; simp [Step.run, h]
    | some ys => cases h2 : W.call t v ys with
      | none => left; simp [Step.run, h, h2, Res.after]
      | some y => right; exact ⟨W.undef, y, by simp [Step.run, h, h2, Res.after]⟩

/-- the links do the same, unless the first ones fail -/
def Along (W : World V) : List Piece → List Piece → Prop
  | [], _ => True
  | _ :: _, [] => False
  | p :: ps, q :: qs => (∀ t v, p.step.run W t v ≠ .fail → q.step.run W t v = p.step.run W t v) ∧ Along W ps qs

theorem Along.length {W : World V} : ∀ {ps qs : List Piece}, Along W ps qs → ps.length ≤ qs.length
  | [], _, _ => by simp
  | _ :: _, [], h => h.elim
  | _ :: ps, _ :: qs, h => by simpa using h.2.length

theorem Along.tail {W : World V} {ps : List Piece} {q : Piece} {qs : List Piece} (h : Along W ps (q :: qs)) : Along W ps.tail qs := by
  cases ps with
  | nil => trivial
  | cons p ps => exact h.2

/-- The guards `es` and the last of them, `f`, have been evaluated; the new links have a question mark where the first of them that reaches has one, and behind `f`. Then
they come to the same value, or to undefined where `f` is null or undefined. -/
theorem core (W : World V) : ∀ (new : List Piece) (t v : V) (es : List (List Piece)) (f : List Piece) (x : V), f ∈ es →
    (∀ e ∈ es, e ≠ [] → (runs W (.val t v) e).value W ≠ none) → (∀ e ∈ es, Along W e new) → (runs W (.val t v) f).value W = some x →
    (∀ i e p n, es.find? (fun e => decide (i < e.length)) = some e → e[i]? = some p → new[i]? = some n → p.opt = true → n.opt = true) →
    (∀ n, new[f.length]? = some n → n.opt = true) →
    (f.length = new.length → (runs W (.val t v) new).value W = some x) ∧
      (f.length < new.length → W.Nullish x → (runs W (.val t v) new).value W = some W.undef) := by
  intro new
  induction new with
  | nil =>
    intro t v es f x hf hv ha hx _ _
    have : f = [] := by have := (ha f hf).length; simpa using this
    subst this
    exact ⟨fun _ => hx, fun h => absurd h (by simp)⟩
  | cons n new ih =>
    intro t v es f x hf hv ha hx hflag hend
    cases f with
    | nil =>
      refine ⟨fun h => absurd h (by simp), fun _ hn => ?_⟩
      have hxv : v = x := Option.some.inj hx
      subst hxv
      rw [runs_cons, link_nullish W _ _ hn, hend n (by simp)]
      simp [runs_short, Res.value]
    | cons p f =>
      by_cases hn : W.Nullish v
      · -- the first that reaches this link has a question mark
        have hsome : ∃ e, es.find? (fun e => decide (0 < e.length)) = some e := by
          rw [← Option.isSome_iff_exists, List.find?_isSome]
          exact ⟨p :: f, hf, by simp⟩
        obtain ⟨e, he⟩ := hsome
        have hmem := List.mem_of_find?_eq_some he
        have hlen := List.find?_some he
        cases e with
        | nil => simp at hlen
        | cons q e =>
          have hq : q.opt = true := by
            have h := hv _ hmem (by simp)
            rw [runs_cons, link_nullish W _ _ hn] at h
            cases hq : q.opt with
            | true => rfl
            | false => rw [hq] at h; simp [runs_fail, Res.value] at h
          have hno : n.opt = true := hflag 0 _ q n he rfl rfl hq
          have hp : p.opt = true := by
            rw [runs_cons, link_nullish W _ _ hn] at hx
            cases hp : p.opt with
            | true => rfl
            | false => rw [hp] at hx; simp [runs_fail, Res.value] at hx
          have hxu : x = W.undef := by
            rw [runs_cons, link_nullish W _ _ hn, hp] at hx
            simp [runs_short, Res.value] at hx; exact hx.symm
          have hnew : (runs W (.val t v) (n :: new)).value W = some W.undef := by
            rw [runs_cons, link_nullish W _ _ hn, hno]; simp [runs_short, Res.value]
          exact ⟨fun _ => by rw [hnew, hxu], fun _ _ => hnew⟩
      · have step : ∀ q e, (q :: e) ∈ es → (runs W (n.step.run W t v) e) = runs W (.val t v) (q :: e) := by
          intro q e hm
          have h := hv _ hm (by simp)
          have hal := (ha _ hm).1 t v
          rw [runs_cons, link_other W _ _ hn] at h ⊢
          rw [hal]
          intro hf
          rw [hf, runs_fail] at h; exact h rfl
        have hp := step p f hf
        have hval : ∃ t' v', n.step.run W t v = .val t' v' := by
          rcases run_ne_short W n.step t v with h | h
          · rw [h, runs_fail] at hp
            rw [← hp] at hx; cases hx
          · exact h
        obtain ⟨t', v', hr⟩ := hval
        rw [hr] at hp
        have hnewrun : runs W (.val t v) (n :: new) = runs W (.val t' v') new := by rw [runs_cons, link_other W _ _ hn, hr]
        rw [hnewrun]
        have := ih t' v' (es.map List.tail) f x (List.mem_map.2 ⟨_, hf, rfl⟩) ?_ ?_ (by rw [hp]; exact hx) ?_ ?_
        · simpa using this
        · intro e he hne
          obtain ⟨e', hm, rfl⟩ := List.mem_map.1 he
          cases e' with
          | nil => exact absurd rfl hne
          | cons q e' =>
            have h1 := step q e' hm
            rw [hr] at h1
            simp only [List.tail_cons]
            rw [h1]; exact hv _ hm (by simp)
        · intro e he
          obtain ⟨e', hm, rfl⟩ := List.mem_map.1 he
          exact (ha _ hm).tail
        · intro i e p' n' hfind hp' hn' ho
          rw [List.find?_map] at hfind
          obtain ⟨e', he', rfl⟩ := Option.map_eq_some_iff.1 hfind
          have hcomp : ((fun e : List Piece => decide (i < e.length)) ∘ List.tail) = fun e => decide (i + 1 < e.length) := by
            funext e
            simp only [Function.comp]
            exact decide_eq_decide.2 (by rw [List.length_tail]; omega)
          rw [hcomp] at he'
          refine hflag (i + 1) e' p' n' he' ?_ ?_ ho
          · cases e' <;> simp_all
          · simpa using hn'
        · intro n' hn'
          exact hend n' (by simpa using hn')

/-! ### Spines -/

/-- the same link, up to what does not matter -/
def Like : Step → Step → Prop
  | .prop m, .prop n => m = n
  | .elem x, .elem y => x.eq y = true
  | .call ss xs, .call ts ys => eqs xs ys = true ∧ eqTys ss ts = true
  | _, _ => False

theorem eq_trans' {a b c : Expr} (h : a.eq b = true) (h' : b.eq c = true) : a.eq c = true := by
  rw [eq_iff] at *
  exact ⟨h.1.trans h'.1, h.2⟩

theorem Like.trans {a b c : Step} (h : Like a b) (h' : Like b c) : Like a c := by
  cases a <;> cases b <;> simp only [Like] at h <;> cases c <;> simp only [Like] at h' ⊢
  · exact h.trans h'
  · exact eq_trans' h h'
  · rw [eqs_iff] at *
    rw [eqTys_iff] at *
    exact ⟨⟨h.1.1.trans h'.1.1, h.1.2⟩, h.2.1.trans h'.2.1, h.2.2⟩

/-- the same links -/
def LikeAll : List Step → List Step → Prop
  | [], [] => True
  | s :: ss, t :: ts => Like s t ∧ LikeAll ss ts
  | _, _ => False

theorem LikeAll.append : ∀ {a b c d : List Step}, LikeAll a b → LikeAll c d → LikeAll (a ++ c) (b ++ d)
  | [], [], _, _, _, h => h
  | [], _ :: _, _, _, h, _ => h.elim
  | _ :: _, [], _, _, h, _ => h.elim
  | _ :: _, _ :: _, _, _, h, h' => ⟨h.1, LikeAll.append h.2 h'⟩

theorem LikeAll.trans : ∀ {a b c : List Step}, LikeAll a b → LikeAll b c → LikeAll a c
  | [], [], [], _, _ => trivial
  | [], [], _ :: _, _, h => h.elim
  | [], _ :: _, _, h, _ => h.elim
  | _ :: _, [], _, h, _ => h.elim
  | _ :: _, _ :: _, [], _, h => h.elim
  | _ :: _, _ :: _, _ :: _, h, h' => ⟨h.1.trans h'.1, LikeAll.trans h.2 h'.2⟩

theorem LikeAll.split : ∀ {u w c : List Step}, LikeAll (u ++ w) c → ∃ c1 c2, c = c1 ++ c2 ∧ LikeAll u c1 ∧ LikeAll w c2
  | [], w, c, h => ⟨[], c, rfl, trivial, h⟩
  | _ :: _, _, [], h => h.elim
  | _ :: u, w, t :: c, h => by
    obtain ⟨c1, c2, rfl, h1, h2⟩ := LikeAll.split (u := u) (w := w) (c := c) h.2
    exact ⟨t :: c1, c2, rfl, ⟨h.1, h1⟩, h2⟩

theorem LikeAll.length : ∀ {a b : List Step}, LikeAll a b → a.length = b.length
  | [], [], _ => rfl
  | [], _ :: _, h => h.elim
  | _ :: _, [], h => h.elim
  | _ :: _, _ :: _, h => by simpa using LikeAll.length h.2

/-- the links of an expression without their question marks -/
def stepsOf : Expr → List Step
  | .paren e => stepsOf e
  | .nonNull e => stepsOf e
  | .prop e _ n => stepsOf e ++ [.prop n]
  | .elem e _ x => stepsOf e ++ [.elem x]
  | .call e _ ts xs => stepsOf e ++ [.call ts xs]
  | _ => []

theorem awaitOrYield_steps (e : Expr) (h : awaitOrYield e = true) : stepsOf e = [] ∧ originOf e = e := by
  cases e <;> simp [awaitOrYield] at h <;> exact ⟨rfl, rfl⟩

theorem links_steps : ∀ (b : Bool) (e : Expr), (links b e).map Piece.step = stepsOf e
  | b, .paren e => by
    rw [links, stepsOf]
    split
    · rename_i h; simp [(awaitOrYield_steps e h).1]
    · exact links_steps b e
  | b, .nonNull e => by rw [links, stepsOf]; exact links_steps true e
  | b, .prop e o n => by rw [links, stepsOf, List.map_append, links_steps false e]; rfl
  | b, .elem e o x => by rw [links, stepsOf, List.map_append, links_steps false e]; rfl
  | b, .call e o ts xs => by rw [links, stepsOf, List.map_append, links_steps false e]; rfl
  | b, .ident p n => rfl
  | b, .asType e ty => rfl
  | b, .assertion ty e => rfl
  | b, .keyword _ _ | b, .literal _ _ _ | b, .binary _ _ _ _ | b, .unary _ _ | b, .typeof _ | b, .template _ _ _ | b, .await _ | b, .metaProp _ _ _
  | b, .other _ _ _ => rfl

theorem size_steps (e : Expr) : e.size = (stepsOf e).length + 1 := by
  rw [Expr.size, ← links_steps false e, List.length_map]

theorem steps_unwrap : ∀ e : Expr, stepsOf e.unwrap = stepsOf e ∧ originOf e.unwrap = originOf e
  | .paren e => by rw [Expr.unwrap, stepsOf, originOf]; exact steps_unwrap e
  | .nonNull e => by rw [Expr.unwrap, stepsOf, originOf]; exact steps_unwrap e
  | .ident _ _ | .keyword _ _ | .literal _ _ _ | .prop _ _ _ | .elem _ _ _ | .call _ _ _ _ | .asType _ _ | .assertion _ _
  | .binary _ _ _ _ | .unary _ _ | .typeof _ | .template _ _ _ | .await _ | .metaProp _ _ _ | .other _ _ _ => ⟨rfl, rfl⟩

theorem eq_spine : ∀ a b : Expr, a.eq b = true → LikeAll (stepsOf a) (stepsOf b) ∧ (originOf a).eq (originOf b) = true
  | .paren a, b, h => by rw [stepsOf, originOf]; rw [Expr.eq] at h; exact eq_spine a b h
  | .nonNull a, b, h => by rw [stepsOf, originOf]; rw [Expr.eq] at h; exact eq_spine a b h
  | .prop a o m, b, h => by
    rw [Expr.eq] at h
    split at h
    · rename_i b' o' n hu
      simp only [Bool.and_eq_true, beq_iff_eq] at h
      have ih := eq_spine a b' h.2
      rw [← (steps_unwrap b).1, ← (steps_unwrap b).2, hu]
      exact ⟨ih.1.append ⟨h.1, trivial⟩, ih.2⟩
    · cases h
  | .elem a o x, b, h => by
    rw [Expr.eq] at h
    split at h
    · rename_i b' o' y hu
      simp only [Bool.and_eq_true] at h
      have ih := eq_spine a b' h.2
      rw [← (steps_unwrap b).1, ← (steps_unwrap b).2, hu]
      exact ⟨ih.1.append ⟨h.1, trivial⟩, ih.2⟩
    · cases h
  | .call a o ss xs, b, h => by
    rw [Expr.eq] at h
    split at h
    · rename_i b' o' ts ys hu
      simp only [Bool.and_eq_true] at h
      have ih := eq_spine a b' h.1.1
      rw [← (steps_unwrap b).1, ← (steps_unwrap b).2, hu]
      exact ⟨ih.1.append ⟨⟨h.1.2, h.2⟩, trivial⟩, ih.2⟩
    · cases h
  | .ident p n, b, h => spine_leaf (.ident p n) b h rfl rfl (by intro c hc; cases c <;> simp_all [Expr.eq, Expr.unwrap, stepsOf, originOf])
  | .keyword p n, b, h => spine_leaf _ b h rfl rfl (by intro c hc; cases c <;> simp_all [Expr.eq, Expr.unwrap, stepsOf, originOf])
  | .literal p n t, b, h => spine_leaf _ b h rfl rfl (by intro c hc; cases c <;> simp_all [Expr.eq, Expr.unwrap, stepsOf, originOf])
  | .asType e ty, b, h => spine_leaf _ b h rfl rfl (by intro c hc; cases c <;> simp_all [Expr.eq, Expr.unwrap, stepsOf, originOf])
  | .assertion ty e, b, h => spine_leaf _ b h rfl rfl (by intro c hc; cases c <;> simp_all [Expr.eq, Expr.unwrap, stepsOf, originOf])
  | .binary l o t r, b, h => spine_leaf _ b h rfl rfl (by intro c hc; cases c <;> simp_all [Expr.eq, Expr.unwrap, stepsOf, originOf])
  | .unary o e, b, h => spine_leaf _ b h rfl rfl (by intro c hc; cases c <;> simp_all [Expr.eq, Expr.unwrap, stepsOf, originOf])
  | .typeof e, b, h => spine_leaf _ b h rfl rfl (by intro c hc; cases c <;> simp_all [Expr.eq, Expr.unwrap, stepsOf, originOf])
  | .template hd xs ts, b, h => spine_leaf _ b h rfl rfl (by intro c hc; cases c <;> simp_all [Expr.eq, Expr.unwrap, stepsOf, originOf])
  | .await e, b, h => spine_leaf _ b h rfl rfl (by intro c hc; cases c <;> simp_all [Expr.eq, Expr.unwrap, stepsOf, originOf])
  | .metaProp p k n, b, h => spine_leaf _ b h rfl rfl (by intro c hc; cases c <;> simp_all [Expr.eq, Expr.unwrap, stepsOf, originOf])
  | .other p k t, b, h => by simp [Expr.eq] at h
where
  spine_leaf (a b : Expr) (h : a.eq b = true) (h1 : stepsOf a = []) (h2 : originOf a = a)
      (h3 : ∀ c, a.eq c = true ∧ (∀ e, c ≠ .paren e ∧ c ≠ .nonNull e) → stepsOf c = [] ∧ originOf c = c) :
      LikeAll (stepsOf a) (stepsOf b) ∧ (originOf a).eq (originOf b) = true := by
    rw [← eq_unwrap_right] at h
    have h4 := h3 b.unwrap ⟨h, fun e => unwrap_ne b e⟩
    rw [← (steps_unwrap b).1, ← (steps_unwrap b).2, h1, h2, h4.1, h4.2]
    exact ⟨trivial, h⟩

theorem begins_spine {m l : Expr} (h : Begins m l) : (∃ w, stepsOf l = stepsOf m ++ w) ∧ originOf l = originOf m := by
  induction h with
  | refl => exact ⟨⟨[], by simp⟩, rfl⟩
  | prop o n _ ih => obtain ⟨⟨w, hw⟩, ho⟩ := ih; exact ⟨⟨w ++ [.prop n], by rw [stepsOf, hw, List.append_assoc]⟩, ho⟩
  | elem o x _ ih => obtain ⟨⟨w, hw⟩, ho⟩ := ih; exact ⟨⟨w ++ [.elem x], by rw [stepsOf, hw, List.append_assoc]⟩, ho⟩
  | call o ts xs _ ih => obtain ⟨⟨w, hw⟩, ho⟩ := ih; exact ⟨⟨w ++ [.call ts xs], by rw [stepsOf, hw, List.append_assoc]⟩, ho⟩
  | paren _ ih => exact ih
  | nonNull _ ih => exact ih

/-- the second begins with the first, as links -/
def BeginsAs (a b : Expr) : Prop := (originOf a).eq (originOf b) = true ∧ ∃ u w, stepsOf b = u ++ w ∧ LikeAll (stepsOf a) u

theorem BeginsAs.trans {a b c : Expr} (h : BeginsAs a b) (h' : BeginsAs b c) : BeginsAs a c := by
  obtain ⟨h1, u, w, hb, h2⟩ := h
  obtain ⟨h3, u', w', hc, h4⟩ := h'
  rw [hb] at h4
  obtain ⟨c1, c2, rfl, h5, h6⟩ := h4.split
  exact ⟨eq_trans' h1 h3, c1, c2 ++ w', by rw [hc, List.append_assoc], h2.trans h5⟩

theorem BeginsAs.size {a b : Expr} (h : BeginsAs a b) : a.size ≤ b.size := by
  obtain ⟨_, u, w, hb, h2⟩ := h
  rw [size_steps, size_steps, hb, List.length_append, h2.length]; omega

theorem pre_of_follows {p q : Operand} (h : Follows p q) : BeginsAs p.expr q.expr := by
  rcases h with h | h
  · obtain ⟨h1, h2⟩ := eq_spine _ _ h
    exact ⟨h2, stepsOf q.expr, [], by simp, h1⟩
  · obtain ⟨m, hm, he⟩ := (isPrefix_iff _ _).1 h
    obtain ⟨h1, h2⟩ := eq_spine _ _ he
    obtain ⟨⟨w, hw⟩, ho⟩ := begins_spine hm
    exact ⟨by rw [ho]; exact h2, stepsOf m, w, hw, h1⟩

/-- the spine of what an operand is made into code from is that of its expression -/
theorem target_spine (e : Expr) (x : Operand) (h : x = parse true e) : stepsOf x.target = stepsOf x.expr ∧ originOf x.target = originOf x.expr := by
  subst h
  unfold Operand.target
  by_cases hk : (parse true e).kind = .plain
  · have hn : (parse true e).node = e := by
      unfold parse
      split
      · rfl
      split
      · rfl
      split
      · unfold parseBinary; split <;> first | rfl | (split <;> rfl)
      · unfold parseNot; split <;> first | rfl | (split <;> rfl)
      · rfl
    rw [if_pos (by simpa using hk), hn, plain_expr true e hk]
    exact ⟨(steps_unwrap e).1.symm, (steps_unwrap e).2.symm⟩
  · rw [if_neg (by simpa using hk)]; exact ⟨rfl, rfl⟩

/-! ### Links that do the same -/

theorem like_run (W : World V) {s t : Step} (h : Like s t) (hc : t.Calm W) (a v : V) (hr : s.run W a v ≠ .fail) : t.run W a v = s.run W a v := by
  cases s <;> cases t <;> simp only [Like] at h
  · rw [h]
  · rename_i x y
    simp only [Step.Calm, World.value] at hc
    simp only [Step.run] at hr ⊢
    rcases (eq_agree W x y h).value with h1 | h1 | h1
    · rw [h1] at hr; exact absurd rfl hr
    · exact absurd h1 hc
    · rw [h1]
  · rename_i ss xs ts ys
    simp only [Step.Calm] at hc
    simp only [Step.run] at hr ⊢
    rcases eqs_agree W xs ys h.1 with h1 | h1 | h1
    · rw [h1] at hr; exact absurd rfl hr
    · exact absurd h1 hc
    · rw [h1]

theorem along_of (W : World V) : ∀ (ps qs : List Piece) (u w : List Step), qs.map Piece.step = u ++ w → LikeAll (ps.map Piece.step) u → (∀ q ∈ qs, q.step.Calm W) →
    Along W ps qs
  | [], _, _, _, _, _, _ => trivial
  | _ :: _, _, [], _, _, h, _ => h.elim
  | _ :: _, [], _ :: _, _, h, _, _ => by cases h
  | p :: ps, q :: qs, s :: u, w, h, hl, hc => by
    simp only [List.map_cons, List.cons_append, List.cons.injEq] at h
    obtain ⟨rfl, h⟩ := h
    exact ⟨fun t v hr => like_run W hl.1 (hc q List.mem_cons_self) t v hr, along_of W ps qs u w h hl.2 (fun q hq => hc q (List.mem_cons_of_mem _ hq))⟩

/-! ### Roots -/

theorem origin_ne_short (W : World V) : ∀ e : Expr, W.eval (originOf e) ≠ .short
  | .paren e => origin_ne_short W e
  | .nonNull e => origin_ne_short W e
  | .prop e _ _ => origin_ne_short W e
  | .elem e _ _ => origin_ne_short W e
  | .call e _ _ _ => origin_ne_short W e
  | .ident p n => by simp only [originOf, World.eval]; cases W.var n <;> simp [Res.after]
  | .keyword _ _ => by simp [originOf, World.eval]
  | .literal _ _ _ => by simp [originOf, World.eval]
  | .asType e ty => by simp only [originOf, World.eval]; cases W.eval e <;> simp [Res.close]
  | .assertion ty e => by simp only [originOf, World.eval]; cases W.eval e <;> simp [Res.close]
  | .binary l o t r => by
    simp only [originOf, World.eval]
    cases (W.eval l).value W with
    | none => simp [Res.after]
    | some a =>
      simp only [Res.after]
      split
      · simp
      · cases (W.eval r).value W with
        | none => simp
        | some b =>
          simp only
          split
          · simp
          · cases W.op o a b <;> simp
  | .unary o e => by
    simp only [originOf, World.eval]
    cases (W.eval e).value W with
    | none => simp [Res.after]
    | some a => simp only [Res.after]; cases W.unary o a <;> simp
  | .typeof e => by
    simp only [originOf, World.eval]
    split
    · simp
    · cases (W.eval e).value W <;> simp [Res.after]
  | .template h xs ts => by
    simp only [originOf, World.eval]
    cases W.evals xs with
    | none => simp
    | some ys => simp only; cases W.template h ys ts <;> simp [Res.after]
  | .await e => by
    simp only [originOf, World.eval]
    cases (W.eval e).value W with
    | none => simp [Res.after]
    | some a => simp only [Res.after]; cases W.await a <;> simp
  | .metaProp _ k n => by simp [originOf, World.eval]
  | .other p k t => by simp only [originOf, World.eval]; cases W.other k p <;> simp [Res.after]

theorem close_of_ne {W : World V} {r : Res V} (h : r ≠ .short) : r.close W = r := by cases r <;> simp_all [Res.close]

theorem rootOf_eval (W : World V) : ∀ (b : Bool) (e : Expr), W.eval (rootOf b e) = W.eval (originOf e)
  | b, .paren e => by
    rw [rootOf, originOf]
    split
    · rename_i h
      have h2 := (awaitOrYield_steps e h).2
      have h3 := origin_ne_short W e
      rw [h2] at h3 ⊢
      rw [World.eval, close_of_ne h3]
    · exact rootOf_eval W b e
  | b, .nonNull e => by rw [rootOf, originOf]; exact rootOf_eval W true e
  | b, .prop e o n => by rw [rootOf, originOf]; exact rootOf_eval W false e
  | b, .elem e o x => by rw [rootOf, originOf]; exact rootOf_eval W false e
  | b, .call e o ts xs => by rw [rootOf, originOf]; exact rootOf_eval W false e
  | b, .ident p n => by cases b <;> simp [rootOf, originOf, World.eval]
  | b, .asType e ty => by
    show W.eval (.paren (.asType e ty)) = W.eval (.asType e ty)
    simp only [World.eval, Res.close_close]
  | b, .assertion ty e => by
    show W.eval (.paren (.assertion ty e)) = W.eval (.assertion ty e)
    simp only [World.eval, Res.close_close]
  | b, .keyword _ _ | b, .literal _ _ _ | b, .binary _ _ _ _ | b, .unary _ _ | b, .typeof _ | b, .template _ _ _ | b, .await _ | b, .metaProp _ _ _
  | b, .other _ _ _ => rfl

theorem unbanged_eval (W : World V) (e : Expr) : W.eval e.unbanged = W.eval e := by
  cases e <;> simp [Expr.unbanged, World.eval]

/-- a guard that has a value, seen from the root of what it begins -/
theorem guard_runs (W : World V) (g e : Expr) (hpre : (originOf g).eq (originOf e) = true) (t v x : V) (hroot : W.eval (originOf e) = .val t v)
    (hx : W.value g = some x) : (runs W (.val t v) (links false g)).value W = some x := by
  have h := taken_apart_value W g x hx
  rw [World.value, eval_assemble, rootOf_eval] at h
  have hag := eq_agree W _ _ hpre
  rcases hag with h1 | h1 | h1
  · rw [h1, runs_fail] at h; cases h
  · rw [hroot] at h1; cases h1
  · rw [close_of_ne (origin_ne_short W g), close_of_ne (origin_ne_short W e), hroot] at h1
    rw [h1] at h; exact h

end Tsgolint.OptionalChain
