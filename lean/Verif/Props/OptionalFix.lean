import Verif.Props.OptionalOperand
import Verif.Spec.OptionalFix

/-!
# C113: taken apart and put together, an expression is the same but for its question marks
-/

namespace Tsgolint.OptionalChain

open Expr

variable {V : Type}

/-! ### The text of an expression -/

theorem text_ident (p : Nat) (n : Text) : (Expr.ident p n).text = n := rfl
theorem text_prop (e : Expr) (o : Bool) (n : Text) : (Expr.prop e o n).text = e.text ++ (if o then "?.".toList else ".".toList) ++ n := rfl
theorem text_elem (e : Expr) (o : Bool) (x : Expr) : (Expr.elem e o x).text = e.text ++ (if o then "?.[".toList else "[".toList) ++ x.text ++ "]".toList := rfl
theorem text_call (e : Expr) (o : Bool) (ts : List TyNode) (xs : List Expr) :
    (Expr.call e o ts xs).text = e.text ++ (if o then "?.".toList else []) ++ tysText ts ++ "(".toList ++ commas (texts xs) ++ ")".toList := rfl
theorem text_paren (e : Expr) : (Expr.paren e).text = "(".toList ++ e.text ++ ")".toList := rfl
theorem text_nonNull (e : Expr) : (Expr.nonNull e).text = e.text ++ "!".toList := rfl
theorem text_binary (l : Expr) (o : Op) (t : Text) (r : Expr) : (Expr.binary l o t r).text = l.text ++ t ++ r.text := rfl
theorem text_split : "?.[".toList = "?.".toList ++ "[".toList := rfl

/-! ### The parts are the root and the links -/

/-- the part of a link -/
def Piece.link (p : Piece) : Link :=
  match p.step with
  | .prop n => { text := n ++ (if p.bang then "!".toList else []), optional := p.opt, dot := true, priv := isPrivateName n, bang := p.bang }
  | .elem x => { text := "[".toList ++ text x ++ "]".toList ++ (if p.bang then "!".toList else []), optional := p.opt, bang := p.bang }
  | .call ts xs => { text := tysText ts ++ "(".toList ++ commas (texts xs) ++ ")".toList ++ (if p.bang then "!".toList else []), optional := p.opt, isCall := true, bang := p.bang }

/-- the part of a root -/
def rootLink (e : Expr) (b : Bool) : Link := { text := text e, bang := b }

theorem flat_eq : ∀ (b : Bool) (e : Expr), flat b e = rootLink (rootOf b e) (rootBang b e) :: (links b e).map Piece.link
  | b, .paren e => by
    rw [flat, rootOf, rootBang, links]
    split
    · rfl
    · exact flat_eq b e
  | b, .nonNull e => by rw [flat, rootOf, rootBang, links]; exact flat_eq true e
  | b, .prop e o n => by rw [flat, rootOf, rootBang, links, flat_eq false e]; simp [Piece.link]
  | b, .elem e o x => by rw [flat, rootOf, rootBang, links, flat_eq false e]; simp [Piece.link]
  | b, .call e o ts xs => by rw [flat, rootOf, rootBang, links, flat_eq false e]; simp [Piece.link]
  | b, .ident p n => by cases b <;> simp only [flat, rootOf, rootBang, links, rootText, rootLink, text_ident, text_nonNull, Bool.false_eq_true, if_true, if_false, List.append_nil, List.map_nil]
  | b, .asType e ty => rfl
  | b, .assertion ty e => rfl
  | b, .keyword _ _ | b, .literal _ _ _ | b, .binary _ _ _ _ | b, .unary _ _ | b, .typeof _ | b, .template _ _ _ | b, .await _ | b, .metaProp _ _ _
  | b, .other _ _ _ => rfl

theorem links_length : ∀ (b : Bool) (e : Expr), (links b e).length = (links false e).length
  | b, .paren e => by
    rw [links, links]
    split
    · rfl
    · exact links_length b e
  | b, .nonNull e => by simp [links]
  | b, .prop e o n => by simp [links]
  | b, .elem e o x => by simp [links]
  | b, .call e o ts xs => by simp [links]
  | b, .ident p n => by simp [links]
  | b, .asType e ty => by simp [links]
  | b, .assertion ty e => by simp [links]
  | b, .keyword _ _ | b, .literal _ _ _ | b, .binary _ _ _ _ | b, .unary _ _ | b, .typeof _ | b, .template _ _ _ | b, .await _ | b, .metaProp _ _ _
  | b, .other _ _ _ => by simp [links]

theorem flat_length (b : Bool) (e : Expr) : (flat b e).length = e.size := by
  rw [flat_eq]; simp [Expr.size, links_length b e]

/-! ### Texts -/

/-- the text of a link with its question mark -/
def Piece.text (p : Piece) : Text :=
  (if p.opt then "?.".toList else match p.step with | .prop _ => ".".toList | _ => []) ++ p.link.text

theorem apply_text (e : Expr) (p : Piece) : (p.apply e).text = e.text ++ p.text := by
  obtain ⟨s, o, b⟩ := p
  cases s <;> cases o <;> cases b <;> simp only [Piece.apply, Step.apply, Piece.text, Piece.link, text_prop, text_elem, text_call, text_nonNull, text_split, Bool.false_eq_true, if_true, if_false, List.append_assoc,
    List.nil_append, List.append_nil]

theorem assemble_text (ps : List Piece) : ∀ e : Expr, (assemble e ps).text = e.text ++ (ps.map Piece.text).flatten := by
  induction ps with
  | nil => intro e; simp [assemble]
  | cons p ps ih =>
    intro e
    have : assemble e (p :: ps) = assemble (p.apply e) ps := rfl
    rw [this, ih, apply_text]; simp

theorem optionalAt_link (L : List Nat) (c : Bool) (n i : Nat) (p : Piece) (ps : List Piece) (hn : n = i + 1 + ps.length) (hi : i ≠ 0) :
    optionalAt L c n i p.link = made L c ps.isEmpty i p := by
  have he : (i + 1 == n) = ps.isEmpty := by
    subst hn
    cases ps with
    | nil => simp
    | cons => simp only [List.length_cons, List.isEmpty_cons, beq_eq_false_iff_ne]; omega
  have hi' : (i != 0) = true := by simpa using hi
  unfold optionalAt made
  rw [hi', he]
  obtain ⟨s, o, b⟩ := p
  cases s <;> simp [Piece.link]

theorem render_links (L : List Nat) (c : Bool) (n : Nat) : ∀ (ps : List Piece) (i : Nat), i ≠ 0 → n = i + ps.length →
    render L c false n i (ps.map Piece.link) = ((withMarks L c i ps).map Piece.text).flatten
  | [], _, _, _ => rfl
  | p :: ps, i, hi, hn => by
    have ho := optionalAt_link L c n i p ps (by rw [hn, List.length_cons]; omega) hi
    have ih := render_links L c n ps (i + 1) (by omega) (by rw [hn, List.length_cons]; omega)
    rw [List.map_cons, render, withMarks, List.map_cons, List.flatten_cons, ih, ho]
    congr 1
    have hi' : (i != 0) = true := by simpa using hi
    have hopt : p.link.optional = p.opt := by obtain ⟨s, o, b⟩ := p; cases s <;> rfl
    have hdot : p.link.dot = (match p.step with | .prop _ => true | _ => false) := by obtain ⟨s, o, b⟩ := p; cases s <;> rfl
    simp only [hi', Bool.true_and, Bool.false_and, Bool.false_eq_true, if_false, if_true]
    cases hm : made L c ps.isEmpty i p with
    | true =>
      obtain ⟨s, o, b⟩ := p
      cases s <;> simp [Piece.text, Piece.link]
    | false =>
      have hp : p.opt = false := by unfold made at hm; simp only [Bool.or_eq_false_iff] at hm; exact hm.1.2
      obtain ⟨s, o, b⟩ := p
      cases s <;> simp_all [Piece.text, Piece.link]

theorem private_links (L : List Nat) (c : Bool) (n : Nat) : ∀ (ps : List Piece) (i : Nat), i ≠ 0 → n = i + ps.length →
    privateOptional L c n i (ps.map Piece.link) = (withMarks L c i ps).any Piece.badName
  | [], _, _, _ => rfl
  | p :: ps, i, hi, hn => by
    have ho := optionalAt_link L c n i p ps (by rw [hn, List.length_cons]; omega) hi
    have ih := private_links L c n ps (i + 1) (by omega) (by rw [hn, List.length_cons]; omega)
    rw [List.map_cons, privateOptional, withMarks, List.any_cons, ih, ho]
    congr 1
    obtain ⟨s, o, b⟩ := p
    cases s <;> simp [Piece.badName, Piece.link]

theorem build_parts (L : List Nat) (c : Bool) (r : Expr) (b : Bool) (ps : List Piece) :
    build (rootLink r b :: ps.map Piece.link) L c false =
      if (withMarks L c 1 ps).any Piece.badName then none else some (assemble r (withMarks L c 1 ps)).text := by
  have hn : (rootLink r b :: ps.map Piece.link).length = 1 + ps.length := by simp; omega
  unfold build
  rw [hn, privateOptional, render, private_links L c _ ps 1 (by omega) rfl, render_links L c _ ps 1 (by omega) rfl, assemble_text]
  simp [rootLink, optionalAt]

/-- **C113** An expression is put together with question marks at the links that follow a checked expression or had one, and nothing else but parentheses (and some `!`)
changed; there is no fix exactly if a private name got one -/
theorem rebuild (e : Expr) (L : List Nat) (c : Bool) : build (flat false e) L c false =
    if (withMarks L c 1 (links false e)).any Piece.badName then none else some (assemble (rootOf false e) (withMarks L c 1 (links false e))).text := by
  rw [flat_eq]; exact build_parts L c _ _ _

theorem withMarks_none : ∀ (ps : List Piece) (i : Nat), withMarks [] false i ps = ps
  | [], _ => rfl
  | p :: ps, i => by
    rw [withMarks, withMarks_none ps (i + 1)]
    obtain ⟨s, o, b⟩ := p
    cases s <;> simp [made]

theorem assemble_append (r : Expr) (ps qs : List Piece) : assemble r (ps ++ qs) = assemble (assemble r ps) qs := by simp [assemble]

/-- a `!` if there is to be one -/
def banged (b : Bool) (e : Expr) : Expr := if b then .nonNull e else e

theorem tidy_assemble : ∀ (b : Bool) (e : Expr), Tidy b e → assemble (rootOf b e) (links b e) = banged b e
  | b, .paren e, h => by
    rw [rootOf, links]
    rw [Tidy] at h
    obtain ⟨rfl, h | ⟨x, ty, rfl⟩ | ⟨ty, x, rfl⟩⟩ := h
    · simp [h, assemble, banged]
    · rfl
    · rfl
  | b, .nonNull e, h => by
    rw [rootOf, links]
    rw [Tidy] at h
    rw [tidy_assemble true e h.2, h.1]; rfl
  | b, .prop e o n, h => by
    rw [rootOf, links, assemble_append, tidy_assemble false e h]
    cases b <;> rfl
  | b, .elem e o n, h => by
    rw [rootOf, links, assemble_append, tidy_assemble false e h]
    cases b <;> rfl
  | b, .call e o ts xs, h => by
    rw [rootOf, links, assemble_append, tidy_assemble false e h.2, h.1]; rfl
  | b, .ident p n, h => by cases b <;> rfl
  | b, .asType e ty, h => h.elim
  | b, .assertion ty e, h => h.elim
  | b, .keyword _ _, h | b, .literal _ _ _, h | b, .binary _ _ _ _, h | b, .unary _ _, h | b, .typeof _, h | b, .template _ _ _, h | b, .await _, h | b, .metaProp _ _ _, h
  | b, .other _ _ _, h => by cases (show b = false from h); rfl

/-- **C113** Nothing checked, nothing changed, if there are no parentheses to lose -/
theorem untouched (e : Expr) (h : Tidy false e) (hp : (links false e).any Piece.badName = false) : build (flat false e) [] false false = some e.text := by
  rw [rebuild, withMarks_none, hp, tidy_assemble false e h]; rfl

/-! ### Without the `!`s (OR chains) -/

theorem longest_nil : longest [] = 0 := rfl

theorem dropLast_bang (t : Text) : (t ++ "!".toList).dropLast = t := by simp

theorem link_dropLast (p : Piece) (h : p.bang = true) : p.link.text.dropLast = { p with bang := false }.link.text := by
  obtain ⟨s, o, b⟩ := p
  cases h
  cases s <;> simp only [Piece.link, if_true, Bool.false_eq_true, if_false, List.append_nil, dropLast_bang]

theorem next_links (L : List Nat) (c : Bool) (n i : Nat) (ps : List Piece) (hn : n = i + 1 + ps.length) :
    nextOptional L c n i (ps.map Piece.link) = firstOpt (withMarks L c (i + 1) ps) := by
  cases ps with
  | nil => rfl
  | cons q ps => simp only [List.map_cons, nextOptional, withMarks, firstOpt]; exact optionalAt_link L c n (i + 1) q ps (by rw [hn, List.length_cons]; omega) (by omega)

theorem unbang_cons (m i : Nat) (p : Piece) (ps : List Piece) :
    unbang m i (p :: ps) = { p with bang := p.bang && !(firstOpt ps && decide (i < m)) } :: unbang m (i + 1) ps := by
  cases ps with
  | nil => simp [unbang, firstOpt]
  | cons q ps => simp [unbang, firstOpt]

theorem render_strip (L : List Nat) (c : Bool) (n : Nat) : ∀ (ps : List Piece) (i : Nat), i ≠ 0 → n = i + ps.length →
    render L c true n i (ps.map Piece.link) = ((unbang (longest L) i (withMarks L c i ps)).map Piece.text).flatten
  | [], _, _, _ => rfl
  | p :: ps, i, hi, hn => by
    have ho := optionalAt_link L c n i p ps (by rw [hn, List.length_cons]; omega) hi
    have hx := next_links L c n i ps (by rw [hn, List.length_cons]; omega)
    have ih := render_strip L c n ps (i + 1) (by omega) (by rw [hn, List.length_cons]; omega)
    rw [List.map_cons, render, withMarks, unbang_cons, List.map_cons, List.flatten_cons, ih, ho, hx]
    congr 1
    have hi' : (i != 0) = true := by simpa using hi
    have hb : p.link.bang = p.bang := by obtain ⟨s, o, b⟩ := p; cases s <;> rfl
    simp only [hi', Bool.true_and, if_true, hb]
    have hdrop : ∀ q : Piece, q.bang = true → q.link.text.dropLast = { q with bang := false }.link.text := link_dropLast
    have hsep : ∀ b', (if made L c ps.isEmpty i p = true then "?.".toList
        else if (p.link.optional && decide (i > longest L)) = true then "?.".toList else if p.link.dot = true then ".".toList else []) ++
        { p with bang := b' }.link.text = Piece.text { p with opt := made L c ps.isEmpty i p, bang := b' } := by
      intro b'
      cases hm : made L c ps.isEmpty i p with
      | true =>
        obtain ⟨s, o, b⟩ := p
        cases s <;> simp [Piece.text, Piece.link]
      | false =>
        have hp : p.opt = false := by unfold made at hm; simp only [Bool.or_eq_false_iff] at hm; exact hm.1.2
        obtain ⟨s, o, b⟩ := p
        cases s <;> simp_all [Piece.text, Piece.link]
    rw [← hsep]
    congr 1
    cases hp : p.bang with
    | false => 
      have : { p with bang := false } = p := by rw [← hp]
      simp [this]
    | true =>
      have h2 : { p with bang := true } = p := by rw [← hp]
      cases hf : firstOpt (withMarks L c (i + 1) ps) <;> cases hl : decide (i < longest L) <;> simp [hf, hl, h2, hdrop p hp]

theorem private_any (L : List Nat) (c : Bool) (r : Expr) (b : Bool) (ps : List Piece) (n : Nat) (hn : n = 1 + ps.length) :
    privateOptional L c n 0 (rootLink r b :: ps.map Piece.link) = (withMarks L c 1 ps).any Piece.badName := by
  rw [privateOptional, private_links L c _ ps 1 (by omega) hn]; simp [optionalAt]

/-- **C113** In OR chains the `!`s in front of the question marks are dropped as well, if the root's `!` is one of a name -/
theorem rebuild_or (e : Expr) (L : List Nat) (c : Bool) (hr : rootBang false e = true → ∃ p n, rootOf false e = .nonNull (.ident p n)) :
    build (flat false e) L c true =
      if (withMarks L c 1 (links false e)).any Piece.badName then none
      else
        let ps := withMarks L c 1 (links false e)
        let r := if rootBang false e && firstOpt ps && decide (0 < longest L) then (rootOf false e).unbanged else rootOf false e
        some (assemble r (unbang (longest L) 1 ps)).text := by
  rw [flat_eq]
  have hn : (rootLink (rootOf false e) (rootBang false e) :: (links false e).map Piece.link).length = 1 + (links false e).length := by simp; omega
  unfold build
  rw [hn, private_any L c _ _ _ _ rfl]
  split
  · rfl
  · rw [render, render_strip L c _ _ 1 (by omega) rfl, next_links L c _ 0 _ rfl]
    simp only [assemble_text]
    simp only [rootLink, bne_self_eq_false, Bool.false_and, Bool.false_eq_true, if_false, List.nil_append, Bool.true_and]
    congr 2
    cases hb : rootBang false e with
    | false => simp
    | true =>
      obtain ⟨p, n, hp⟩ := hr hb
      cases hf : firstOpt (withMarks L c 1 (links false e)) <;> cases hl : decide (0 < longest L) <;>
        simp [hf, hl, hp, text_nonNull, text_ident, Expr.unbanged]

/-- **C113** If it is not, the last character of the root is lost: `(x as T)!` loses its parenthesis and `this!` its `s` -/
theorem last_character_lost (x : Expr) (ty n : Text) (p : Nat) (hn : isPrivateName n = false) :
    build (flat false (.prop (.nonNull (.paren (.asType x ty))) false n)) [1] false true = some ("(".toList ++ (Expr.asType x ty).text ++ "?.".toList ++ n) ∧
    build (flat false (.prop (.nonNull (.keyword p .this)) false n)) [1] false true = some ("thi?.".toList ++ n) := by
  constructor
  · have h : flat false (.prop (.nonNull (.paren (.asType x ty))) false n) =
        [{ text := "(".toList ++ (Expr.asType x ty).text ++ ")".toList, bang := true }, { text := n, dot := true, priv := false }] := by
      simp [flat, awaitOrYield, rootText, hn]
    have hd : ∀ t : Text, (t ++ ")".toList).dropLast = t := fun t => by simp
    rw [h]
    simp only [build, privateOptional, optionalAt, render, nextOptional, longest, hd, List.length_cons, List.length_nil, bne_self_eq_false, Bool.false_and,
      Bool.false_eq_true, if_false, Bool.or_false, Bool.and_false, Bool.true_and, List.nil_append, Bool.and_true]
    simp
  · have h : flat false (.prop (.nonNull (.keyword p .this)) false n) = [{ text := "this".toList, bang := true }, { text := n, dot := true, priv := false }] := by
      simp [flat, rootText, hn]; rfl
    rw [h]
    simp [build, privateOptional, optionalAt, render, nextOptional, longest]

/-- **C113** The parentheses of anything but `await`, `yield` and type assertions are lost: `(a ?? b).c` becomes `a ?? b.c`, in general the text of another expression -/
theorem parentheses_lost (l r : Expr) (o : Op) (t n : Text) (hn : isPrivateName n = false) :
    build (flat false (.prop (.paren (.binary l o t r)) false n)) [1] false false = some (Expr.binary l o t (.prop r true n)).text := by
  rw [rebuild]
  simp [withMarks, links, awaitOrYield, made, Piece.badName, hn, rootOf, assemble, Piece.apply, Step.apply, text_prop, text_binary]

/-! ### What it evaluates to -/

/-- what a link does to a value -/
noncomputable def Step.run (W : World V) (s : Step) (t v : V) : Res V :=
  match s with
  | .prop n => .after (W.get v n) (.val v)
  | .elem x => .after ((W.eval x).value W) fun k => .after (W.getElem v k) (.val v)
  | .call _ xs => match W.evals xs with
    | none => .fail
    | some ys => .after (W.call t v ys) (.val W.undef)

theorem eval_apply (W : World V) (e : Expr) (p : Piece) : W.eval (p.apply e) = .link W p.opt (W.eval e) (p.step.run W) := by
  obtain ⟨s, o, b⟩ := p
  cases s <;> cases b <;> simp only [Piece.apply, Step.apply, Bool.false_eq_true, if_true, if_false, World.eval] <;> rfl

/-- links run one after the other -/
noncomputable def runs (W : World V) (r : Res V) (ps : List Piece) : Res V := ps.foldl (fun r p => .link W p.opt r (p.step.run W)) r

theorem eval_assemble (W : World V) (ps : List Piece) : ∀ e : Expr, W.eval (assemble e ps) = runs W (W.eval e) ps := by
  induction ps with
  | nil => intro e; rfl
  | cons p ps ih =>
    intro e
    have h : assemble e (p :: ps) = assemble (p.apply e) ps := rfl
    rw [h, ih, eval_apply]; rfl

theorem run_nullish (W : World V) (s : Step) {t v : V} (h : W.Nullish v) : s.run W t v = .fail := by
  cases s with
  | prop n => simp [Step.run, get_nullish W h, Res.after]
  | elem x => cases hx : (W.eval x).value W <;> simp [Step.run, hx, elem_nullish W h, Res.after]
  | call ts xs => cases hx : W.evals xs <;> simp [Step.run, hx, call_nullish W h, Res.after]

/-- the second is the first, unless that failed, or ended a chain in parentheses early -/
def Refines (W : World V) (a b : Res V) : Prop := a = .fail ∨ a = b ∨ (a = .val W.undef W.undef ∧ b = .short)

theorem Refines.link {W : World V} {a b : Res V} (h : Refines W a b) (o : Bool) (s : Step) : Refines W (.link W o a (s.run W)) (.link W o b (s.run W)) := by
  rcases h with rfl | rfl | ⟨rfl, rfl⟩
  · exact .inl rfl
  · exact .inr (.inl rfl)
  · cases o with
    | false => left; simp only [Res.link, Bool.false_eq_true, false_and, if_false]; exact run_nullish W s (.inl rfl)
    | true => right; left; simp only [Res.link, true_and]; exact if_pos ⟨rfl, Or.inl rfl⟩

theorem Refines.value {W : World V} {a b : Res V} (h : Refines W a b) (v : V) (ha : a.value W = some v) : b.value W = some v := by
  rcases h with rfl | rfl | ⟨rfl, rfl⟩
  · cases ha
  · exact ha
  · exact ha

theorem rootOf_bang (W : World V) : ∀ (b : Bool) (e : Expr), Refines W (W.eval e) (W.eval (assemble (rootOf b e) (links b e)))
  | b, .paren e => by
    rw [rootOf, links]
    split
    · exact .inr (.inl rfl)
    · have h := rootOf_bang W b e
      rw [World.eval]
      rcases h with h | h | ⟨h1, h2⟩
      · left; rw [h]; rfl
      · rw [← h]
        cases hr : W.eval e with
        | fail => exact .inl rfl
        | short => exact .inr (.inr ⟨rfl, rfl⟩)
        | val t v => exact .inr (.inl rfl)
      · right; right; rw [h1]; exact ⟨rfl, h2⟩
  | b, .nonNull e => by rw [rootOf, links, World.eval]; exact rootOf_bang W true e
  | b, .prop e o n => by
    rw [rootOf, links, assemble_append, eval_assemble]
    exact (rootOf_bang W false e).link o (.prop n)
  | b, .elem e o x => by
    rw [rootOf, links, assemble_append, eval_assemble]
    exact (rootOf_bang W false e).link o (.elem x)
  | b, .call e o ts xs => by
    rw [rootOf, links, assemble_append, eval_assemble]
    exact (rootOf_bang W false e).link o (.call ts xs)
  | b, .ident p n => by cases b <;> exact .inr (.inl rfl)
  | b, .asType e ty => by
    right; left
    show W.eval (.asType e ty) = W.eval (.paren (.asType e ty))
    simp only [World.eval, Res.close_close]
  | b, .assertion ty e => by
    right; left
    show W.eval (.assertion ty e) = W.eval (.paren (.assertion ty e))
    simp only [World.eval, Res.close_close]
  | b, .keyword _ _ | b, .literal _ _ _ | b, .binary _ _ _ _ | b, .unary _ _ | b, .typeof _ | b, .template _ _ _ | b, .await _ | b, .metaProp _ _ _
  | b, .other _ _ _ => .inr (.inl rfl)

/-- **C113** Leaving out parentheses between links does not change a value (but can turn an error into undefined: `(a?.b).c`) -/
theorem taken_apart_value (W : World V) (e : Expr) (v : V) (h : W.value e = some v) : W.value (assemble (rootOf false e) (links false e)) = some v :=
  (rootOf_bang W false e).value v h

/-! ### Examples -/

/-- `a.b?.[c]!.d(x)` -/
def sampleLinks : Expr := .call (.prop (.nonNull (.elem (.prop (sampleVar "a") false ['b']) true (sampleVar "c"))) false ['d']) false [] [sampleVar "x"]
example : Tidy false sampleLinks ∧ (links false sampleLinks).any Piece.badName = false := ⟨by simp [sampleLinks, Tidy, sampleVar], by decide⟩
example : build (flat false sampleLinks) [1, 3] true false = some "a?.b?.[c]!?.d?.(x)".toList := by decide +kernel
example : build (flat false sampleLinks) [1, 3] false true = some "a?.b?.[c]?.d(x)".toList ∧
    build (flat false sampleLinks) [1, 4] false true = some "a?.b?.[c]!.d?.(x)".toList ∧
    build (flat false (.prop (.nonNull (.prop (sampleVar "a") false ['b'])) false ['c'])) [2, 3] false true = some "a.b?.c".toList := by decide +kernel
example : build (flat false (.prop (sampleVar "a") false "#b".toList)) [1] false false = none := by decide +kernel
example : rootBang false sampleLinks = true → ∃ p n, rootOf false sampleLinks = .nonNull (.ident p n) := by intro h; exact absurd h (by decide)
example : isPrivateName ['c'] = false := by decide
example : build (flat false (.prop (.paren (.binary (sampleVar "a") .nullish " ?? ".toList (sampleVar "b"))) false ['c'])) [1] false false = some "a ?? b?.c".toList := by decide +kernel
example : sampleWorld.value (.prop (.paren (.nonNull (sampleVar "abcd"))) false ['p']) = some 3 := by
  simp [World.value, World.eval, sampleVar, sampleWorld, Res.after, Res.link, Res.close, Res.value]

end Tsgolint.OptionalChain
