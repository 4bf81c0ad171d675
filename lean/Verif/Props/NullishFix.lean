import Verif.Proof.NullishFix
import Verif.Proof.NullishParse
/-! # C103: the suggestion of prefer-nullish-coalescing for `||` -/
namespace Tsgolint.NullishFix
open Fixer (Bytes Fix ascii AppliesTo)

theorem place_of (l r : Tree) (g1 g2 : Bytes) (up : List Frame) (h : (plug (.bin .or l g1 g2 r) up).ast.good = true) :
    (wraps true up = false ∧ ∀ c, slot up c = true) ∨ (wraps true up = true ∧ Chained up) := by
  have := (plug_good _ _ h).2
  cases up with
  | nil => exact .inl ⟨rfl, fun _ => rfl⟩
  | cons f rest =>
    cases f with
    | not => cases this
    | paren => exact .inl ⟨by simp [wraps, Frame.isParen], fun _ => rfl⟩
    | left o g g' s =>
      cases o with
      | or => exact .inr ⟨by simp [wraps, logicalAbove, List.dropWhile, Frame.isParen, Frame.logical], _, _, _, _, rfl⟩
      | _ => cases this
    | right o => cases o <;> cases this

theorem guarded_print (t : Tree) : (guarded t).print =
    (if t.logical && !t.isParen then ascii "(" else []) ++ t.print ++ (if t.logical && !t.isParen then ascii ")" else []) := by
  rw [guarded]
  cases t.logical && !t.isParen <;> simp [Tree.print]

/-- Where the parenthesis is inserted within the left operand -/
theorem special_text (pre post : Bytes) (up : List Frame) (op : LOp) (a b r : Tree) (h1 h2 g1 g2 : Bytes) (hb : b.Real) (hr : r.Real) (hw : wraps true up = true) (ha : a.isOr = false) :
    AppliesTo (pre ++ (plug (.bin .or (.bin op a h1 h2 b) g1 g2 r) up).print ++ post) (edits (pre ++ before up).length false up (.bin op a h1 h2 b) g1 g2 r)
      (pre ++ (plug (.bin op a h1 h2 (.paren [] (.bin .coalesce b g1 g2 (guarded r)) [])) up).print ++ post) := by
  have := applies_general (pre ++ before up ++ (a.print ++ h1 ++ op.text ++ h2)) b.print g1 (ascii "||") (ascii "??") g2 r.print (after up ++ post) (print_pos b hb) (by decide) (print_pos r hr)
    true false (r.logical && !r.isParen)
  have e1 : pre ++ (plug (.bin .or (.bin op a h1 h2 b) g1 g2 r) up).print ++ post =
      pre ++ before up ++ (a.print ++ h1 ++ op.text ++ h2) ++ b.print ++ g1 ++ ascii "||" ++ g2 ++ r.print ++ (after up ++ post) := by
    simp [plug_print, Tree.print, LOp.text, List.append_assoc]
  have e2 : pre ++ (plug (.bin op a h1 h2 (.paren [] (.bin .coalesce b g1 g2 (guarded r)) [])) up).print ++ post =
      pre ++ before up ++ (a.print ++ h1 ++ op.text ++ h2) ++
        ((if true = true then ascii "(" else []) ++ ((if false = true then ascii "(" else []) ++ b.print ++ (if false = true then ascii ")" else [])) ++ g1 ++ ascii "??" ++ g2 ++
        ((if (r.logical && !r.isParen) = true then ascii "(" else []) ++ r.print ++ (if (r.logical && !r.isParen) = true then ascii ")" else [])) ++
        (if true = true then ascii ")" else [])) ++ (after up ++ post) := by
    simp [plug_print, Tree.print, guarded_print, LOp.text, List.append_assoc]
  have e3 : edits (pre ++ before up).length false up (.bin op a h1 h2 b) g1 g2 r =
      (if true = true then [insert (pre ++ before up ++ (a.print ++ h1 ++ op.text ++ h2)).length (ascii "("),
        insert ((pre ++ before up ++ (a.print ++ h1 ++ op.text ++ h2)).length + b.print.length + g1.length + (ascii "||").length + g2.length + r.print.length) (ascii ")")] else []) ++
        ((if false = true then [insert (pre ++ before up ++ (a.print ++ h1 ++ op.text ++ h2)).length (ascii "("),
          insert ((pre ++ before up ++ (a.print ++ h1 ++ op.text ++ h2)).length + b.print.length) (ascii ")")] else []) ++
          (if (r.logical && !r.isParen) = true then
            [insert ((pre ++ before up ++ (a.print ++ h1 ++ op.text ++ h2)).length + b.print.length + g1.length + (ascii "||").length + g2.length) (ascii "("),
            insert ((pre ++ before up ++ (a.print ++ h1 ++ op.text ++ h2)).length + b.print.length + g1.length + (ascii "||").length + g2.length + r.print.length) (ascii ")")] else [])) ++
        [⟨ascii "??", (((pre ++ before up ++ (a.print ++ h1 ++ op.text ++ h2)).length + b.print.length + g1.length : Nat) : Int),
          (((pre ++ before up ++ (a.print ++ h1 ++ op.text ++ h2)).length + b.print.length + g1.length + (ascii "||").length : Nat) : Int)⟩] := by
    have hi : inner (.bin op a h1 h2 b) = some ((a.print ++ h1 ++ op.text ++ h2).length) := by simp [inner, ha]
    have hl : (Tree.bin op a h1 h2 b).print.length = (a.print ++ h1 ++ op.text ++ h2).length + b.print.length := by simp [Tree.print, Nat.add_assoc]
    rw [edits]
    simp only [Bool.not_false, hw, hi, hl, guardOperand, Option.getD_some, Option.isSome_some, Bool.and_true, if_true, Bool.false_eq_true, if_false, List.length_append, Nat.add_assoc, List.nil_append]
  rw [e1, e2, e3]
  exact this

/-- Where it is not -/
theorem general_text (pre post : Bytes) (up : List Frame) (l r : Tree) (g1 g2 : Bytes) (hl : l.Real) (hr : r.Real) (hw : wraps true up = false ∨ inner l = none) :
    AppliesTo (pre ++ (plug (.bin .or l g1 g2 r) up).print ++ post) (edits (pre ++ before up).length false up l g1 g2 r)
      (pre ++ (plug (if wraps true up then .paren [] (.bin .coalesce (guarded l) g1 g2 (guarded r)) [] else .bin .coalesce (guarded l) g1 g2 (guarded r)) up).print ++ post) := by
  have := applies_general (pre ++ before up) l.print g1 (ascii "||") (ascii "??") g2 r.print (after up ++ post) (print_pos l hl) (by decide) (print_pos r hr)
    (wraps true up) (l.logical && !l.isParen) (r.logical && !r.isParen)
  have e1 : pre ++ (plug (.bin .or l g1 g2 r) up).print ++ post = pre ++ before up ++ l.print ++ g1 ++ ascii "||" ++ g2 ++ r.print ++ (after up ++ post) := by
    simp [plug_print, Tree.print, LOp.text, List.append_assoc]
  have e2 : pre ++ (plug (if wraps true up then .paren [] (.bin .coalesce (guarded l) g1 g2 (guarded r)) [] else .bin .coalesce (guarded l) g1 g2 (guarded r)) up).print ++ post =
      pre ++ before up ++ ((if wraps true up then ascii "(" else []) ++ ((if l.logical && !l.isParen then ascii "(" else []) ++ l.print ++ (if l.logical && !l.isParen then ascii ")" else [])) ++
        g1 ++ ascii "??" ++ g2 ++ ((if r.logical && !r.isParen then ascii "(" else []) ++ r.print ++ (if r.logical && !r.isParen then ascii ")" else [])) ++
        (if wraps true up then ascii ")" else [])) ++ (after up ++ post) := by
    rw [plug_print]
    cases wraps true up <;> simp [Tree.print, guarded_print, LOp.text, List.append_assoc]
  have e3 : edits (pre ++ before up).length false up l g1 g2 r =
      (if wraps true up then [insert (pre ++ before up).length (ascii "("),
        insert ((pre ++ before up).length + l.print.length + g1.length + (ascii "||").length + g2.length + r.print.length) (ascii ")")] else []) ++
        ((if l.logical && !l.isParen then [insert (pre ++ before up).length (ascii "("), insert ((pre ++ before up).length + l.print.length) (ascii ")")] else []) ++
          (if r.logical && !r.isParen then
            [insert ((pre ++ before up).length + l.print.length + g1.length + (ascii "||").length + g2.length) (ascii "("),
            insert ((pre ++ before up).length + l.print.length + g1.length + (ascii "||").length + g2.length + r.print.length) (ascii ")")] else [])) ++
        [⟨ascii "??", (((pre ++ before up).length + l.print.length + g1.length : Nat) : Int),
          (((pre ++ before up).length + l.print.length + g1.length + (ascii "||").length : Nat) : Int)⟩] := by
    rw [edits]
    rcases hw with hw | hw
    · simp only [Bool.not_false, hw, guardOperand, Bool.false_and, Bool.false_eq_true, if_false]
    · simp only [Bool.not_false, hw, guardOperand, Option.getD_none, Option.isSome_none, Bool.and_false, Nat.add_zero, Bool.false_eq_true, if_false]
  rw [e1, e2, e3]
  exact this

/-- C103: after the suggestion for `l || r` the text is that of an expression with `??` for this `||`, and the same value whenever the value of `l` is nullish or truthy - except in the two
kinds of chains named in `Wrong`. -/
theorem C103_or (pre post : Bytes) (up : List Frame) (l r : Tree) (g1 g2 : Bytes) (hreal : (plug (.bin .or l g1 g2 r) up).Real)
    (hp : (plug (.bin .or l g1 g2 r) up).Parsed) (hw : ¬ Wrong up l) :
    ∃ new, AppliesTo (pre ++ (plug (.bin .or l g1 g2 r) up).print ++ post) (edits (pre ++ before up).length false up l g1 g2 r) (pre ++ Tree.print new ++ post) ∧
      Kept l (plug (.bin .or l g1 g2 r) up) new := by
  have hg := (parsed_iff _).1 hp
  have hreal' := plug_real _ _ hreal
  have hgn := (plug_good _ _ hg).1
  simp only [Tree.ast, Ast.good, Bool.and_eq_true] at hgn
  obtain ⟨⟨⟨gl, gr⟩, cl⟩, cr⟩ := hgn
  have gr' := guarded_good r gr
  have finish : ∀ n' : Tree, n'.ast.good = true → slot up n'.ast.cls = true → n'.ast.atoms = (Tree.bin .or l g1 g2 r).ast.atoms →
      n'.ast.count .or + 1 = (Tree.bin .or l g1 g2 r).ast.count .or → n'.ast.count .and = (Tree.bin .or l g1 g2 r).ast.count .and →
      n'.ast.count .coalesce = (Tree.bin .or l g1 g2 r).ast.count .coalesce + 1 →
      (∀ (V : Type) (W : Values V), (∀ u, W.eval l.ast = some u → W.nullish u = true ∨ W.truthy u = true) → W.eval n'.ast = W.eval (Tree.bin .or l g1 g2 r).ast) →
      AppliesTo (pre ++ (plug (.bin .or l g1 g2 r) up).print ++ post) (edits (pre ++ before up).length false up l g1 g2 r) (pre ++ (plug n' up).print ++ post) →
      ∃ new, AppliesTo (pre ++ (plug (.bin .or l g1 g2 r) up).print ++ post) (edits (pre ++ before up).length false up l g1 g2 r) (pre ++ Tree.print new ++ post) ∧
        Kept l (plug (.bin .or l g1 g2 r) up) new :=
    fun n' k1 k2 k3 k4 k5 k6 k7 k8 => ⟨plug n' up, k8, (parsed_iff _).2 (plug_replace _ _ up hg k1 k2), plug_atoms _ _ up k3,
      (by have := plug_count .or (.bin .or l g1 g2 r) n' up; omega), (by have := plug_count .and (.bin .or l g1 g2 r) n' up; omega),
      (by have := plug_count .coalesce (.bin .or l g1 g2 r) n' up; omega), fun V W hW => plug_eval W _ _ up (k7 V W hW)⟩
  have value : ∀ (V : Type) (W : Values V) (x y : Option V), (∀ u, x = some u → W.nullish u = true ∨ W.truthy u = true) →
      (x.bind fun v => if W.nullish v then y else some v) = x.bind fun v => if W.truthy v then some v else y := by
    intro V W x y h
    cases x with
    | none => rfl
    | some v =>
      simp only [Option.bind_some]
      rcases h v rfl with h | h
      · rw [h, W.falsy v h]; rfl
      · have : W.nullish v = false := by
          cases hn : W.nullish v
          · rfl
          · rw [W.falsy v hn] at h; cases h
        rw [h, this]; rfl
  have general : (wraps true up = false ∨ inner l = none) →
      ∃ new, AppliesTo (pre ++ (plug (.bin .or l g1 g2 r) up).print ++ post) (edits (pre ++ before up).length false up l g1 g2 r) (pre ++ Tree.print new ++ post) ∧
        Kept l (plug (.bin .or l g1 g2 r) up) new := fun hin => finish
      (if wraps true up then .paren [] (.bin .coalesce (guarded l) g1 g2 (guarded r)) [] else .bin .coalesce (guarded l) g1 g2 (guarded r))
      (by
        have := guarded_good l gl
        have : (Tree.bin .coalesce (guarded l) g1 g2 (guarded r)).ast.good = true := by
          simp only [Tree.ast, Ast.good, this.1, this.2, gr'.1, gr'.2]; rfl
        split
        · exact this
        · exact this)
      (by
        rcases place_of l r g1 g2 up hg with ⟨h, h'⟩ | ⟨h, h'⟩
        · exact h' _
        · rw [h]
          obtain ⟨_, _, _, _, rfl⟩ := h'
          rfl)
      (by split <;> simp [Tree.ast, Ast.atoms, guarded_atoms])
      (by split <;> simp [Tree.ast, Ast.count, guarded_count])
      (by split <;> simp [Tree.ast, Ast.count, guarded_count])
      (by split <;> simp [Tree.ast, Ast.count, guarded_count])
      (by
        intro V W hW
        have : W.eval (Tree.bin .coalesce (guarded l) g1 g2 (guarded r)).ast = W.eval (Tree.bin .or l g1 g2 r).ast := by
          simp only [Tree.ast, Values.eval, guarded_eval]
          exact value V W _ _ hW
        split
        · exact this
        · exact this)
      (general_text pre post up l r g1 g2 hreal'.1 hreal'.2 hin)
  rcases place_of l r g1 g2 up hg with ⟨h, _⟩ | ⟨h, hc⟩
  · exact general (.inl h)
  · cases l with
    | bin op a h1 h2 b =>
      cases ha : a.isOr with
      | true => exact general (.inr (by simp [inner, ha]))
      | false =>
        have hor : op = .or := by
          cases op with
          | or => rfl
          | and => exact absurd ⟨hc, .inl ⟨_, _, _, _, rfl⟩⟩ hw
          | coalesce => cases cl
        subst hor
        simp only [Tree.ast, Ast.good, Bool.and_eq_true] at gl
        obtain ⟨⟨⟨ga, gb⟩, ca⟩, cb⟩ := gl
        have cb' : b.ast.cls = .operand := by
          cases b with
          | bin o c k1 k2 d =>
            cases o with
            | or => cases cb
            | coalesce => cases cb
            | and =>
              refine absurd ⟨hc, .inr ⟨_, _, _, _, _, _, _, rfl, fun x j1 j2 y he => ?_⟩⟩ hw
              rw [he] at ha; cases ha
          | _ => rfl
        refine finish (.bin .or a h1 h2 (.paren [] (.bin .coalesce b g1 g2 (guarded r)) [])) ?_ ?_ ?_ ?_ ?_ ?_ ?_ (special_text pre post up .or a b r h1 h2 g1 g2 hreal'.1.2 hreal'.2 h ha)
        · simp only [Tree.ast, Ast.good, ga, gb, ca, cb', gr'.1, gr'.2]; rfl
        · obtain ⟨_, _, _, _, rfl⟩ := hc; rfl
        · simp [Tree.ast, Ast.atoms, guarded_atoms]
        · simp [Tree.ast, Ast.count, guarded_count]; omega
        · simp [Tree.ast, Ast.count, guarded_count]; omega
        · simp [Tree.ast, Ast.count, guarded_count]; omega
        · intro V W hW
          simp only [Tree.ast, Values.eval, guarded_eval] at hW ⊢
          cases hx : W.eval a.ast with
          | none => rfl
          | some v =>
            simp only [hx, Option.bind_some] at hW ⊢
            cases hv : W.truthy v with
            | true => simp [hv]
            | false =>
              simp only [hv, Bool.false_eq_true, if_false] at hW ⊢
              exact value V W _ _ hW
    | _ => exact general (.inr rfl)

/-- C103 (assignments): `l ||= r` becomes `l ??= r`. -/
theorem C103_assign (pre post : Bytes) (up : List Frame) (l r : Tree) (g1 g2 : Bytes) (hup : up = [] ∨ ∃ g g' rest, up = .paren g g' :: rest) :
    AppliesTo (pre ++ l.print ++ g1 ++ ascii "||=" ++ g2 ++ r.print ++ post) (edits pre.length true up l g1 g2 r) (pre ++ l.print ++ g1 ++ ascii "??=" ++ g2 ++ r.print ++ post) := by
  have hw : wraps (!true) up = false := by
    rcases hup with rfl | ⟨_, _, _, rfl⟩
    · rfl
    · simp [wraps, Frame.isParen]
  have := Fixer.Seg.applies_sorted [.keep (pre ++ l.print ++ g1), .sub (ascii "||=") (ascii "??="), .keep (g2 ++ r.print ++ post)]
  have e : edits pre.length true up l g1 g2 r = Fixer.Seg.edits 0 [.keep (pre ++ l.print ++ g1), .sub (ascii "||=") (ascii "??="), .keep (g2 ++ r.print ++ post)] := by
    rw [edits]
    simp only [hw, Bool.false_eq_true, if_false, if_true, List.nil_append, Fixer.Seg.edits, List.length_append, Nat.zero_add, Nat.add_assoc]
  rw [e]
  simpa [Fixer.Seg.old, Fixer.Seg.new, List.append_assoc] using this

/-- C103: the grammar parses a text in one way. -/
theorem C103_unambiguous {ts : List Tok} {a b : Ast} (ha : Derives .short ts a) (hb : Derives .short ts b) : a = b := unambiguous ha hb

/-! ### Cases, and where it goes wrong -/

private def v (i : Nat) : Tree := .atom i [UInt8.ofNat (97 + i)]
private def sp : Bytes := [32]

/-- 0: null, 1: another falsy value, 2 and more: truthy -/
def sampleValues (f : Nat → Nat) : Values Nat where
  nullish v := v == 0
  truthy v := decide (2 ≤ v)
  bool b := if b then 2 else 1
  atom i := some (f i)
  falsy v h := by simp at h; simp [h]

/-- `a || b && c` becomes `a ?? (b && c)`. -/
example : ∃ t', AppliesTo (ascii "a || b && c") (edits 0 false [] (v 0) sp sp (.bin .and (v 1) sp sp (v 2))) (Tree.print t') ∧ t'.Parsed := by
  obtain ⟨t', h, ⟨h', _⟩⟩ := C103_or [] [] [] (v 0) (.bin .and (v 1) sp sp (v 2)) sp sp (by simp [plug, Tree.Real, v]) ((parsed_iff _).2 (by decide)) (fun h => by obtain ⟨⟨_, _, _, _, h⟩, _⟩ := h; cases h)
  exact ⟨t', (by have e : ascii "a || b && c" = [] ++ (plug (.bin .or (v 0) sp sp (.bin .and (v 1) sp sp (v 2))) []).print ++ [] := by decide
                 rw [e]; simpa [before] using h), h'⟩

/-- `a || b || c || d`, in the middle: not one of the wrong cases -/
example : ¬ Wrong [.left .or sp sp (v 3)] (.bin .or (v 0) sp sp (v 1)) ∧ (plug (.bin .or (.bin .or (v 0) sp sp (v 1)) sp sp (v 2)) [.left .or sp sp (v 3)]).Parsed := by
  refine ⟨?_, (parsed_iff _).2 (by decide)⟩
  rintro ⟨_, ⟨_, _, _, _, h⟩ | ⟨_, _, _, _, _, _, _, h, _⟩⟩ <;> cases h

/-- Goes wrong: `a && b || c || d` becomes `a && (b ?? c) || d`, which has another value when `a` is null and `c` is not. -/
theorem C103_hazard_and : ∃ t', AppliesTo (ascii "a && b || c || d") (edits 0 false [.left .or sp sp (v 3)] (.bin .and (v 0) sp sp (v 1)) sp sp (v 2)) (Tree.print t') ∧
    t'.print = ascii "a && (b ?? c) || d" ∧ t'.Parsed ∧
    ∃ W : Values Nat, (∀ u, W.eval (Tree.bin .and (v 0) sp sp (v 1)).ast = some u → W.nullish u = true ∨ W.truthy u = true) ∧
      W.eval t'.ast = some 3 ∧ W.eval (plug (.bin .or (.bin .and (v 0) sp sp (v 1)) sp sp (v 2)) [.left .or sp sp (v 3)]).ast = some 2 := by
  refine ⟨plug (.bin .and (v 0) sp sp (.paren [] (.bin .coalesce (v 1) sp sp (v 2)) [])) [.left .or sp sp (v 3)], ?_, ?_, ?_, sampleValues (fun i => i), ?_, ?_, ?_⟩
  · have := special_text [] [] [.left .or sp sp (v 3)] .and (v 0) (v 1) (v 2) sp sp sp sp (by simp [Tree.Real, v]) (by simp [Tree.Real, v]) (by decide) rfl
    have e : ascii "a && b || c || d" = [] ++ (plug (.bin .or (.bin .and (v 0) sp sp (v 1)) sp sp (v 2)) [.left .or sp sp (v 3)]).print ++ [] := by decide
    rw [e]; simpa [before, guarded, v, Tree.logical] using this
  · decide
  · exact (parsed_iff _).2 (by decide)
  · intro u hu
    have : (sampleValues fun i => i).eval (Tree.bin .and (v 0) sp sp (v 1)).ast = some 0 := by decide
    rw [this] at hu; cases hu; exact .inl rfl
  · decide
  · decide

/-- Goes wrong: `a || b && c || d || e` becomes `a || (b && c ?? d) || e`, which is a syntax error. -/
theorem C103_hazard_mixed : ∃ t', AppliesTo (ascii "a || b && c || d || e")
      (edits 0 false [.left .or sp sp (v 4)] (.bin .or (v 0) sp sp (.bin .and (v 1) sp sp (v 2))) sp sp (v 3)) (Tree.print t') ∧
    t'.print = ascii "a || (b && c ?? d) || e" ∧ ∀ a, ¬ Derives .short t'.tokens a := by
  refine ⟨plug (.bin .or (v 0) sp sp (.paren [] (.bin .coalesce (.bin .and (v 1) sp sp (v 2)) sp sp (v 3)) [])) [.left .or sp sp (v 4)], ?_, ?_, ?_⟩
  · have := special_text [] [] [.left .or sp sp (v 4)] .or (v 0) (.bin .and (v 1) sp sp (v 2)) (v 3) sp sp sp sp (by simp [Tree.Real, v]) (by simp [Tree.Real, v]) (by decide) rfl
    have e : ascii "a || b && c || d || e" = [] ++ (plug (.bin .or (.bin .or (v 0) sp sp (.bin .and (v 1) sp sp (v 2))) sp sp (v 3)) [.left .or sp sp (v 4)]).print ++ [] := by decide
    rw [e]; simpa [before, guarded, v, Tree.logical] using this
  · decide
  · intro a h
    obtain ⟨N, hN⟩ := parsed_short h
    have := hN (N + 20) (by omega)
    revert this
    show pShort (N + 20) [.atom 0, .op .or, .lparen, .atom 1, .op .and, .atom 2, .op .coalesce, .atom 3, .rparen, .op .or, .atom 4] = _ → False
    have : pShort (N + 20) [.atom 0, .op .or, .lparen, .atom 1, .op .and, .atom 2, .op .coalesce, .atom 3, .rparen, .op .or, .atom 4] = none := by
      simp [pShort, pOperand, pAnd, pOr]
    rw [this]
    nofun

end Tsgolint.NullishFix
