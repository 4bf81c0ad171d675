import Verif.Spec.NullishFix
import Verif.Proof.StableFix
/-! # Proofs about the suggestion for `||` -/
namespace Tsgolint.NullishFix
open Fixer (Bytes Fix ascii AppliesTo Seg Shuffle)

/-! ### The grammar by shape -/

inductive Cls
  | operand
  | op (o : LOp)
  deriving DecidableEq

def Ast.cls : Ast → Cls
  | .bin o _ _ => .op o
  | _ => .operand

def Symbol.takes : Symbol → Cls → Bool
  | .operand, .operand => true
  | .and, .operand => true
  | .and, .op .and => true
  | .or, .operand => true
  | .or, .op .and => true
  | .or, .op .or => true
  | .coalesce, .op .coalesce => true
  | .short, _ => true
  | _, _ => false

/-- What the left and right operand may be -/
def leftOk : LOp → Cls → Bool
  | .and, c => Symbol.and.takes c
  | .or, c => Symbol.or.takes c
  | .coalesce, c => Symbol.operand.takes c || Symbol.coalesce.takes c

def rightOk : LOp → Cls → Bool
  | .and, c => Symbol.operand.takes c
  | .or, c => Symbol.and.takes c
  | .coalesce, c => Symbol.operand.takes c

def Ast.good : Ast → Bool
  | .atom _ => true
  | .not e => e.good && Symbol.operand.takes e.cls
  | .paren e => e.good
  | .bin o l r => l.good && r.good && leftOk o l.cls && rightOk o r.cls

theorem good_of {s : Symbol} {ts : List Tok} {a : Ast} (h : Derives s ts a) : a.good = true ∧ s.takes a.cls = true := by
  induction h with
  | atom => exact ⟨rfl, rfl⟩
  | not _ ih => simp [Ast.good, ih]; rfl
  | paren _ ih => simp [Ast.good, ih]; rfl
  | and1 _ ih => exact ⟨ih.1, by revert ih; cases Ast.cls _ with | operand => exact fun _ => rfl | op o => cases o <;> exact fun h => by cases h.2⟩
  | or1 _ ih => exact ⟨ih.1, by revert ih; cases Ast.cls _ with | operand => exact fun _ => rfl | op o => cases o <;> first | exact fun _ => rfl | exact fun h => by cases h.2⟩
  | shortOr _ ih => exact ⟨ih.1, by cases Ast.cls _ <;> rfl⟩
  | shortCoalesce _ ih => exact ⟨ih.1, by cases Ast.cls _ <;> rfl⟩
  | _ => rename_i ih1 ih2; exact ⟨by simp [Ast.good, ih1, ih2, leftOk, rightOk], rfl⟩

theorem derives_of (t : Tree) (h : t.ast.good = true) (s : Symbol) (hs : s.takes t.ast.cls = true) : Derives s t.tokens t.ast := by
  have lift : ∀ {t : Tree}, Derives .operand t.tokens t.ast → ∀ s : Symbol, s.takes .operand = true → Derives s t.tokens t.ast := by
    intro t h s hs
    cases s with
    | operand => exact h
    | and => exact .and1 h
    | or => exact .or1 (.and1 h)
    | coalesce => cases hs
    | short => exact .shortOr (.or1 (.and1 h))
  induction t generalizing s with
  | atom i t => exact lift (t := .atom i t) .atom s hs
  | not g e ih =>
    simp only [Tree.ast, Ast.good, Bool.and_eq_true] at h
    exact lift (t := .not g e) (.not (ih h.1 .operand h.2)) s hs
  | paren g e g' ih => exact lift (t := .paren g e g') (.paren (ih h .short (by cases Ast.cls _ <;> rfl))) s hs
  | bin o l g1 g2 r ih1 ih2 =>
    simp only [Tree.ast, Ast.good, Bool.and_eq_true] at h
    obtain ⟨⟨⟨h1, h2⟩, h3⟩, h4⟩ := h
    simp only [Tree.ast, Ast.cls] at hs
    cases o with
    | and =>
      have d : Derives .and (l.tokens ++ .op .and :: r.tokens) (.bin .and l.ast r.ast) := .and (ih1 h1 .and h3) (ih2 h2 .operand h4)
      cases s with
      | operand => cases hs
      | and => exact d
      | or => exact .or1 d
      | coalesce => cases hs
      | short => exact .shortOr (.or1 d)
    | or =>
      have d : Derives .or (l.tokens ++ .op .or :: r.tokens) (.bin .or l.ast r.ast) := .or (ih1 h1 .or h3) (ih2 h2 .and h4)
      cases s with
      | operand => cases hs
      | and => cases hs
      | or => exact d
      | coalesce => cases hs
      | short => exact .shortOr d
    | coalesce =>
      have d : Derives .coalesce (l.tokens ++ .op .coalesce :: r.tokens) (.bin .coalesce l.ast r.ast) := by
        simp only [leftOk, Bool.or_eq_true] at h3
        rcases h3 with h3 | h3
        · exact .coalesce1 (ih1 h1 .operand h3) (ih2 h2 .operand h4)
        · exact .coalesce (ih1 h1 .coalesce h3) (ih2 h2 .operand h4)
      cases s with
      | operand => cases hs
      | and => cases hs
      | or => cases hs
      | coalesce => exact d
      | short => exact .shortCoalesce d

theorem parsed_iff (t : Tree) : t.Parsed ↔ t.ast.good = true :=
  ⟨fun h => (good_of h).1, fun h => derives_of t h .short (by cases Ast.cls _ <;> rfl)⟩

/-! ### Places -/

def slot : List Frame → Cls → Bool
  | [], _ => true
  | .not _ :: _, c => Symbol.operand.takes c
  | .paren _ _ :: _, _ => true
  | .left o _ _ _ :: _, c => leftOk o c
  | .right o _ _ _ :: _, c => rightOk o c

theorem plug_good (t : Tree) (up : List Frame) (h : (plug t up).ast.good = true) : t.ast.good = true ∧ slot up t.ast.cls = true := by
  induction up generalizing t with
  | nil => exact ⟨h, rfl⟩
  | cons f up ih =>
    cases f <;> (have := (ih _ h).1; simp only [Tree.ast, Ast.good, Bool.and_eq_true] at this; simp [slot, this])

theorem plug_replace (t t' : Tree) (up : List Frame) (h : (plug t up).ast.good = true) (h' : t'.ast.good = true) (hs : slot up t'.ast.cls = true) :
    (plug t' up).ast.good = true := by
  induction up generalizing t t' with
  | nil => exact h'
  | cons f up ih =>
    obtain ⟨k1, k2⟩ := plug_good _ _ h
    cases f <;> (simp only [plug] at h ⊢; refine ih _ _ h ?_ ?_; (have := (plug_good _ _ h).1; simp only [Tree.ast, Ast.good, Bool.and_eq_true] at this; simp only [slot] at hs; simp [Tree.ast, Ast.good, this, h', hs]); (have := (plug_good _ _ h).2; exact this))

theorem plug_eval {V : Type} (W : Values V) (t t' : Tree) (up : List Frame) (h : W.eval t'.ast = W.eval t.ast) : W.eval (plug t' up).ast = W.eval (plug t up).ast := by
  induction up generalizing t t' with
  | nil => exact h
  | cons f up ih =>
    cases f with
    | not g => exact ih _ _ (by simp [Tree.ast, Values.eval, h])
    | paren => exact ih _ _ (by simp [Tree.ast, Values.eval, h])
    | left o => exact ih _ _ (by cases o <;> simp [Tree.ast, Values.eval, h])
    | right o => exact ih _ _ (by cases o <;> simp [Tree.ast, Values.eval, h])

theorem plug_count (op : LOp) (t t' : Tree) (up : List Frame) : (plug t' up).ast.count op + t.ast.count op = (plug t up).ast.count op + t'.ast.count op := by
  induction up generalizing t t' with
  | nil => simp only [plug]; omega
  | cons f up ih =>
    cases f <;> simp only [plug]
    · rename_i g; have k := ih (.not g t) (.not g t'); simp only [Tree.ast, Ast.count] at k; omega
    · rename_i g1 g2; have k := ih (.paren g1 t g2) (.paren g1 t' g2); simp only [Tree.ast, Ast.count] at k; omega
    · rename_i o g1 g2 r; have k := ih (.bin o t g1 g2 r) (.bin o t' g1 g2 r); simp only [Tree.ast, Ast.count] at k; omega
    · rename_i o l g1 g2; have k := ih (.bin o l g1 g2 t) (.bin o l g1 g2 t'); simp only [Tree.ast, Ast.count] at k; omega

theorem plug_atoms (t t' : Tree) (up : List Frame) (h : t'.ast.atoms = t.ast.atoms) : (plug t' up).ast.atoms = (plug t up).ast.atoms := by
  induction up generalizing t t' with
  | nil => exact h
  | cons f up ih => cases f <;> exact ih _ _ (by simp [Tree.ast, Ast.atoms, h])

def after : List Frame → Bytes
  | [] => []
  | .not _ :: up => after up
  | .paren _ g2 :: up => g2 ++ ascii ")" ++ after up
  | .left op g1 g2 r :: up => g1 ++ op.text ++ g2 ++ r.print ++ after up
  | .right _ _ _ _ :: up => after up

theorem plug_print (t : Tree) (up : List Frame) : (plug t up).print = before up ++ t.print ++ after up := by
  induction up generalizing t with
  | nil => simp [plug, before, after]
  | cons f up ih => cases f <;> simp [plug, before, after, ih, Tree.print, List.append_assoc]

theorem plug_real (t : Tree) (up : List Frame) (h : (plug t up).Real) : t.Real := by
  induction up generalizing t with
  | nil => exact h
  | cons f up ih =>
    cases f with
    | not g => exact ih (.not g t) h
    | paren g g' => exact ih (.paren g t g') h
    | left => exact (ih _ h).1
    | right => exact (ih _ h).2

theorem print_pos (t : Tree) (h : t.Real) : 0 < t.print.length := by
  induction t with
  | atom i t => exact List.length_pos_iff.2 h
  | not g e ih => simp only [Tree.print, List.length_append]; have : (ascii "!").length = 1 := by decide
                  omega
  | paren g e g' ih => simp only [Tree.print, List.length_append]; have := ih h; omega
  | bin o l g1 g2 r ih1 ih2 => simp only [Tree.print, List.length_append]; have := ih1 h.1; omega

/-! ### The edits -/

theorem shuffle_of_perm {l s : List Fix} (hp : s.Perm l) (h : ∀ a ∈ l, ∀ b ∈ l, a.pos = b.pos → a.stop = b.stop → a = b) : Shuffle l s := by
  refine ⟨hp, fun p e => ?_⟩
  have k : ∀ m : List Fix, m.Perm l → ∀ x ∈ l, x.pos = p → x.stop = e → m.filter (fun f => decide (f.pos = p ∧ f.stop = e)) =
      List.replicate (m.filter (fun f => decide (f.pos = p ∧ f.stop = e))).length x := by
    intro m hm x hx hxp hxe
    rw [List.eq_replicate_iff]
    refine ⟨rfl, fun y hy => ?_⟩
    simp only [List.mem_filter, decide_eq_true_eq] at hy
    exact h y (hm.mem_iff.1 hy.1) x hx (hy.2.1.trans hxp.symm) (hy.2.2.trans hxe.symm)
  by_cases hx : ∃ x ∈ l, x.pos = p ∧ x.stop = e
  · obtain ⟨x, hx, hxp, hxe⟩ := hx
    rw [k s hp x hx hxp hxe, k l (.refl _) x hx hxp hxe, (hp.filter _).length_eq]
  · have : ∀ m : List Fix, m.Perm l → m.filter (fun f => decide (f.pos = p ∧ f.stop = e)) = [] := by
      intro m hm
      rw [List.filter_eq_nil_iff]
      intro y hy hy'
      exact hx ⟨y, hm.mem_iff.1 hy, of_decide_eq_true hy'⟩
    rw [this s hp, this l (.refl _)]

/-- An operand in parentheses, if it is a logical expression -/
def guarded (t : Tree) : Tree := if t.logical && !t.isParen then .paren [] t [] else t

theorem guarded_good (t : Tree) (h : t.ast.good = true) : (guarded t).ast.good = true ∧ (guarded t).ast.cls = .operand := by
  rw [guarded]
  split
  · exact ⟨h, rfl⟩
  · rename_i hn
    refine ⟨h, ?_⟩
    cases t with
    | bin => exact absurd rfl hn
    | _ => rfl

theorem guarded_eval {V : Type} (W : Values V) (t : Tree) : W.eval (guarded t).ast = W.eval t.ast := by
  rw [guarded]; split <;> rfl

theorem guarded_count (op : LOp) (t : Tree) : (guarded t).ast.count op = t.ast.count op := by
  rw [guarded]; split <;> rfl

theorem guarded_atoms (t : Tree) : (guarded t).ast.atoms = t.ast.atoms := by
  rw [guarded]; split <;> rfl

theorem perm_general (A B C D E : Fix) (w lp rp : Bool) :
    ((if w then [A] else []) ++ (if lp then [A] else []) ++ (if lp then [B] else []) ++ [C] ++ (if rp then [D] else []) ++ (if rp then [E] else []) ++ (if w then [E] else [])).Perm
      ((if w then [A, E] else []) ++ ((if lp then [A, B] else []) ++ (if rp then [D, E] else [])) ++ [C]) := by
  rw [List.perm_iff_count]
  intro f
  cases w <;> cases lp <;> cases rp <;>
    simp only [if_true, if_false, Bool.false_eq_true, List.nil_append, List.cons_append, List.append_nil, List.count_cons, List.count_nil] <;> omega

theorem applies_general (pre l g1 op op' g2 r post : Bytes) (hl : 0 < l.length) (ho : 0 < op.length) (hr : 0 < r.length) (w lp rp : Bool) :
    AppliesTo (pre ++ l ++ g1 ++ op ++ g2 ++ r ++ post)
      ((if w then [insert pre.length (ascii "("), insert (pre.length + l.length + g1.length + op.length + g2.length + r.length) (ascii ")")] else []) ++
        ((if lp then [insert pre.length (ascii "("), insert (pre.length + l.length) (ascii ")")] else []) ++
          (if rp then [insert (pre.length + l.length + g1.length + op.length + g2.length) (ascii "("),
            insert (pre.length + l.length + g1.length + op.length + g2.length + r.length) (ascii ")")] else [])) ++
        [⟨op', ((pre.length + l.length + g1.length : Nat) : Int), ((pre.length + l.length + g1.length + op.length : Nat) : Int)⟩])
      (pre ++ ((if w then ascii "(" else []) ++ ((if lp then ascii "(" else []) ++ l ++ (if lp then ascii ")" else [])) ++ g1 ++ op' ++ g2 ++
        ((if rp then ascii "(" else []) ++ r ++ (if rp then ascii ")" else [])) ++ (if w then ascii ")" else [])) ++ post) := by
  have := Seg.applies_shuffle
    ([.keep pre] ++ (if w then [.sub [] (ascii "(")] else []) ++ (if lp then [.sub [] (ascii "(")] else []) ++ [.keep l] ++ (if lp then [.sub [] (ascii ")")] else []) ++
      [.keep g1, .sub op op', .keep g2] ++ (if rp then [.sub [] (ascii "(")] else []) ++ [.keep r] ++ (if rp then [.sub [] (ascii ")")] else []) ++
      (if w then [.sub [] (ascii ")")] else []) ++ [.keep post])
    ((if w then [insert pre.length (ascii "("), insert (pre.length + l.length + g1.length + op.length + g2.length + r.length) (ascii ")")] else []) ++
        ((if lp then [insert pre.length (ascii "("), insert (pre.length + l.length) (ascii ")")] else []) ++
          (if rp then [insert (pre.length + l.length + g1.length + op.length + g2.length) (ascii "("),
            insert (pre.length + l.length + g1.length + op.length + g2.length + r.length) (ascii ")")] else [])) ++
        [⟨op', ((pre.length + l.length + g1.length : Nat) : Int), ((pre.length + l.length + g1.length + op.length : Nat) : Int)⟩])
    (shuffle_of_perm (by
      refine List.Perm.trans (List.Perm.of_eq ?_) (perm_general _ _ _ _ _ w lp rp)
      cases w <;> cases lp <;> cases rp <;> simp [Seg.edits, insert, Nat.add_assoc]) (by
      intro a ha b hb h1 h2
      simp only [List.mem_append, List.mem_cons, List.not_mem_nil, or_false, insert] at ha hb
      have hm : ∀ x : Fix, (x ∈ (if w then [insert pre.length (ascii "("), insert (pre.length + l.length + g1.length + op.length + g2.length + r.length) (ascii ")")] else []) →
          x = ⟨ascii "(", pre.length, pre.length⟩ ∨ x = ⟨ascii ")", (pre.length + l.length + g1.length + op.length + g2.length + r.length : Nat), (pre.length + l.length + g1.length + op.length + g2.length + r.length : Nat)⟩) := by
        intro x hx
        cases w
        · cases hx
        · simpa [insert] using hx
      have hm2 : ∀ x : Fix, (x ∈ (if lp then [insert pre.length (ascii "("), insert (pre.length + l.length) (ascii ")")] else []) →
          x = ⟨ascii "(", pre.length, pre.length⟩ ∨ x = ⟨ascii ")", (pre.length + l.length : Nat), (pre.length + l.length : Nat)⟩) := by
        intro x hx
        cases lp
        · cases hx
        · simpa [insert] using hx
      have hm3 : ∀ x : Fix, (x ∈ (if rp then [insert (pre.length + l.length + g1.length + op.length + g2.length) (ascii "("),
            insert (pre.length + l.length + g1.length + op.length + g2.length + r.length) (ascii ")")] else []) →
          x = ⟨ascii "(", (pre.length + l.length + g1.length + op.length + g2.length : Nat), (pre.length + l.length + g1.length + op.length + g2.length : Nat)⟩ ∨
          x = ⟨ascii ")", (pre.length + l.length + g1.length + op.length + g2.length + r.length : Nat), (pre.length + l.length + g1.length + op.length + g2.length + r.length : Nat)⟩) := by
        intro x hx
        cases rp
        · cases hx
        · simpa [insert] using hx
      have ha' := ha.imp (fun h => h.imp (hm a) (fun h => h.imp (hm2 a) (hm3 a))) id
      have hb' := hb.imp (fun h => h.imp (hm b) (fun h => h.imp (hm2 b) (hm3 b))) id
      clear ha hb hm hm2 hm3
      rcases ha' with ((rfl | rfl) | (rfl | rfl) | (rfl | rfl)) | rfl <;> rcases hb' with ((rfl | rfl) | (rfl | rfl) | (rfl | rfl)) | rfl <;>
        first | rfl | (exfalso; simp only [Int.ofNat_inj] at h1 h2; omega)))
  have e1 : ∀ c, Seg.old (if c = true then [Seg.sub [] (ascii "(")] else []) = [] := by intro c; cases c <;> rfl
  have e2 : ∀ c, Seg.old (if c = true then [Seg.sub [] (ascii ")")] else []) = [] := by intro c; cases c <;> rfl
  have n1 : ∀ c, Seg.new (if c = true then [Seg.sub [] (ascii "(")] else []) = if c then ascii "(" else [] := by intro c; cases c <;> simp [Seg.new]
  have n2 : ∀ c, Seg.new (if c = true then [Seg.sub [] (ascii ")")] else []) = if c then ascii ")" else [] := by intro c; cases c <;> simp [Seg.new]
  simp only [Seg.old_append, Seg.new_append, e1, e2, n1, n2, Seg.old, Seg.new, List.append_nil, List.nil_append, List.append_assoc] at this ⊢
  exact this

end Tsgolint.NullishFix
