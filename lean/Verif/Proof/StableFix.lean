import Verif.Spec.StableFix
import Verif.Proof.Segments
/-! # Stable sorting is unique; edits given as segments -/
namespace Tsgolint.Fixer

private def le (a b : Fix) : Prop := a.pos < b.pos ∨ a.pos = b.pos ∧ a.stop ≤ b.stop

theorem StableSorted.unique {l s t : List Fix} (hs : StableSorted l s) (ht : StableSorted l t) : s = t := by
  obtain ⟨ps, ss, fs⟩ := hs
  obtain ⟨pt, st, ft⟩ := ht
  have hp : s.Perm t := ps.trans pt.symm
  have hf : ∀ p e : Int, s.filter (fun f => decide (f.pos = p ∧ f.stop = e)) = t.filter (fun f => decide (f.pos = p ∧ f.stop = e)) :=
    fun p e => (fs p e).trans (ft p e).symm
  clear ps pt fs ft
  induction s generalizing t with
  | nil => simpa using hp
  | cons a s ih =>
    cases t with
    | nil => simpa using hp.length_eq
    | cons b t =>
      have h1 : ∀ x ∈ b :: t, le a x := by
        intro x hx
        have := hp.symm.subset hx
        rcases List.mem_cons.1 this with rfl | h
        · exact .inr ⟨rfl, Int.le_refl _⟩
        · exact (List.pairwise_cons.1 ss).1 x h
      have h2 : ∀ x ∈ a :: s, le b x := by
        intro x hx
        have := hp.subset hx
        rcases List.mem_cons.1 this with rfl | h
        · exact .inr ⟨rfl, Int.le_refl _⟩
        · exact (List.pairwise_cons.1 st).1 x h
      have hab := h1 b (List.mem_cons_self ..)
      have hba := h2 a (List.mem_cons_self ..)
      have hk : b.pos = a.pos ∧ b.stop = a.stop := by
        unfold le at hab hba; omega
      have := hf a.pos a.stop
      simp only [List.filter_cons, hk, and_self, decide_true, if_true, List.cons.injEq] at this
      obtain ⟨rfl, -⟩ := this
      congr 1
      refine ih (List.pairwise_cons.1 ss).2 (List.pairwise_cons.1 st).2 (List.perm_cons a |>.1 hp) ?_
      intro p e
      have := hf p e
      simp only [List.filter_cons] at this
      split at this
      · exact (List.cons.inj this).2
      · exact this

theorem Seg.edits_inRange (segs : List Seg) (n : Nat) :
    ∀ f ∈ Seg.edits n segs, 0 ≤ f.pos ∧ f.pos ≤ f.stop ∧ f.stop ≤ ((n + (Seg.old segs).length : Nat) : Int) := by
  induction segs generalizing n with
  | nil => simp [Seg.edits]
  | cons s r ih =>
    cases s with
    | keep b =>
      intro f hf
      have := ih _ f hf
      simp only [Seg.old, List.length_append]
      omega
    | sub o w =>
      intro f hf
      simp only [Seg.old, List.length_append]
      rcases List.mem_cons.1 hf with rfl | hf
      · simp only []; omega
      · have := ih _ f hf; omega

/-- Edits listed as segments and stably sorted. -/
theorem Seg.applies (segs : List Seg) (code out : Bytes) (fixes : List Fix) (hc : Seg.old segs = code) (ho : Seg.new segs = out)
    (hs : StableSorted fixes (Seg.edits 0 segs)) : AppliesTo code fixes out := by
  refine ⟨⟨_, hs⟩, fun s h => ?_⟩
  obtain rfl := hs.unique h
  have := Seg.editAll segs []
  simp only [List.nil_append, List.length_nil] at this
  refine ⟨Seg.disjoint segs 0, ?_, by rw [← hc, this, ho]⟩
  intro f hf
  have := Seg.edits_inRange segs 0 f hf
  rw [hc] at this
  simpa [InRange] using this

/-- Edits given as segments are sorted already. -/
theorem Seg.edits_sorted (segs : List Seg) (n : Nat) :
    (Seg.edits n segs).Pairwise (fun a b => a.pos < b.pos ∨ a.pos = b.pos ∧ a.stop ≤ b.stop) := by
  induction segs generalizing n with
  | nil => exact .nil
  | cons s r ih =>
    cases s with
    | keep b => exact ih _
    | sub o w =>
      refine List.pairwise_cons.2 ⟨fun f hf => ?_, ih _⟩
      have h1 := Seg.edits_ge _ _ f hf
      have h2 := Seg.edits_inRange _ _ f hf
      simp only at h1 h2 ⊢
      omega

/-- Edits listed from left to right. -/
theorem Seg.applies_sorted (segs : List Seg) : AppliesTo (Seg.old segs) (Seg.edits 0 segs) (Seg.new segs) :=
  Seg.applies segs _ _ _ rfl rfl ⟨.refl _, Seg.edits_sorted segs 0, fun _ _ => rfl⟩

/-- A way to establish stable sortedness of explicit lists. -/
theorem StableSorted.of {l s : List Fix} (hp : s.Perm l)
    (hs : s.Pairwise (fun a b => a.pos < b.pos ∨ a.pos = b.pos ∧ a.stop ≤ b.stop))
    (hf : ∀ p e : Int, s.filter (fun f => decide (f.pos = p ∧ f.stop = e)) = l.filter (fun f => decide (f.pos = p ∧ f.stop = e))) :
    StableSorted l s := ⟨hp, hs, hf⟩

/-- The texts inserted at `(p, e)`, in the order given. -/
def textsAt (l : List Fix) (p e : Nat) : List Bytes := (l.filter fun f => decide (f.pos = (p : Int) ∧ f.stop = (e : Int))).map (·.text)

theorem Seg.edits_append (a b : List Seg) (n : Nat) : Seg.edits n (a ++ b) = Seg.edits n a ++ Seg.edits (n + (Seg.old a).length) b := by
  induction a generalizing n with
  | nil => simp [Seg.edits, Seg.old]
  | cons s r ih => cases s <;> simp [Seg.edits, Seg.old, ih, Nat.add_assoc]

theorem Seg.old_append (a b : List Seg) : Seg.old (a ++ b) = Seg.old a ++ Seg.old b := by
  induction a with
  | nil => simp [Seg.old]
  | cons s r ih => cases s <;> simp [Seg.old, ih]

theorem Seg.new_append (a b : List Seg) : Seg.new (a ++ b) = Seg.new a ++ Seg.new b := by
  induction a with
  | nil => simp [Seg.new]
  | cons s r ih => cases s <;> simp [Seg.new, ih]

theorem Seg.inserts (ts : List Bytes) (n : Nat) :
    Seg.old (ts.map (Seg.sub [])) = [] ∧ Seg.new (ts.map (Seg.sub [])) = ts.flatten ∧
      Seg.edits n (ts.map (Seg.sub [])) = ts.map fun t => (⟨t, n, n⟩ : Fix) := by
  induction ts generalizing n with
  | nil => simp [Seg.old, Seg.new, Seg.edits]
  | cons t ts ih => simp [Seg.old, Seg.new, Seg.edits, (ih n).1, (ih n).2.1, (ih n).2.2]

theorem filter_at (l : List Fix) (p e : Nat) :
    l.filter (fun f => decide (f.pos = (p : Int) ∧ f.stop = (e : Int))) = (textsAt l p e).map fun t => (⟨t, p, e⟩ : Fix) := by
  unfold textsAt
  rw [List.map_map]
  refine (List.map_id _).symm.trans (List.map_congr_left ?_)
  intro f hf
  obtain ⟨t, a, b⟩ := f
  simp only [List.mem_filter, decide_eq_true_eq] at hf
  obtain ⟨-, rfl, rfl⟩ := hf
  rfl

/-- Edits that insert before a node, replace it once and insert after it, in any order. -/
theorem surround_applies (pre node post text : Bytes) (l : List Fix) (p e : Nat) (hp : p = pre.length) (he : e = pre.length + node.length)
    (hne : node ≠ [])
    (hall : ∀ f ∈ l, (f.pos = (p : Int) ∧ (f.stop = (p : Int) ∨ f.stop = (e : Int))) ∨ f.pos = (e : Int) ∧ f.stop = (e : Int))
    (hone : textsAt l p e = [text]) :
    AppliesTo (pre ++ node ++ post) l (pre ++ (textsAt l p p).flatten ++ text ++ (textsAt l e e).flatten ++ post) := by
  have hlen : 0 < node.length := List.length_pos_iff.2 hne
  have hpe : p < e := by omega
  refine Seg.applies ([.keep pre] ++ (textsAt l p p).map (Seg.sub []) ++ [.sub node text] ++ (textsAt l e e).map (Seg.sub []) ++ [.keep post])
    _ _ _ ?_ ?_ ?_
  · simp [Seg.old_append, Seg.inserts _ 0, Seg.old]
  · simp [Seg.new_append, Seg.inserts _ 0, Seg.new]
  · have hs : Seg.edits 0 ([Seg.keep pre] ++ (textsAt l p p).map (Seg.sub []) ++ [.sub node text] ++ (textsAt l e e).map (Seg.sub []) ++ [.keep post])
        = l.filter (fun f => decide (f.pos = (p : Int) ∧ f.stop = (p : Int))) ++
          l.filter (fun f => decide (f.pos = (p : Int) ∧ f.stop = (e : Int))) ++
          l.filter (fun f => decide (f.pos = (e : Int) ∧ f.stop = (e : Int))) := by
      simp only [filter_at, hone, Seg.edits_append, Seg.old_append, (Seg.inserts _ _).2.2, (Seg.inserts _ 0).1, Seg.old, Seg.edits]
      subst hp he
      simp
    rw [hs]
    refine ⟨?_, ?_, ?_⟩
    · have h1 : l.filter (fun f => decide (f.pos = (p : Int) ∧ f.stop = (e : Int))) ++ l.filter (fun f => decide (f.pos = (e : Int) ∧ f.stop = (e : Int)))
          |>.Perm (l.filter (fun f => !decide (f.pos = (p : Int) ∧ f.stop = (p : Int)))) := by
        have := List.filter_append_perm (fun f => decide (f.pos = (p : Int) ∧ f.stop = (e : Int))) (l.filter (fun f => !decide (f.pos = (p : Int) ∧ f.stop = (p : Int))))
        refine .trans ?_ this
        rw [List.filter_filter, List.filter_filter]
        refine List.Perm.append (.of_eq (List.filter_congr ?_)) (.of_eq (List.filter_congr ?_)) <;>
        · intro f hf
          rcases hall f hf with ⟨h1, h2 | h2⟩ | ⟨h1, h2⟩ <;> simp [h1, h2] <;> omega
      rw [List.append_assoc]
      exact (List.Perm.append_left _ h1).trans (List.filter_append_perm _ l)
    · simp only [List.pairwise_append, List.mem_append, List.mem_filter, decide_eq_true_eq]
      have same : ∀ a b : Int, (l.filter (fun f => decide (f.pos = a ∧ f.stop = b))).Pairwise
          (fun a b => a.pos < b.pos ∨ a.pos = b.pos ∧ a.stop ≤ b.stop) := by
        intro a b
        refine List.Pairwise.imp_of_mem (R := fun _ _ => True) ?_ (List.pairwise_of_forall (fun _ _ => trivial))
        intro x y hx hy _
        simp only [List.mem_filter, decide_eq_true_eq] at hx hy
        omega
      refine ⟨⟨same _ _, same _ _, ?_⟩, same _ _, ?_⟩
      · rintro a ⟨-, h1, h2⟩ b ⟨-, h3, h4⟩; omega
      · rintro a (⟨-, h1, h2⟩ | ⟨-, h1, h2⟩) b ⟨-, h3, h4⟩ <;> omega
    · intro a b
      rw [List.filter_append, List.filter_append, List.filter_filter, List.filter_filter, List.filter_filter]
      have none_of : ∀ (c d : Nat), ¬((c : Int) = a ∧ (d : Int) = b) →
          l.filter (fun f => decide (f.pos = a ∧ f.stop = b) && decide (f.pos = (c : Int) ∧ f.stop = (d : Int))) = [] := by
        intro c d h
        refine List.filter_eq_nil_iff.2 ?_
        intro f _ hf
        simp only [Bool.and_eq_true, decide_eq_true_eq] at hf
        omega
      have all_of : ∀ (c d : Nat), (c : Int) = a → (d : Int) = b →
          l.filter (fun f => decide (f.pos = a ∧ f.stop = b) && decide (f.pos = (c : Int) ∧ f.stop = (d : Int)))
            = l.filter (fun f => decide (f.pos = a ∧ f.stop = b)) := by
        intro c d h1 h2
        rw [h1, h2]; simp
      by_cases h1 : (p : Int) = a ∧ (p : Int) = b
      · rw [all_of p p h1.1 h1.2, none_of p e (by omega), none_of e e (by omega)]; simp
      · by_cases h2 : (p : Int) = a ∧ (e : Int) = b
        · rw [all_of p e h2.1 h2.2, none_of p p (by omega), none_of e e (by omega)]; simp
        · by_cases h3 : (e : Int) = a ∧ (e : Int) = b
          · rw [all_of e e h3.1 h3.2, none_of p p (by omega), none_of p e (by omega)]; simp
          · rw [none_of p p h1, none_of p e h2, none_of e e h3]
            symm
            refine List.filter_eq_nil_iff.2 ?_
            intro f hf h
            simp only [decide_eq_true_eq] at h
            rcases hall f hf with ⟨h4, h5 | h5⟩ | ⟨h4, h5⟩ <;> omega

/-- Rearrangements that keep edits of the same range in order. -/
def Shuffle (l s : List Fix) : Prop :=
  s.Perm l ∧ ∀ p e : Int, s.filter (fun f => decide (f.pos = p ∧ f.stop = e)) = l.filter (fun f => decide (f.pos = p ∧ f.stop = e))

theorem Shuffle.refl (l : List Fix) : Shuffle l l := ⟨.refl _, fun _ _ => rfl⟩

theorem Shuffle.trans {a b c : List Fix} (h : Shuffle a b) (h' : Shuffle b c) : Shuffle a c :=
  ⟨h'.1.trans h.1, fun p e => (h'.2 p e).trans (h.2 p e)⟩

theorem Shuffle.cons (x : Fix) {a b : List Fix} (h : Shuffle a b) : Shuffle (x :: a) (x :: b) :=
  ⟨h.1.cons x, fun p e => by simp only [List.filter_cons, h.2 p e]⟩

theorem Shuffle.swap (a b : Fix) (l : List Fix) (h : a.pos ≠ b.pos ∨ a.stop ≠ b.stop) : Shuffle (a :: b :: l) (b :: a :: l) := by
  refine ⟨List.Perm.swap a b l, fun p e => ?_⟩
  simp only [List.filter_cons]
  by_cases h1 : a.pos = p ∧ a.stop = e
  · have h2 : ¬(b.pos = p ∧ b.stop = e) := by
      rintro ⟨rfl, rfl⟩
      rcases h with h | h
      · exact h h1.1
      · exact h h1.2
    simp [h1, h2]
  · simp [h1]

theorem Shuffle.stable {l s : List Fix} (h : Shuffle l s) (hs : s.Pairwise (fun a b => a.pos < b.pos ∨ a.pos = b.pos ∧ a.stop ≤ b.stop)) :
    StableSorted l s := ⟨h.1, hs, h.2⟩

/-- Edits that are segments, given in another order. -/
theorem Seg.applies_shuffle (segs : List Seg) (l : List Fix) (h : Shuffle l (Seg.edits 0 segs)) :
    AppliesTo (Seg.old segs) l (Seg.new segs) :=
  Seg.applies segs _ _ _ rfl rfl (h.stable (Seg.edits_sorted segs 0))

end Tsgolint.Fixer
