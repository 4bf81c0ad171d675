import Verif.Model.FixParts
import Verif.Spec.Highlights
import Verif.Proof.StableFix
/-! # C142: what the parts of a fix do to a text -/
namespace Tsgolint.FixParts
open Fixer (Bytes Fix ascii AppliesTo Seg)
open Highlights (Place Range Scanner trim Reads at')

theorem trim_at {token : Scanner} {before gap first more : Bytes} (h : Reads token before gap first) :
    trim token (at' before gap (first ++ more)) = ⟨before.length + gap.length, before.length + gap.length + (first ++ more).length⟩ := by
  unfold Reads at h
  simp [trim, at', h]

/-- C142 (before).  The text is put directly before the first token of the node: white space and comments before the node stay before the text. -/
theorem C142_before (token : Scanner) (before gap first more after text : Bytes) (h : Reads token before gap first) :
    AppliesTo (before ++ gap ++ (first ++ more) ++ after) [insertBefore token (at' before gap (first ++ more)) text] (before ++ gap ++ text ++ (first ++ more) ++ after) := by
  have := Seg.applies_sorted [.keep (before ++ gap), .sub [] text, .keep (first ++ more ++ after)]
  simpa [Seg.old, Seg.new, Seg.edits, insertBefore, trim_at h, List.append_assoc] using this

/-- C142 (after).  The text is put directly after the node. -/
theorem C142_after (before gap node after text : Bytes) :
    AppliesTo (before ++ gap ++ node ++ after) [insertAfter (at' before gap node) text] (before ++ gap ++ node ++ text ++ after) := by
  have := Seg.applies_sorted [.keep (before ++ gap ++ node), .sub [] text, .keep after]
  simpa [Seg.old, Seg.new, Seg.edits, insertAfter, at', List.append_assoc, Nat.add_assoc, Int.add_assoc] using this

/-- C142 (replace).  The node is replaced; white space and comments before it stay. -/
theorem C142_replace (token : Scanner) (before gap first more after text : Bytes) (h : Reads token before gap first) :
    AppliesTo (before ++ gap ++ (first ++ more) ++ after) [replace token (at' before gap (first ++ more)) text] (before ++ gap ++ text ++ after) := by
  have := Seg.applies_sorted [.keep (before ++ gap), .sub (first ++ more) text, .keep after]
  simpa [Seg.old, Seg.new, Seg.edits, replace, replaceRange, trim_at h, List.append_assoc] using this

/-- C142 (remove).  The node is removed, and nothing else. -/
theorem C142_remove (token : Scanner) (before gap first more after : Bytes) (h : Reads token before gap first) :
    AppliesTo (before ++ gap ++ (first ++ more) ++ after) [remove token (at' before gap (first ++ more))] (before ++ gap ++ after) := by
  simpa [remove] using C142_replace token before gap first more after [] h

/-- C142 (ranges).  A range is replaced or removed as it is, with the white space and comments it begins with. -/
theorem C142_range (before old after text : Bytes) :
    AppliesTo (before ++ old ++ after) [replaceRange ⟨before.length, before.length + old.length⟩ text] (before ++ text ++ after) ∧
    AppliesTo (before ++ old ++ after) [removeRange ⟨before.length, before.length + old.length⟩] (before ++ after) := by
  constructor
  · have := Seg.applies_sorted [.keep before, .sub old text, .keep after]
    simpa [Seg.old, Seg.new, Seg.edits, replaceRange, List.append_assoc] using this
  · have := Seg.applies_sorted [.keep before, .sub old [], .keep after]
    simpa [Seg.old, Seg.new, Seg.edits, replaceRange, removeRange, List.append_assoc] using this

/-- C142 (around).  Texts inserted before and after the same node enclose it, even an empty one; in the order in which they are given. -/
theorem C142_around (token : Scanner) (before gap first more after l r : Bytes) (h : Reads token before gap first) :
    AppliesTo (before ++ gap ++ (first ++ more) ++ after) [insertBefore token (at' before gap (first ++ more)) l, insertAfter (at' before gap (first ++ more)) r]
      (before ++ gap ++ l ++ (first ++ more) ++ r ++ after) := by
  have e : insertBefore token (at' before gap (first ++ more)) l = ⟨l, before.length + gap.length, before.length + gap.length⟩ := by
    simp [insertBefore, trim_at h]
  rw [e]
  have := Seg.applies_sorted [.keep (before ++ gap), .sub [] l, .keep (first ++ more), .sub [] r, .keep after]
  simpa [Seg.old, Seg.new, Seg.edits, insertAfter, at', List.append_assoc, Nat.add_assoc, Int.add_assoc] using this

/-- C142 (insert and replace).  When a fix both replaces a node and inserts a text before it, the inserted text comes first, whichever of the two edits is given
first, as long as the node is not empty. -/
theorem C142_before_replace (token : Scanner) (before gap first more after l text : Bytes) (h : Reads token before gap first) (hne : first ≠ []) :
    let b := insertBefore token (at' before gap (first ++ more)) l
    let s := replace token (at' before gap (first ++ more)) text
    AppliesTo (before ++ gap ++ (first ++ more) ++ after) [b, s] (before ++ gap ++ l ++ text ++ after) ∧
    AppliesTo (before ++ gap ++ (first ++ more) ++ after) [s, b] (before ++ gap ++ l ++ text ++ after) := by
  intro b s
  have hpos : 0 < first.length := List.length_pos_iff.2 hne
  have main : AppliesTo (before ++ gap ++ (first ++ more) ++ after) [b, s] (before ++ gap ++ l ++ text ++ after) := by
    have := Seg.applies_sorted [.keep (before ++ gap), .sub [] l, .sub (first ++ more) text, .keep after]
    simpa [Seg.old, Seg.new, Seg.edits, b, s, insertBefore, replace, replaceRange, trim_at h, List.append_assoc] using this
  refine ⟨main, ?_⟩
  have := Seg.applies_shuffle [.keep (before ++ gap), .sub [] l, .sub (first ++ more) text, .keep after] [s, b]
    (by
      have e : Seg.edits 0 [.keep (before ++ gap), .sub [] l, .sub (first ++ more) text, .keep after] = [b, s] := by
        simp [Seg.edits, b, s, insertBefore, replace, replaceRange, trim_at h]
      rw [e]
      refine Fixer.Shuffle.swap s b [] (.inr ?_)
      simp [b, s, insertBefore, replace, replaceRange, trim_at h]
      omega)
  simpa [Seg.old, Seg.new, List.append_assoc] using this

/-- C142 (fix or suggestion).  A report that may be fixed or only suggested carries its edits once: as a fix and no suggestion, or as one suggestion and no fix;
with neither kind of edits asked for it carries none, but is made. -/
theorem C142_either {File Node R : Type} (trim : Option File → Node → R) (fx : Report.FixState) (b : Report.Builder File) (node : Node) (fix : Bool)
    (msg suggestionMsg : Report.Message) (fixes : List (Report.Fix R)) :
    ∃ (ran : List (Report.Effect File R)) (d : Report.Diagnostic File R),
      Report.report trim fx b (fixesOrSuggestions node fix msg suggestionMsg fixes) = ran ++ [.emitted d] ∧ (∀ e ∈ ran, ∀ d', e ≠ .emitted d') ∧
      d.range = trim b.file node ∧ d.message = msg ∧ d.ruleName = b.ruleName ∧
      d.fixes = (if fix then some (if fx.fix then fixes else []) else none) ∧
      d.suggestions = (if fix then none else some (if fx.fixSuggestions then [⟨suggestionMsg, fixes⟩] else [])) := by
  obtain ⟨f1, f2⟩ := fx
  cases fix <;> cases f1 <;> cases f2 <;>
    first
      | exact ⟨[], _, rfl, by simp, rfl, rfl, rfl, rfl, rfl⟩
      | exact ⟨[.ranFixes], _, rfl, by simp, rfl, rfl, rfl, rfl, rfl⟩
      | exact ⟨[.ranSuggestions], _, rfl, by simp, rfl, rfl, rfl, rfl, rfl⟩

/-! ## Cases -/

example : Reads (fun p => ⟨p + 1, p + 2⟩) (ascii "a +") (ascii " ") (ascii "b") := rfl
example : (replace (fun p => ⟨p + 1, p + 2⟩) (at' (ascii "a +") (ascii " ") (ascii "b")) (ascii "c")) = ⟨ascii "c", 4, 5⟩ := rfl

end Tsgolint.FixParts
