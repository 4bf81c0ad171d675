import Verif.Proof.Comments
/-!
# C132: the comments of a range
-/
namespace Tsgolint.Comments

theorem sorted_pos (items : List Item) (pos : Nat) : (commentsOf pos items).Pairwise (fun a b => a.pos < b.pos) := by
  have h1 := commentsOf_sorted items pos
  have h2 := commentsOf_ge items pos
  exact h1.imp_of_mem (fun {a b} ha _ h => by have := h2 a ha; omega)

/-- C132.  Iterating over the comments of a range visits, in order and once each, the comments that stand between the beginning of the
range and the first token after it, and that begin before the end of the range; it ends as soon as the loop over them is left. -/
theorem C132_visited (wide : Char → Bool) (pos stop : Nat) (text rest : Text) (items : List Item) (h : Between wide text items rest)
    (yield : S → Comment → S × Bool) (s : S) :
    commentsInRange wide pos stop text yield s = foldUntil yield s ((commentsOf pos items).filter (fun c => decide (c.pos < stop))) := by
  obtain ⟨rfl, ho, hl, ht⟩ := h
  have hlen : (itemsText items).length ≤ (itemsText items ++ rest).length := by simp
  have e1 : trailingComments wide pos (itemsText items ++ rest) = firstLine pos items := scan_trailing wide rest ht items _ pos hlen ho hl
  have e2 : leadingComments wide pos (itemsText items ++ rest) = otherLines pos items := scan_leading wide rest ht items _ pos hlen ho hl
  have hs := sorted_pos items pos
  rw [split] at hs ⊢
  obtain ⟨hs1, hs2, _⟩ := List.pairwise_append.1 hs
  unfold commentsInRange
  rw [e1, e2, List.filter_append, feed_eq stop yield _ _ s hs1]
  rcases hy : feed stop yield s (firstLine pos items) with ⟨s', b⟩
  cases b
  · have := feed_eq stop yield (otherLines pos items) [] s' hs2
    simp only [List.append_nil] at this
    simp [this, foldUntil]
  · simp

/-- C132.  The test for comments in a range holds exactly if one of these comments exists. -/
theorem C132_has_iff (wide : Char → Bool) (pos stop : Nat) (text rest : Text) (items : List Item) (h : Between wide text items rest) :
    hasCommentsInRange wide pos stop text = true ↔ ∃ c ∈ commentsOf pos items, c.pos < stop := by
  unfold hasCommentsInRange
  rw [C132_visited wide pos stop text rest items h]
  cases hf : (commentsOf pos items).filter (fun c => decide (c.pos < stop)) with
  | nil =>
    rw [List.filter_eq_nil_iff] at hf
    constructor
    · intro h; simp [foldUntil] at h
    · rintro ⟨c, hc, h⟩; exact absurd h (by simpa using hf c hc)
  | cons c cs =>
    have hm : c ∈ (commentsOf pos items).filter (fun c => decide (c.pos < stop)) := by rw [hf]; simp
    rw [List.mem_filter] at hm
    constructor
    · intro _; exact ⟨c, hm.1, by simpa using hm.2⟩
    · intro _; simp [foldUntil]

/-- The comments found are ranges of the text that begin with `//` or `/*`, inside what stands before the token; they do not overlap. -/
theorem C132_ranges : ∀ (items : List Item) (pos : Nat) (c : Comment), c ∈ commentsOf pos items →
    ∃ before i after, items = before ++ i :: after ∧ c.pos = pos + (itemsText before).length ∧ c.stop = c.pos + i.text.length ∧
      ((c.block = false ∧ ∃ b, i = .line b) ∨ (c.block = true ∧ ∃ b, i = .block b))
  | [], _, c, h => by simp [commentsOf] at h
  | i :: is, pos, c, h => by
    have tail : c ∈ commentsOf (pos + i.text.length) is → ∃ before i' after, i :: is = before ++ i' :: after ∧
        c.pos = pos + (itemsText before).length ∧ c.stop = c.pos + i'.text.length ∧
        ((c.block = false ∧ ∃ b, i' = .line b) ∨ (c.block = true ∧ ∃ b, i' = .block b)) := by
      intro h
      obtain ⟨before, i', after, e, h1, h2, h3⟩ := C132_ranges is (pos + i.text.length) c h
      exact ⟨i :: before, i', after, by simp [e], by simp [itemsText]; omega, h2, h3⟩
    match i, h, tail with
    | .blank a, h, tail => exact tail h
    | .newline a, h, tail => exact tail h
    | .line b, h, tail =>
      rcases List.mem_cons.1 h with rfl | h
      · exact ⟨[], .line b, is, rfl, by simp [itemsText], rfl, .inl ⟨rfl, b, rfl⟩⟩
      · exact tail h
    | .block b, h, tail =>
      rcases List.mem_cons.1 h with rfl | h
      · exact ⟨[], .block b, is, rfl, by simp [itemsText], rfl, .inr ⟨rfl, b, rfl⟩⟩
      · exact tail h

theorem C132_disjoint (pos : Nat) (items : List Item) : (commentsOf pos items).Pairwise (fun a b => a.stop ≤ b.pos) :=
  commentsOf_sorted items pos

/-- Comments behind the first token of the range are not found, wherever the range ends. -/
theorem C132_hazard_behind (wide : Char → Bool) (pos stop : Nat) (token after : Text) (ht : TokenNext wide (token ++ after)) :
    hasCommentsInRange wide pos stop (token ++ after) = false := by
  have := C132_has_iff wide pos stop (token ++ after) (token ++ after) [] ⟨rfl, by simp, trivial, ht⟩
  simpa [commentsOf] using this

private def someItems : List Item := [.blank ' ', .block ['a', '*'], .line ['b'], .newline '\n', .blank ' ', .line ['/', 'c'], .newline '\r', .newline '\n']

private theorem someBetween : Between (fun _ => false) (" /*a**///b\n ///c\r\n} // d".toList) someItems "} // d".toList := by
  refine ⟨by decide, ?_, ?_, ?_⟩
  · intro i hi
    simp [someItems] at hi
    rcases hi with rfl | rfl | rfl | rfl | rfl | rfl | rfl | rfl
    · exact ⟨by decide, by decide, by decide, by decide⟩
    · rintro ⟨a, b, h⟩
      match a, h with
      | [], h => simp at h
      | [_], h => simp at h
      | [_, _], h => simp at h
      | _ :: _ :: _ :: _, h => simp at h
    · simp only [Item.Ok, List.mem_cons, List.not_mem_nil, or_false]; rintro c rfl; decide
    · exact .inl rfl
    · exact ⟨by decide, by decide, by decide, by decide⟩
    · simp only [Item.Ok, List.mem_cons, List.not_mem_nil, or_false]; rintro c (rfl | rfl) <;> decide
    · exact .inr rfl
    · exact .inl rfl
  · have : "} // d".toList = ['}', ' ', '/', '/', ' ', 'd'] := by decide
    rw [this]
    simp [someItems, LinesEnd, itemsText, Item.text, isLineBreak]
  · have : "} // d".toList = ['}', ' ', '/', '/', ' ', 'd'] := by decide
    rw [this]
    exact ⟨by decide, by decide, by decide, by decide⟩

example : commentsOf 7 someItems = [⟨true, 8, 14⟩, ⟨false, 14, 17⟩, ⟨false, 19, 23⟩] := by decide
example : commentsInRange (fun _ => false) 7 19 " /*a**///b\n ///c\r\n} // d".toList (fun l c => (l ++ [c.pos], true)) [] = [8, 14] := by
  rw [C132_visited _ _ _ _ _ _ someBetween]; decide
example : hasCommentsInRange (fun _ => false) 7 30 " /*a**///b\n ///c\r\n} // d".toList = true :=
  (C132_has_iff _ _ _ _ _ _ someBetween).2 ⟨⟨true, 8, 14⟩, by decide, by decide⟩
example : hasCommentsInRange (fun _ => false) 7 30 "x /* y */ }".toList = false :=
  C132_hazard_behind _ 7 30 ['x'] " /* y */ }".toList ⟨by decide, by decide, by decide, by decide⟩

end Tsgolint.Comments
