import Verif.Spec.Comments
namespace Tsgolint.Comments

/-- The comments up to the first line end. -/
def firstLine : Nat → List Item → List Comment
  | _, [] => []
  | _, .newline _ :: _ => []
  | pos, .line body :: is => ⟨false, pos, pos + (Item.line body).text.length⟩ :: firstLine (pos + (Item.line body).text.length) is
  | pos, .block body :: is => ⟨true, pos, pos + (Item.block body).text.length⟩ :: firstLine (pos + (Item.block body).text.length) is
  | pos, .blank _ :: is => firstLine (pos + 1) is

/-- The comments after the first line end. -/
def otherLines : Nat → List Item → List Comment
  | _, [] => []
  | pos, .newline _ :: is => commentsOf (pos + 1) is
  | pos, i :: is => otherLines (pos + i.text.length) is

theorem split : ∀ (items : List Item) (pos : Nat), commentsOf pos items = firstLine pos items ++ otherLines pos items
  | [], _ => rfl
  | .newline _ :: _, _ => by simp [commentsOf, firstLine, otherLines, Item.text]
  | .blank _ :: is, pos => by simp [commentsOf, firstLine, otherLines, Item.text, split is]
  | .line b :: is, pos => by simp only [commentsOf, firstLine, otherLines, split is, List.cons_append]
  | .block b :: is, pos => by simp only [commentsOf, firstLine, otherLines, split is, List.cons_append]

theorem lineLength_eq (body rest : Text) (hb : ∀ c ∈ body, isLineBreak c = false) (hr : ∀ c ∈ rest.head?, isLineBreak c = true) :
    lineLength (body ++ rest) = body.length := by
  induction body with
  | nil =>
    cases rest with
    | nil => rfl
    | cons c cs => simp [lineLength, hr c (by simp)]
  | cons c cs ih =>
    simp only [List.cons_append, lineLength, hb c (by simp), List.length_cons]
    rw [if_neg (by simp), ih (fun d hd => hb d (by simp [hd]))]

theorem blockLength_eq (body rest : Text) (hb : ¬ ['*', '/'] <:+: body ++ ['*']) :
    blockLength (body ++ ['*', '/'] ++ rest) = body.length + 2 := by
  induction body with
  | nil => rfl
  | cons c cs ih =>
    have ih := ih (fun ⟨a, b, h⟩ => hb ⟨c :: a, b, by simp at h ⊢; exact h⟩)
    have hne : ∀ r, ¬ (c = '*' ∧ cs ++ ['*', '/'] ++ rest = '/' :: r) := by
      rintro r ⟨rfl, h⟩
      cases cs with
      | nil => simp at h
      | cons d ds =>
        simp at h
        exact hb ⟨[], ds ++ ['*'], by simp [h.1]⟩
    have : blockLength (c :: (cs ++ ['*', '/'] ++ rest)) = blockLength (cs ++ ['*', '/'] ++ rest) + 1 := by
      rw [blockLength]
      intro r hc hr
      exact hne r ⟨hc, hr⟩
    simp only [List.cons_append, List.length_cons] at this ih ⊢
    rw [this, ih]

theorem scan_token (wide trailing fuel collecting pos rest) (h : TokenNext wide rest) : scan wide trailing fuel collecting pos rest = [] := by
  cases fuel with
  | zero => rfl
  | succ fuel =>
    unfold scan
    split
    · rfl
    · exact absurd rfl (h.2.2.2 rfl).1
    · exact absurd rfl (h.2.2.2 rfl).2
    · obtain ⟨h1, h2, h3, _⟩ := h
      simp [h1, h2, h3]

theorem text_pos (i : Item) : 0 < i.text.length := by cases i <;> simp [Item.text]

theorem scan_blank (wide trailing fuel collecting pos c rest) (h : (Item.blank c).Ok wide) :
    scan wide trailing (fuel + 1) collecting pos (c :: rest) = scan wide trailing fuel collecting (pos + 1) rest := by
  obtain ⟨h1, h2, h3, h4⟩ := h
  conv => lhs; unfold scan
  split
  · rename_i h; simp at h
  · rename_i h; simp at h; exact absurd h.1 h4
  · rename_i h; simp at h; exact absurd h.1 h4
  · rename_i h; simp at h; obtain ⟨rfl, rfl⟩ := h; simp [h1, h2, h3]

theorem scan_newline (wide trailing fuel collecting pos c rest) (h : (Item.newline c).Ok wide) :
    scan wide trailing (fuel + 1) collecting pos (c :: rest) = if trailing then [] else scan wide trailing fuel true (pos + 1) rest := by
  rcases h with rfl | rfl <;> simp [scan]

theorem scan_line (wide trailing fuel collecting pos body rest) (h : (Item.line body).Ok wide) (hr : ∀ c ∈ rest.head?, isLineBreak c = true) :
    scan wide trailing (fuel + 1) collecting pos ((Item.line body).text ++ rest) =
      (if collecting then [⟨false, pos, pos + (Item.line body).text.length⟩] else []) ++
        scan wide trailing fuel collecting (pos + (Item.line body).text.length) rest := by
  have e := lineLength_eq body rest h hr
  have hl : (Item.line body).text.length = 2 + body.length := by simp [Item.text]; omega
  rw [hl]
  simp only [Item.text, List.cons_append]
  conv => lhs; unfold scan
  simp only [e, List.drop_left]

theorem scan_block (wide trailing fuel collecting pos body rest) (h : (Item.block body).Ok wide) :
    scan wide trailing (fuel + 1) collecting pos ((Item.block body).text ++ rest) =
      (if collecting then [⟨true, pos, pos + (Item.block body).text.length⟩] else []) ++
        scan wide trailing fuel collecting (pos + (Item.block body).text.length) rest := by
  have e := blockLength_eq body rest h
  have hl : (Item.block body).text.length = 2 + (body.length + 2) := by simp [Item.text]; omega
  have hd : (body ++ ['*', '/'] ++ rest).drop (body.length + 2) = rest := by
    rw [show body.length + 2 = (body ++ ['*', '/']).length by simp, List.drop_left]
  rw [hl]
  simp only [Item.text, List.cons_append]
  conv => lhs; unfold scan
  simp only [e, hd]

theorem scan_all (wide rest) (ht : TokenNext wide rest) : ∀ (items : List Item) (fuel pos : Nat), (itemsText items).length ≤ fuel →
    (∀ i ∈ items, i.Ok wide) → LinesEnd items rest → scan wide false fuel true pos (itemsText items ++ rest) = commentsOf pos items
  | [], fuel, pos, _, _, _ => by simpa [itemsText, commentsOf] using scan_token wide false fuel true pos rest ht
  | i :: is, 0, pos, hf, _, _ => absurd hf (by have := text_pos i; simp [itemsText]; intro h; simp [h] at this)
  | i :: is, fuel + 1, pos, hf, ho, hl => by
    have hlen := text_pos i
    have hf' : (itemsText is).length ≤ fuel := by simp [itemsText] at hf; omega
    have hi := ho i (by simp)
    have ho' : ∀ j ∈ is, j.Ok wide := fun j hj => ho j (by simp [hj])
    rw [show itemsText (i :: is) = i.text ++ itemsText is from rfl, List.append_assoc]
    match i, hi, hl with
    | .blank c, hi, hl =>
      rw [show (Item.blank c).text ++ (itemsText is ++ rest) = c :: (itemsText is ++ rest) from rfl, scan_blank _ _ _ _ _ _ _ hi]
      exact scan_all wide rest ht is fuel _ hf' ho' hl
    | .newline c, hi, hl =>
      rw [show (Item.newline c).text ++ (itemsText is ++ rest) = c :: (itemsText is ++ rest) from rfl, scan_newline _ _ _ _ _ _ _ hi]
      exact scan_all wide rest ht is fuel _ hf' ho' hl
    | .line b, hi, hl =>
      rw [scan_line _ _ _ _ _ _ _ hi hl.1, scan_all wide rest ht is fuel _ hf' ho' hl.2]; rfl
    | .block b, hi, hl =>
      rw [scan_block _ _ _ _ _ _ _ hi, scan_all wide rest ht is fuel _ hf' ho' hl]; rfl

theorem scan_trailing (wide rest) (ht : TokenNext wide rest) : ∀ (items : List Item) (fuel pos : Nat), (itemsText items).length ≤ fuel →
    (∀ i ∈ items, i.Ok wide) → LinesEnd items rest → scan wide true fuel true pos (itemsText items ++ rest) = firstLine pos items
  | [], fuel, pos, _, _, _ => by simpa [itemsText, firstLine] using scan_token wide true fuel true pos rest ht
  | i :: is, 0, pos, hf, _, _ => absurd hf (by have := text_pos i; simp [itemsText]; intro h; simp [h] at this)
  | i :: is, fuel + 1, pos, hf, ho, hl => by
    have hlen := text_pos i
    have hf' : (itemsText is).length ≤ fuel := by simp [itemsText] at hf; omega
    have hi := ho i (by simp)
    have ho' : ∀ j ∈ is, j.Ok wide := fun j hj => ho j (by simp [hj])
    rw [show itemsText (i :: is) = i.text ++ itemsText is from rfl, List.append_assoc]
    match i, hi, hl with
    | .blank c, hi, hl =>
      rw [show (Item.blank c).text ++ (itemsText is ++ rest) = c :: (itemsText is ++ rest) from rfl, scan_blank _ _ _ _ _ _ _ hi]
      exact scan_trailing wide rest ht is fuel _ hf' ho' hl
    | .newline c, hi, hl =>
      rw [show (Item.newline c).text ++ (itemsText is ++ rest) = c :: (itemsText is ++ rest) from rfl, scan_newline _ _ _ _ _ _ _ hi]
      rfl
    | .line b, hi, hl =>
      rw [scan_line _ _ _ _ _ _ _ hi hl.1, scan_trailing wide rest ht is fuel _ hf' ho' hl.2]; rfl
    | .block b, hi, hl =>
      rw [scan_block _ _ _ _ _ _ _ hi, scan_trailing wide rest ht is fuel _ hf' ho' hl]; rfl

theorem scan_leading (wide rest) (ht : TokenNext wide rest) : ∀ (items : List Item) (fuel pos : Nat), (itemsText items).length ≤ fuel →
    (∀ i ∈ items, i.Ok wide) → LinesEnd items rest → scan wide false fuel false pos (itemsText items ++ rest) = otherLines pos items
  | [], fuel, pos, _, _, _ => by simpa [itemsText, otherLines] using scan_token wide false fuel false pos rest ht
  | i :: is, 0, pos, hf, _, _ => absurd hf (by have := text_pos i; simp [itemsText]; intro h; simp [h] at this)
  | i :: is, fuel + 1, pos, hf, ho, hl => by
    have hlen := text_pos i
    have hf' : (itemsText is).length ≤ fuel := by simp [itemsText] at hf; omega
    have hi := ho i (by simp)
    have ho' : ∀ j ∈ is, j.Ok wide := fun j hj => ho j (by simp [hj])
    rw [show itemsText (i :: is) = i.text ++ itemsText is from rfl, List.append_assoc]
    match i, hi, hl with
    | .blank c, hi, hl =>
      rw [show (Item.blank c).text ++ (itemsText is ++ rest) = c :: (itemsText is ++ rest) from rfl, scan_blank _ _ _ _ _ _ _ hi]
      exact scan_leading wide rest ht is fuel _ hf' ho' hl
    | .newline c, hi, hl =>
      rw [show (Item.newline c).text ++ (itemsText is ++ rest) = c :: (itemsText is ++ rest) from rfl, scan_newline _ _ _ _ _ _ _ hi]
      exact scan_all wide rest ht is fuel _ hf' ho' hl
    | .line b, hi, hl =>
      rw [scan_line _ _ _ _ _ _ _ hi hl.1, scan_leading wide rest ht is fuel _ hf' ho' hl.2]; rfl
    | .block b, hi, hl =>
      rw [scan_block _ _ _ _ _ _ _ hi, scan_leading wide rest ht is fuel _ hf' ho' hl]; rfl

theorem commentsOf_ge : ∀ (items : List Item) (pos : Nat), ∀ c ∈ commentsOf pos items, pos ≤ c.pos ∧ c.pos < c.stop
  | [], _, c, h => by simp [commentsOf] at h
  | .blank _ :: is, pos, c, h => by have := commentsOf_ge is _ c h; omega
  | .newline _ :: is, pos, c, h => by have := commentsOf_ge is _ c h; omega
  | .line b :: is, pos, c, h => by
    rcases List.mem_cons.1 h with rfl | h
    · simp [Item.text]
    · have := commentsOf_ge is _ c h; omega
  | .block b :: is, pos, c, h => by
    rcases List.mem_cons.1 h with rfl | h
    · simp [Item.text]
    · have := commentsOf_ge is _ c h; omega

theorem commentsOf_sorted : ∀ (items : List Item) (pos : Nat), (commentsOf pos items).Pairwise (fun a b => a.stop ≤ b.pos)
  | [], _ => .nil
  | .blank _ :: is, pos => commentsOf_sorted is _
  | .newline _ :: is, pos => commentsOf_sorted is _
  | .line b :: is, pos => .cons (fun c h => (commentsOf_ge is _ c h).1) (commentsOf_sorted is _)
  | .block b :: is, pos => .cons (fun c h => (commentsOf_ge is _ c h).1) (commentsOf_sorted is _)

/-- One loop: the comments before the end of the range; and whether it was left by `yield`. -/
theorem feed_eq (stop : Nat) (yield : S → Comment → S × Bool) : ∀ (cs more : List Comment) (s : S), cs.Pairwise (fun a b => a.pos < b.pos) →
    foldUntil yield s (cs.filter (fun c => decide (c.pos < stop)) ++ more) =
      if (feed stop yield s cs).2 then (feed stop yield s cs).1 else foldUntil yield (feed stop yield s cs).1 more
  | [], more, s, _ => by simp [feed]
  | c :: cs, more, s, hp => by
    obtain ⟨h1, h2⟩ := List.pairwise_cons.1 hp
    by_cases h : stop ≤ c.pos
    · have hf : (c :: cs).filter (fun c => decide (c.pos < stop)) = [] := by
        rw [List.filter_eq_nil_iff]
        intro d hd
        rcases List.mem_cons.1 hd with rfl | hd
        · simp; omega
        · have := h1 d hd; simp; omega
      rw [hf]; simp [feed, h]
    · have hf : (c :: cs).filter (fun c => decide (c.pos < stop)) = c :: cs.filter (fun c => decide (c.pos < stop)) := by
        rw [List.filter_cons, if_pos (by simp; omega)]
      rw [hf]
      rw [List.cons_append, foldUntil, feed, if_neg h]
      rcases hy : yield s c with ⟨s', b⟩
      cases b
      · simp
      · simpa using feed_eq stop yield cs more s' h2

end Tsgolint.Comments
