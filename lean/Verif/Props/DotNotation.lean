import Verif.Spec.DotNotation
import Verif.Proof.StableFix
/-! # C57: dot notation -/
namespace Tsgolint.DotNotation
open Fixer (Fix Bytes ascii AppliesTo Seg)

theorem letter_iff (b : UInt8) : letter b = true ↔ IdStart b := by
  have h : ∀ n : Fin 256, letter (UInt8.ofNat n) = true ↔ UInt8.ofNat n ∈ ascii "abcdefghijklmnopqrstuvwxyzABCDEFGHIJKLMNOPQRSTUVWXYZ_$" := by
    decide +kernel
  have := h ⟨b.toNat, b.toNat_lt⟩
  simpa [IdStart] using this

theorem part_iff (b : UInt8) :
    ((b ≥ 97 && b ≤ 122) || (b ≥ 65 && b ≤ 90) || (b ≥ 48 && b ≤ 57) || b == 95 || b == 36) = true ↔ IdPart b := by
  have h : ∀ n : Fin 256, let b := UInt8.ofNat n
      ((b ≥ 97 && b ≤ 122) || (b ≥ 65 && b ≤ 90) || (b ≥ 48 && b ≤ 57) || b == 95 || b == 36) = true ↔
      (b ∈ ascii "abcdefghijklmnopqrstuvwxyzABCDEFGHIJKLMNOPQRSTUVWXYZ_$" ∨ b ∈ ascii "0123456789") := by
    decide +kernel
  have := h ⟨b.toNat, b.toNat_lt⟩
  simpa [IdPart, IdStart] using this

theorem rest_iff (n : Bytes) : restLoop n = true ↔ ∀ b ∈ n, IdPart b := by
  induction n with
  | nil => simp [restLoop]
  | cons b n ih =>
    rw [restLoop]
    have h := part_iff b
    split
    · next hb => simp [ih, h.1 hb]
    · next hb =>
      have : ¬ IdPart b := fun hx => hb (h.2 hx)
      simp only [Bool.false_eq_true, List.mem_cons, forall_eq_or_imp, this, false_and]

theorem identifier_iff (n : Bytes) : isDotNotationIdentifier n = true ↔ IdentifierName n := by
  unfold isDotNotationIdentifier IdentifierName
  cases n with
  | nil => simp
  | cons b n =>
    have h := letter_iff b
    have hr : (∃ first rest, b :: n = first :: rest ∧ IdStart first ∧ ∀ x ∈ rest, IdPart x) ↔ IdStart b ∧ ∀ x ∈ n, IdPart x := by
      constructor
      · rintro ⟨f, r, he, h1, h2⟩; cases he; exact ⟨h1, h2⟩
      · rintro ⟨h1, h2⟩; exact ⟨b, n, rfl, h1, h2⟩
    rw [hr, ← h, ← rest_iff]
    cases hl : letter b <;> simp [hl]

theorem keyword_iff (n : Bytes) : isKeyword n = true ↔ Reserved n := by
  unfold isKeyword Reserved
  rw [List.contains_iff_mem, List.mem_map]
  have h1 : ∀ w ∈ es3Keywords, w ∈ es3Reserved := by decide +kernel
  have h2 : ∀ w ∈ es3Reserved, w ∈ es3Keywords := by decide +kernel
  constructor
  · rintro ⟨w, hw, rfl⟩; exact ⟨w, h1 w hw, rfl⟩
  · rintro ⟨w, hw, rfl⟩; exact ⟨w, h2 w hw, rfl⟩

theorem value_iff (p : Property) (v : Bytes) : value p = some v ↔ Key p v := by
  constructor
  · intro h
    cases p <;> simp [value] at h <;> subst h <;> constructor
  · rintro ⟨⟩ <;> rfl

/-- C57 (computed).  An access `obj[p]` is reported, to be written `obj.n`, exactly if the accesses allowed by type do not apply, `p`
denotes the property named `n`, `n` is an ASCII identifier name, no reserved word of ES3 unless keywords are allowed, and not
matched by the allowed pattern. -/
theorem C57_computed_iff (o : Options) (a : Access) (p : Property) (n : Bytes) :
    computed o a p = some n ↔
      skip o a = false ∧ Key p n ∧ IdentifierName n ∧ (o.allowKeywords = true ∨ ¬ Reserved n) ∧ ∀ m, o.pattern = some m → m n = false := by
  rw [← identifier_iff, ← keyword_iff, ← value_iff]
  unfold computed
  cases skip o a with
  | true => simp
  | false =>
    cases hv : value p with
    | none => simp
    | some v =>
      simp only [Bool.false_eq_true, if_false, true_and, Option.some.injEq]
      constructor
      · intro h
        split at h
        · cases h
        · next h1 =>
          split at h
          · cases h
          · next h2 =>
            split at h
            · cases h
            · next h3 =>
              cases h
              refine ⟨rfl, by simpa using h1, ?_, ?_⟩
              · cases h4 : o.allowKeywords <;> simp [h4] at h2 ⊢; exact h2
              · intro m hm; rw [hm] at h3; simpa using h3
      · rintro ⟨rfl, h1, h2, h3⟩
        have h4 : (!o.allowKeywords && isKeyword v) = false := by
          cases h4 : o.allowKeywords <;> simp [h4] at h2 ⊢; exact h2
        have h5 : o.pattern.any (fun m => m v) = false := by
          cases h5 : o.pattern with
          | none => rfl
          | some m => exact h3 m h5
        simp [h1, h4, h5]

example : computed ⟨false, false, false, false, false, none⟩ ⟨[], false, false⟩ (.str (ascii "foo")) = some (ascii "foo") ∧
    computed ⟨false, false, false, false, false, none⟩ ⟨[], false, false⟩ (.str (ascii "class")) = none := by decide +kernel

/-- C57 (dotted).  An access `obj.n` is reported, to be written with brackets, exactly if keywords are not allowed and `n` is an ES3
reserved word (and not a private name). -/
theorem C57_dotted_iff (o : Options) (identifier : Bool) (n m : Bytes) :
    dotted o identifier n = some m ↔ m = n ∧ o.allowKeywords = false ∧ identifier = true ∧ Reserved n := by
  rw [← keyword_iff]
  unfold dotted
  cases o.allowKeywords <;> cases identifier <;> cases isKeyword n <;> simp
  exact eq_comm

example : dotted ⟨false, false, false, false, false, none⟩ true (ascii "class") = some (ascii "class") := by decide +kernel

/-- C57 (no flip-flop).  What one listener produces the other does not report: no access is changed back and forth. -/
theorem C57_stable (o : Options) (a : Access) (p : Property) (n : Bytes) :
    (computed o a p = some n → dotted o true n = none) ∧
    (dotted o true n = some n → ∀ a', computed o a' (.str n) = none) := by
  constructor
  · intro h
    rw [C57_computed_iff] at h
    cases hd : dotted o true n with
    | none => rfl
    | some m =>
      rw [C57_dotted_iff] at hd
      rcases h.2.2.2.1 with h | h
      · rw [hd.2.1] at h; cases h
      · exact absurd hd.2.2.2 h
  · intro h a'
    rw [C57_dotted_iff] at h
    cases hd : computed o a' (.str n) with
    | none => rfl
    | some m =>
      rw [C57_computed_iff] at hd
      obtain ⟨-, hk, -, h2, -⟩ := hd
      cases hk
      rcases h2 with h2 | h2
      · rw [h.2.1] at h2; cases h2
      · exact absurd h.2.2.2 h2

theorem accessors_eq (decls : List Decl) (hex : ∀ d ∈ decls, ¬(d.getter = true ∧ d.setter = true)) (g s : Option Decl) :
    accessors g s decls = (g.or (decls.find? (·.getter)), s.or (decls.find? (·.setter))) := by
  induction decls generalizing g s with
  | nil => simp [accessors]
  | cons d ds ih =>
    have hd := hex d (List.mem_cons_self ..)
    have ih := fun g s => ih (fun x hx => hex x (List.mem_cons_of_mem _ hx)) g s
    rw [accessors]
    obtain ⟨dg, dset, p1, p2, p3⟩ := d
    cases g <;> cases s <;> cases dg <;> cases dset <;> simp_all [List.find?_cons]

/-- C57 (accessors).  The declaration whose modifiers count is the setter for writing and the getter for reading, where there are
accessors, and else the first. -/
theorem C57_relevant (decls : List Decl) (write : Bool) (hex : ∀ d ∈ decls, ¬(d.getter = true ∧ d.setter = true)) (d : Decl) :
    getRelevantDeclaration decls write = some d ↔ Decides decls write d := by
  unfold getRelevantDeclaration Decides
  cases decls with
  | nil => cases write <;> simp
  | cons first rest =>
    simp only [accessors_eq _ hex, Option.none_or]
    cases write <;> cases (first :: rest).find? (·.getter) <;> cases (first :: rest).find? (·.setter) <;> simp <;> exact eq_comm

example : getRelevantDeclaration [⟨true, false, false, false, false⟩, ⟨false, true, true, false, false⟩] true
    = some ⟨false, true, true, false, false⟩ := by decide

/-- C57 (allowances).  Exactly these accesses are allowed by type: private and protected ones with the respective option, according to
the declaration that counts; with the index signature option or the compiler's noPropertyAccessFromIndexSignature, properties
declared by an index signature, and undeclared ones — all under the compiler option, else those with an index signature. -/
theorem C57_skip_iff (o : Options) (a : Access) :
    skip o a = true ↔
      (∃ d, getRelevantDeclaration a.decls a.write = some d ∧
        ((o.allowPrivate = true ∧ d.isPrivate = true) ∨ (o.allowProtected = true ∧ d.isProtected = true) ∨
          ((o.allowIndexSignature = true ∨ o.fromIndexSignature = true) ∧ d.indexSignature = true))) ∨
      (a.decls = [] ∧ (o.fromIndexSignature = true ∨ (o.allowIndexSignature = true ∧ a.indexType = true))) := by
  unfold skip
  obtain ⟨ak, ap, apr, ai, fi, pat⟩ := o
  obtain ⟨decls, write, it⟩ := a
  cases hr : getRelevantDeclaration decls write with
  | none =>
    cases decls with
    | nil => cases ap <;> cases apr <;> cases ai <;> cases fi <;> cases it <;> simp
    | cons x xs => cases ap <;> cases apr <;> cases ai <;> cases fi <;> cases it <;> simp
  | some d =>
    cases decls with
    | nil => simp [getRelevantDeclaration] at hr
    | cons x xs =>
      obtain ⟨g, s, p1, p2, p3⟩ := d
      cases ap <;> cases apr <;> cases ai <;> cases fi <;> cases p1 <;> cases p2 <;> cases p3 <;> simp

example : skip ⟨true, true, false, false, false, none⟩ ⟨[⟨false, false, true, false, false⟩], false, false⟩ = true := by decide

/-- C57 (text, to a dot).  `obj[ "name" ]` becomes `obj.name`, an integer `5["name"]` becomes `5 .name`, `obj?.[ "name" ]` becomes
`obj?.name`; a space follows if asked for. -/
theorem C57_fix_computed (number space : Bool) (pre obj brackets post name : Bytes) :
    AppliesTo (pre ++ obj ++ brackets ++ post)
      (fixComputed none number space (pre ++ obj).length (pre ++ obj ++ brackets).length name)
      (pre ++ obj ++ (if number then ascii " ." else ascii ".") ++ name ++ (if space then ascii " " else []) ++ post) := by
  have := Seg.applies_sorted ([.keep pre, .keep obj, .sub [] (if number then ascii " ." else ascii "."), .sub brackets name] ++
    (if space then [.sub [] (ascii " ")] else []) ++ [.keep post])
  cases space <;> simpa [Seg.old, Seg.new, Seg.edits, fixComputed, List.append_assoc, Nat.add_assoc] using this

theorem C57_fix_optional (number space : Bool) (pre obj question brackets post name : Bytes) (left : Nat) :
    AppliesTo (pre ++ obj ++ question ++ brackets ++ post)
      (fixComputed (some (pre ++ obj ++ question).length) number space left (pre ++ obj ++ question ++ brackets).length name)
      (pre ++ obj ++ question ++ name ++ (if space then ascii " " else []) ++ post) := by
  have := Seg.applies_sorted ([.keep pre, .keep obj, .keep question, .sub brackets name] ++
    (if space then [.sub [] (ascii " ")] else []) ++ [.keep post])
  cases space <;> simpa [Seg.old, Seg.new, Seg.edits, fixComputed, List.append_assoc, Nat.add_assoc] using this

/-- `obj["name"]in x` -/
example : AppliesTo (ascii "obj[\"name\"]in x") (fixComputed none false true 3 11 (ascii "name")) (ascii "obj.name in x") :=
  C57_fix_computed false true [] (ascii "obj") (ascii "[\"name\"]") (ascii "in x") (ascii "name")

/-- C57 (hazard).  Comments between the brackets are lost. -/
theorem C57_hazard_comment :
    AppliesTo (ascii "obj[/* why */ \"name\"];") (fixComputed none false false 3 21 (ascii "name")) (ascii "obj.name;") :=
  C57_fix_computed false false [] (ascii "obj") (ascii "[/* why */ \"name\"]") (ascii ";") (ascii "name")

/-- C57 (numbers).  A number is written with a space before the dot exactly if its text has only digits and, between them,
underscores: otherwise a dot directly after it does not become part of it. -/
theorem C57_integer (text : Bytes) :
    isDecimalInteger text = true ↔ text ≠ [] ∧ ∀ (i : Nat) (b : UInt8), text[i]? = some b →
      b ∈ ascii "0123456789" ∨ (b ∈ ascii "_" ∧ 0 < i ∧ i + 1 < text.length) := by
  have dig : ∀ b : UInt8, ((b ≥ 48 && b ≤ 57) = true ↔ b ∈ ascii "0123456789") ∧ ((b == 95) = true ↔ b ∈ ascii "_") ∧
      ((b ∈ ascii "0123456789" ∨ b ∈ ascii "_") → (ascii ".eExXoObBnN").contains b = false) := by
    intro b
    have h : ∀ n : Fin 256, let b := UInt8.ofNat n
        ((b ≥ 48 && b ≤ 57) = true ↔ b ∈ ascii "0123456789") ∧ ((b == 95) = true ↔ b ∈ ascii "_") ∧
        ((b ∈ ascii "0123456789" ∨ b ∈ ascii "_") → (ascii ".eExXoObBnN").contains b = false) := by
      decide +kernel
    have := h ⟨b.toNat, b.toNat_lt⟩
    simpa using this
  unfold isDecimalInteger
  by_cases ht : text = []
  · simp [ht]
  · simp only [ht, if_false, ne_eq, not_false_eq_true, true_and]
    split
    · next h =>
      simp only [Bool.false_eq_true, false_iff]
      intro hall
      rw [List.any_eq_true] at h
      obtain ⟨b, hb, hc⟩ := h
      obtain ⟨i, hi⟩ := List.getElem?_of_mem hb
      have := (dig b).2.2 ((hall i b hi).imp id (·.1))
      rw [this] at hc; cases hc
    · rw [List.all_eq_true]
      constructor
      · intro h i b hb
        have hi : i < text.length := by
          rcases Nat.lt_or_ge i text.length with h | h
          · exact h
          · rw [List.getElem?_eq_none h] at hb; cases hb
        have := h i (List.mem_range.2 hi)
        rw [hb] at this
        simp only [Bool.or_eq_true, Bool.and_eq_true (b == 95 && _), (dig b).1] at this
        rcases this with h | h
        · exact .inl h
        · right
          simp only [Bool.and_eq_true, (dig b).2.1, decide_eq_true_eq] at h
          exact ⟨h.1.1, h.1.2, by omega⟩
      · intro h i hi
        have hi := List.mem_range.1 hi
        rw [List.getElem?_eq_getElem hi]
        simp only [Bool.or_eq_true, (dig _).1]
        rcases h i _ (List.getElem?_eq_getElem hi) with h | h
        · exact .inl h
        · right
          simp only [Bool.and_eq_true, (dig _).2.1, decide_eq_true_eq]
          exact ⟨⟨h.1, h.2.1⟩, by omega⟩

example : isDecimalInteger (ascii "1_000") = true ∧ isDecimalInteger (ascii "1e3") = false ∧ isDecimalInteger (ascii "1_") = false := by decide +kernel

/-- C57 (space).  The name is separated from what follows: the next character is no identifier part, or a space is inserted. -/
theorem C57_space (part : Char → Bool) (next : Option Char) :
    needsSpace part next = true ∨ ∀ c, next = some c → part c = false := by
  cases next with
  | none => right; intro c h; cases h
  | some c =>
    cases h : part c with
    | true => left; exact h
    | false => right; intro c' hc; cases hc; exact h

/-- C57 (text, to brackets).  `obj.name` becomes `obj["name"]`, `obj?.name` becomes `obj?.["name"]`; what stands between the object,
the dot and the name stays.  Nothing is changed in `let.name`, as `let["name"]` would declare a variable. -/
theorem C57_fix_dotted (isLet : Bool) (pre obj dot gap name post text : Bytes) :
    AppliesTo (pre ++ obj ++ dot ++ gap ++ name ++ post)
      (fixDotted false isLet (pre ++ obj).length (pre ++ obj ++ dot).length (pre ++ obj ++ dot ++ gap).length
        (pre ++ obj ++ dot ++ gap ++ name).length text)
      (if isLet then pre ++ obj ++ dot ++ gap ++ name ++ post
        else pre ++ obj ++ gap ++ (ascii "[\"" ++ text ++ ascii "\"]") ++ post) := by
  cases isLet
  · have := Seg.applies_sorted [.keep pre, .keep obj, .sub dot [], .keep gap, .sub name (ascii "[\"" ++ text ++ ascii "\"]"), .keep post]
    simpa [Seg.old, Seg.new, Seg.edits, fixDotted, List.append_assoc, Nat.add_assoc] using this
  · have := Seg.applies_sorted [.keep (pre ++ obj ++ dot ++ gap ++ name ++ post)]
    simpa [Seg.old, Seg.new, Seg.edits, fixDotted] using this

theorem C57_fix_dotted_optional (isLet : Bool) (pre obj question name post text : Bytes) (dot dotEnd : Nat) :
    AppliesTo (pre ++ obj ++ question ++ name ++ post)
      (fixDotted true isLet dot dotEnd (pre ++ obj ++ question).length (pre ++ obj ++ question ++ name).length text)
      (pre ++ obj ++ question ++ (ascii "[\"" ++ text ++ ascii "\"]") ++ post) := by
  have := Seg.applies_sorted [.keep pre, .keep obj, .keep question, .sub name (ascii "[\"" ++ text ++ ascii "\"]"), .keep post]
  simpa [Seg.old, Seg.new, Seg.edits, fixDotted, List.append_assoc, Nat.add_assoc] using this

example : AppliesTo (ascii "a.class.b") (fixDotted false false 1 2 2 7 (ascii "class")) (ascii "a[\"class\"].b") :=
  C57_fix_dotted false [] (ascii "a") (ascii ".") [] (ascii "class") (ascii ".b") (ascii "class")

end Tsgolint.DotNotation
