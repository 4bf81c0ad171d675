import Verif.Spec.Specifier
namespace Tsgolint.Specifier
open Tsgolint.Payload

/-! ## JSON -/

theorem onlyStrings_iff (l : List Json) (names : List String) : onlyStrings l = some names ↔ l = names.map .str := by
  induction l generalizing names with
  | nil => cases names <;> simp [onlyStrings]
  | cons j l ih =>
    cases j <;> cases names <;> simp [onlyStrings, ih] <;> exact And.comm

theorem parseName_iff (j : Json) (names : List String) : parseName j = some names ↔
    (j = .null ∧ names = [] ∨ (∃ s, j = .str s ∧ names = [s]) ∨ j = .arr (names.map .str)) := by
  cases j <;> simp [parseName, onlyStrings_iff] <;> exact eq_comm

theorem unStringPtr_iff (j : Json) (p : String) : (unStringPtr j).map (·.getD "") = some p ↔ (j = .null ∧ p = "" ∨ j = .str p) := by
  cases j <;> simp [unStringPtr] <;> exact eq_comm

theorem from_iff (j : Json) (f : From) : (unString j).bind parseFrom = some f ↔
    ((j = .null ∨ j = .str "" ∨ j = .str "file") ∧ f = .file ∨ j = .str "lib" ∧ f = .lib ∨ j = .str "package" ∧ f = .package) := by
  cases j with
  | null => simp [unString, parseFrom]; exact eq_comm
  | str s =>
    simp only [unString, Option.bind_some, parseFrom, Json.str.injEq, reduceCtorEq, false_or]
    split
    · rename_i h
      constructor
      · intro h'; cases h'; exact Or.inl ⟨h, rfl⟩
      · rintro (⟨_, rfl⟩ | ⟨rfl, _⟩ | ⟨rfl, _⟩)
        · rfl
        · rcases h with h | h <;> simp at h
        · rcases h with h | h <;> simp at h
    · split
      · rename_i h1 h; subst h
        simp; exact eq_comm
      · split
        · rename_i h1 h2 h; subst h
          simp; exact eq_comm
        · rename_i h1 h2 h3
          simp only [reduceCtorEq, h2, h3, false_and, or_self, or_false, false_iff]
          exact fun h => h1 h.1
  | bool _ => simp [unString]
  | int _ => simp [unString]
  | frac _ => simp [unString]
  | arr _ => simp [unString]
  | obj _ => simp [unString]

theorem unmarshal_iff (j : Json) (s : Spec) : unmarshal j = some s ↔ Denotes j s := by
  constructor
  · intro h
    cases j with
    | null => simp [unmarshal, unString] at h; subst h; exact .null
    | str x => simp [unmarshal, unString] at h; subst h; exact .string x
    | bool _ => simp [unmarshal, unString] at h
    | int _ => simp [unmarshal, unString] at h
    | frac _ => simp [unmarshal, unString] at h
    | arr _ => simp [unmarshal, unString] at h
    | obj m =>
      have hu : unString (.obj m) = none := rfl
      simp only [unmarshal, hu] at h
      split at h
      · rename_i f path package h1 h2 h3
        cases hf : parseFrom f with
        | none => simp [hf] at h
        | some frm =>
          cases hn : parseName (get "name" m) with
          | none => simp [hf, hn] at h
          | some names =>
            simp only [hf, hn, Option.some.injEq] at h
            subst h
            refine .object m _ _ _ _ ?_ ((parseName_iff _ _).1 hn) ((unStringPtr_iff _ _).1 (by rw [h2]; rfl))
              ((unStringPtr_iff _ _).1 (by rw [h3]; rfl))
            exact (from_iff _ _).1 (by rw [h1]; simpa using hf)
      · simp at h
  · intro h
    cases h with
    | string s => simp [unmarshal, unString]
    | null => simp [unmarshal, unString]
    | object m frm names path package hfrom hname hpath hpackage =>
      have h1 := (from_iff _ _).2 hfrom
      have h2 := (parseName_iff _ _).2 hname
      have h3 := (unStringPtr_iff _ _).2 hpath
      have h4 := (unStringPtr_iff _ _).2 hpackage
      have hu0 : unString (.obj m) = none := rfl
      simp only [unmarshal, hu0]
      cases hu : unString (get "from" m) with
      | none => simp [hu] at h1
      | some f =>
        cases hp : unStringPtr (get "path" m) with
        | none => simp [hp] at h3
        | some p =>
          cases hq : unStringPtr (get "package" m) with
          | none => simp [hq] at h4
          | some q =>
            rw [hu] at h1; simp only [Option.bind_some] at h1
            rw [hp] at h3; simp only [Option.map_some, Option.some.injEq] at h3
            rw [hq] at h4; simp only [Option.map_some, Option.some.injEq] at h4
            simp [h1, h2, h3, h4]

/-! ## Paths -/

theorem splitSlash_ne (p : Str) : splitSlash p ≠ [] := by
  cases p with
  | nil => simp [splitSlash]
  | cons c s =>
    rw [splitSlash]
    split
    · simp
    · split <;> simp

theorem splitSlash_cons (c : Char) (s : Str) : ∃ w ws, splitSlash s = w :: ws ∧
    splitSlash (c :: s) = if c = '/' then [] :: w :: ws else (c :: w) :: ws := by
  cases h : splitSlash s with
  | nil => exact absurd h (splitSlash_ne s)
  | cons w ws => exact ⟨w, ws, rfl, by simp [splitSlash, h]⟩

/-- A path with a slash in front is each segment with a slash in front. -/
theorem slash_path {p : Str} {segs : List Str} (h : IsSegments p segs) : '/' :: p = segs.flatMap ('/' :: ·) := by
  obtain ⟨hne, -, rfl⟩ := h
  cases segs with
  | nil => exact absurd rfl hne
  | cons w ws =>
    have : ∀ (w : Str) (ws : List Str), List.intercalate ['/'] (w :: ws) = w ++ ws.flatMap ('/' :: ·) := by
      intro w ws
      induction ws generalizing w with
      | nil => simp [List.intercalate]
      | cons v vs ih =>
        have h2 : List.intercalate ['/'] (w :: v :: vs) = w ++ ('/' :: List.intercalate ['/'] (v :: vs)) := by
          simp [List.intercalate, List.intersperse]
        rw [h2, ih v]; simp
    rw [this]; simp

theorem splitSlash_segments (p : Str) : IsSegments p (splitSlash p) := by
  induction p with
  | nil => simp [splitSlash, IsSegments, List.intercalate]
  | cons c s ih =>
    obtain ⟨w, ws, h1, h2⟩ := splitSlash_cons c s
    rw [h1] at ih
    rw [h2]
    obtain ⟨_, i2, i3⟩ := ih
    split
    · rename_i hc; subst hc
      refine ⟨by simp, ?_, ?_⟩
      · intro x hx
        simp only [List.mem_cons] at hx
        rcases hx with rfl | hx
        · simp
        · exact i2 x (by simpa using hx)
      · rw [i3]; simp [List.intercalate, List.intersperse]
    · rename_i hc
      refine ⟨by simp, ?_, ?_⟩
      · intro x hx
        simp only [List.mem_cons] at hx
        rcases hx with rfl | hx
        · have := i2 w (by simp)
          simp only [List.mem_cons, not_or]
          exact ⟨fun h => hc h.symm, this⟩
        · exact i2 x (by simp [hx])
      · rw [i3]
        cases ws with
        | nil => simp [List.intercalate]
        | cons v vs => simp [List.intercalate, List.intersperse]

theorem split_unique {a b x y : Str} (ha : '/' ∉ a) (hb : '/' ∉ b) (h : a ++ '/' :: x = b ++ '/' :: y) : a = b ∧ x = y := by
  induction a generalizing b with
  | nil =>
    cases b with
    | nil => simp at h; exact ⟨rfl, h⟩
    | cons d b => simp at h; exact absurd (by rw [h.1]; simp) hb
  | cons c a ih =>
    cases b with
    | nil => simp at h; exact absurd (by rw [← h.1]; simp) ha
    | cons d b =>
      simp only [List.cons_append, List.cons.injEq] at h
      have := ih (fun h' => ha (List.mem_cons_of_mem _ h')) (fun h' => hb (List.mem_cons_of_mem _ h')) h.2
      exact ⟨by rw [h.1, this.1], this.2⟩

theorem flat_unique (l m : List Str) (hl : ∀ s ∈ l, '/' ∉ s) (hm : ∀ s ∈ m, '/' ∉ s)
    (h : l.flatMap ('/' :: ·) = m.flatMap ('/' :: ·)) : l = m := by
  induction l generalizing m with
  | nil => cases m with
    | nil => rfl
    | cons b m => simp at h
  | cons a l ih =>
    cases m with
    | nil => simp at h
    | cons b m =>
      simp only [List.flatMap_cons, List.cons_append, List.cons.injEq, true_and] at h
      have ha := hl a (by simp)
      have hb := hm b (by simp)
      have key : a = b ∧ l.flatMap ('/' :: ·) = m.flatMap ('/' :: ·) := by
        have e : ∀ (k : List Str), ∃ z, k.flatMap ('/' :: ·) ++ ['/'] = '/' :: z ∧ (k.flatMap ('/' :: ·) ++ ['/']) = '/' :: z := by
          intro k; cases k with
          | nil => exact ⟨[], by simp, by simp⟩
          | cons c k => exact ⟨c ++ (k.flatMap ('/' :: ·) ++ ['/']), by simp, by simp⟩
        obtain ⟨z1, h1, _⟩ := e l
        obtain ⟨z2, h2, _⟩ := e m
        have h' : a ++ '/' :: z1 = b ++ '/' :: z2 := by
          rw [← h1, ← h2, ← List.append_assoc, ← List.append_assoc, h]
        obtain ⟨rfl, rfl⟩ := split_unique ha hb h'
        refine ⟨rfl, ?_⟩
        have := h1.trans h2.symm
        exact List.append_cancel_right this
      rw [key.1, ih m (fun s hs => hl s (by simp [hs])) (fun s hs => hm s (by simp [hs])) key.2]

theorem segments_unique {p : Str} {segs : List Str} (h : IsSegments p segs) : segs = splitSlash p := by
  have h' := splitSlash_segments p
  exact flat_unique _ _ h.2.1 h'.2.1 (by rw [← slash_path h, ← slash_path h'])

theorem containsStr_iff (s sub : Str) : containsStr s sub = true ↔ ∃ a b, s = a ++ sub ++ b := by
  induction s with
  | nil =>
    simp only [containsStr, List.isPrefixOf_iff_prefix]
    constructor
    · rintro ⟨b, hb⟩; exact ⟨[], b, by simpa using hb.symm⟩
    · rintro ⟨a, b, h⟩
      have : sub = [] := by
        have := congrArg List.length h; simp at this; exact List.length_eq_zero_iff.1 (by omega)
      rw [this]; exact List.prefix_refl _
  | cons c r ih =>
    simp only [containsStr, Bool.or_eq_true, List.isPrefixOf_iff_prefix, ih]
    constructor
    · rintro (⟨b, hb⟩ | ⟨a, b, h⟩)
      · exact ⟨[], b, by simpa using hb.symm⟩
      · exact ⟨c :: a, b, by simp [h]⟩
    · rintro ⟨a, b, h⟩
      cases a with
      | nil => left; exact ⟨b, by simpa using h.symm⟩
      | cons d a => right; simp only [List.cons_append, List.cons.injEq] at h; exact ⟨a, b, h.2⟩

theorem infix_segment (w : Str) (hw : '/' ∉ w) (segs : List Str) (hs : ∀ s ∈ segs, '/' ∉ s) :
    (∃ a b, segs.flatMap ('/' :: ·) ++ ['/'] = a ++ ('/' :: w ++ ['/']) ++ b) ↔ w ∈ segs := by
  induction segs with
  | nil =>
    simp only [List.flatMap_nil, List.nil_append, List.not_mem_nil, iff_false]
    rintro ⟨a, b, h⟩
    have := congrArg List.length h
    simp at this; omega
  | cons s segs ih =>
    have ih := ih fun x hx => hs x (List.mem_cons_of_mem _ hx)
    have hsl := hs s List.mem_cons_self
    have hend : ∃ z, segs.flatMap ('/' :: ·) ++ ['/'] = '/' :: z := by
      cases segs with
      | nil => exact ⟨[], by simp⟩
      | cons c k => exact ⟨c ++ (k.flatMap ('/' :: ·) ++ ['/']), by simp⟩
    obtain ⟨z, hz⟩ := hend
    constructor
    · rintro ⟨a, b, h⟩
      simp only [List.flatMap_cons, List.append_assoc, List.cons_append] at h
      rw [hz] at h
      cases a with
      | nil =>
        simp only [List.nil_append, List.cons.injEq, true_and] at h
        have := (split_unique hsl hw h).1
        rw [this]; exact List.mem_cons_self
      | cons d a =>
        simp only [List.cons_append, List.cons.injEq] at h
        -- the pattern begins after `s`
        have h2 : s ++ '/' :: z = a ++ ('/' :: w ++ ['/']) ++ b := by simpa using h.2
        rw [List.append_assoc] at h2
        rcases List.append_eq_append_iff.1 h2 with ⟨as, h3, h4⟩ | ⟨bs, h3, h4⟩
        · refine List.mem_cons_of_mem _ (ih.1 ⟨as, b, ?_⟩)
          rw [hz, h4]; simp
        · cases bs with
          | nil =>
            refine List.mem_cons_of_mem _ (ih.1 ⟨[], b, ?_⟩)
            rw [hz]; simp at h4 ⊢; exact h4.symm
          | cons e bs =>
            simp at h4
            exact absurd (by rw [h3]; simp [← h4.1]) hsl
    · intro h
      simp only [List.mem_cons] at h
      rcases h with rfl | h
      · exact ⟨[], z, by simp [hz]⟩
      · obtain ⟨a, b, hab⟩ := ih.2 h
        exact ⟨'/' :: s ++ a, b, by simp [hab]⟩

theorem nodeModules_noslash : '/' ∉ nodeModules := by decide

theorem containsNodeModules_iff {p : Str} {segs : List Str} (h : IsSegments p segs) :
    containsNodeModules p = true ↔ nodeModules ∈ segs := by
  unfold containsNodeModules
  rw [containsStr_iff, ← infix_segment nodeModules nodeModules_noslash segs h.2.1, slash_path h]

/-- What the loop looks at for one `i`. -/
def stepAt (segments : List Str) (i : Nat) : Option Str :=
  if segments[i]? ≠ some nodeModules then none
  else match segments[i + 1]? with
    | none => none
    | some name =>
      if name = [] ∨ name = ['.'] ∨ name = ['.', '.'] then none
      else if ['@'].isPrefixOf name then
        match segments[i + 2]? with
        | some second => if second ≠ [] then some (name ++ '/' :: second) else none
        | none => none
      else some name

theorem pkgLoop_step (segs : List Str) (i : Nat) : pkgLoop segs (i + 1) = (stepAt segs i).or (pkgLoop segs i) := by
  rw [pkgLoop, stepAt]
  by_cases h0 : segs[i]? = some nodeModules
  case neg => simp [h0]
  case pos =>
    simp only [h0, ne_eq, not_true_eq_false, ↓reduceIte]
    cases segs[i + 1]? with
    | none => rfl
    | some name =>
      simp only
      by_cases h1 : name = [] ∨ name = ['.'] ∨ name = ['.', '.']
      · simp only [h1, ↓reduceIte]; rfl
      · simp only [h1, ↓reduceIte]
        by_cases h2 : ['@'].isPrefixOf name = true
        · simp only [h2, ↓reduceIte]
          cases segs[i + 2]? with
          | none => rfl
          | some second =>
            simp only
            by_cases h3 : second = []
            · simp [h3]
            · simp [h3]
        · simp only [h2]; rfl

theorem split_at {segs : List Str} {i : Nat} {x : Str} (h : segs[i]? = some x) : segs = segs.take i ++ x :: segs.drop (i + 1) := by
  obtain ⟨hi, h⟩ := List.getElem?_eq_some_iff.1 h
  rw [← h, List.getElem_cons_drop, List.take_append_drop]

theorem stepAt_iff (segs : List Str) (i : Nat) (n : Str) : stepAt segs i = some n ↔ ∃ pre, pre.length = i ∧ PackageAt segs pre n := by
  constructor
  · intro h
    unfold stepAt at h
    split at h
    · simp at h
    rename_i h0
    simp only [ne_eq, Decidable.not_not] at h0
    split at h
    · simp at h
    rename_i name h1
    have hi : i < segs.length := (List.getElem?_eq_some_iff.1 h0).1
    have e0 := split_at h0
    have e1 : segs.drop (i + 1) = name :: segs.drop (i + 2) := by
      obtain ⟨hi, h1⟩ := List.getElem?_eq_some_iff.1 h1
      rw [List.drop_eq_getElem_cons hi, h1]
    rw [e1] at e0
    split at h
    · simp at h
    rename_i hn
    simp only [not_or] at hn
    split at h
    · rename_i hat
      split at h
      · rename_i second h2
        split at h
        · rename_i hne
          cases h
          have e2 : segs.drop (i + 2) = second :: segs.drop (i + 3) := by
            obtain ⟨hi, h2⟩ := List.getElem?_eq_some_iff.1 h2
            rw [List.drop_eq_getElem_cons hi, h2]
          rw [e2] at e0
          exact ⟨segs.take i, by simp; omega, .inScope _ _ _ e0 (List.isPrefixOf_iff_prefix.1 hat) hne⟩
        · simp at h
      · simp at h
    · rename_i hat
      cases h
      exact ⟨segs.take i, by simp; omega, .unscoped _ _ e0 hn.1 hn.2.1 hn.2.2 (fun h => hat (List.isPrefixOf_iff_prefix.2 h))⟩
  · rintro ⟨pre, rfl, h⟩
    cases h with
    | unscoped n rest e h1 h2 h3 h4 =>
      have a0 : segs[pre.length]? = some nodeModules := by rw [e]; simp
      have a1 : segs[pre.length + 1]? = some n := by rw [e]; simp
      have h4' : ¬ (['@'].isPrefixOf n = true) := fun h => h4 (List.isPrefixOf_iff_prefix.1 h)
      simp only [stepAt, a0, a1, ne_eq, not_true_eq_false, ↓reduceIte, h1, h2, h3, or_self, h4']
      rfl
    | inScope s n rest e h1 h2 =>
      have a0 : segs[pre.length]? = some nodeModules := by rw [e]; simp
      have a1 : segs[pre.length + 1]? = some s := by rw [e]; simp
      have a2 : segs[pre.length + 2]? = some n := by rw [e]; simp
      have hs : ¬ (s = [] ∨ s = ['.'] ∨ s = ['.', '.']) := by
        obtain ⟨t, rfl⟩ := h1; simp
      have h1' := List.isPrefixOf_iff_prefix.2 h1
      simp only [stepAt, a0, a1, a2, ne_eq, not_true_eq_false, ↓reduceIte, hs, h1', h2, not_false_eq_true]

theorem pkgLoop_iff (segs : List Str) (k : Nat) (n : Str) : pkgLoop segs k = some n ↔
    ∃ pre, pre.length < k ∧ PackageAt segs pre n ∧ ∀ pre' n', pre'.length < k → PackageAt segs pre' n' → pre'.length ≤ pre.length := by
  induction k with
  | zero => simp [pkgLoop]
  | succ k ih =>
    rw [pkgLoop_step]
    cases hs : stepAt segs k with
    | some m =>
      simp only [Option.some_or, Option.some.injEq]
      obtain ⟨pre, hl, hp⟩ := (stepAt_iff segs k m).1 hs
      constructor
      · rintro rfl; exact ⟨pre, by omega, hp, fun _ _ h _ => by omega⟩
      · rintro ⟨pre2, h1, h2, h3⟩
        have := h3 pre m (by omega) hp
        have h4 : stepAt segs k = some n := (stepAt_iff segs k n).2 ⟨pre2, by omega, h2⟩
        rw [hs] at h4; simpa using h4
    | none =>
      simp only [Option.none_or]
      rw [ih]
      have hno : ∀ pre n, PackageAt segs pre n → pre.length ≠ k := by
        intro pre n hp hl
        have := (stepAt_iff segs k n).2 ⟨pre, hl, hp⟩
        rw [hs] at this; cases this
      constructor
      · rintro ⟨pre, h1, h2, h3⟩
        exact ⟨pre, by omega, h2, fun p' n' hl hp => h3 p' n' (by have := hno p' n' hp; omega) hp⟩
      · rintro ⟨pre, h1, h2, h3⟩
        exact ⟨pre, by have := hno pre n h2; omega, h2, fun p' n' hl hp => h3 p' n' (by omega) hp⟩

theorem packageAt_length {segs pre : List Str} {n : Str} (h : PackageAt segs pre n) : pre.length < segs.length := by
  cases h with
  | unscoped _ _ e => rw [e]; simp
  | inScope _ _ _ e => rw [e]; simp

theorem packageFromPath_iff {p : Str} {segs : List Str} (h : IsSegments p segs) (n : Str) : packageFromPath p = some n ↔
    ∃ pre, PackageAt segs pre n ∧ ∀ pre' n', PackageAt segs pre' n' → pre'.length ≤ pre.length := by
  unfold packageFromPath
  simp only [← segments_unique h]
  rw [pkgLoop_iff]
  constructor
  · rintro ⟨pre, h1, h2, h3⟩; exact ⟨pre, h2, fun p' n' hp => h3 p' n' (packageAt_length hp) hp⟩
  · rintro ⟨pre, h2, h3⟩; exact ⟨pre, packageAt_length h2, h2, fun p' n' _ hp => h3 p' n' hp⟩

theorem packageOf_iff (f : File) (id : Str) : packageOf f = some id ↔ FilePackage f id := by
  have hseg := splitSlash_segments f.fileName
  have hc := containsNodeModules_iff hseg
  unfold packageOf FilePackage
  constructor
  · intro h
    split at h
    · simp at h
    · rename_i hn
      refine ⟨_, hseg, hc.1 (by simpa using hn), ?_⟩
      cases hj : f.packageJson with
      | some n => rw [hj] at h; exact Or.inl h
      | none => rw [hj] at h; exact Or.inr ⟨rfl, (packageFromPath_iff hseg id).1 h⟩
  · rintro ⟨segs, h1, h2, h3⟩
    have hn : containsNodeModules f.fileName = true := (containsNodeModules_iff h1).2 h2
    simp only [hn, Bool.true_eq_false, ↓reduceIte]
    rcases h3 with h3 | ⟨h3, h4⟩
    · rw [h3]
    · rw [h3]; exact (packageFromPath_iff h1 id).2 h4

theorem typesPackageName_iff (p : Str) :
    (∃ s n, s ≠ [] ∧ n ≠ [] ∧ '/' ∉ s ∧ p = '@' :: s ++ '/' :: n ∧ typesPackageName p = s ++ ['_', '_'] ++ n) ∨
    (typesPackageName p = p ∧ ∀ s n, s ≠ [] → n ≠ [] → '/' ∉ s → p ≠ '@' :: s ++ '/' :: n) := by
  cases p with
  | nil => right; simp [typesPackageName]
  | cons c r =>
    by_cases hc : c = '@'
    · subst hc
      simp only [typesPackageName]
      cases hi : r.findIdx? (· = '/') with
      | none =>
        right
        refine ⟨rfl, ?_⟩
        intro s n _ _ _ h
        simp only [List.cons_append, List.cons.injEq, true_and] at h
        rw [List.findIdx?_eq_none_iff] at hi
        have := hi '/' (by rw [h]; simp)
        simp at this
      | some i =>
        obtain ⟨hlt, hpi, hmin⟩ := List.findIdx?_eq_some_iff_getElem.1 hi
        simp only [decide_eq_true_eq] at hpi
        have hsplit : r = r.take i ++ '/' :: r.drop (i + 1) := by
          conv => lhs; rw [← List.take_append_drop i r, List.drop_eq_getElem_cons hlt, hpi]
        have hno : '/' ∉ r.take i := by
          intro hm
          obtain ⟨j, hj, he⟩ := List.getElem_of_mem hm
          simp only [List.length_take] at hj
          have := hmin j (by omega)
          simp only [List.getElem_take] at he
          simp [he] at this
        simp only
        split
        · rename_i hcond
          right
          refine ⟨rfl, ?_⟩
          intro s n h1 h2 h3 h
          simp only [List.cons_append, List.cons.injEq, true_and] at h
          rw [hsplit] at h
          obtain ⟨e1, e2⟩ := split_unique hno h3 h
          simp only [List.length_cons] at hcond
          rcases hcond with hcond | hcond
          · have : i = 0 := by omega
            subst this; simp at e1; exact h1 e1
          · have : r.drop (i + 1) = [] := List.drop_eq_nil_of_le (by omega)
            rw [this] at e2; exact h2 e2.symm
        · rename_i hcond
          simp only [List.length_cons, not_or] at hcond
          left
          refine ⟨r.take i, r.drop (i + 1), ?_, ?_, hno, congrArg ('@' :: ·) hsplit, rfl⟩
          · intro h; have h' := congrArg List.length h; rw [List.length_take, List.length_nil] at h'; omega
          · intro h; have h' := congrArg List.length h; rw [List.length_drop, List.length_nil] at h'; omega
    · right
      refine ⟨?_, ?_⟩
      · unfold typesPackageName
        split
        · rename_i h; simp at h; exact absurd h.1 hc
        · rfl
      · intro s n _ _ _ h; simp at h; exact hc h.1

/-! ## Matching -/

theorem parentModule_iff (u : List Up) (n : Str) : parentModule u = some n ↔ InDeclareModule u n := by
  constructor
  · intro h
    induction u with
    | nil => simp [parentModule] at h
    | cons x r ih =>
      cases x with
      | other => exact .inNode _ _ (ih h)
      | module b c m =>
        cases b with
        | true => exact .inNamespace _ _ _ _ (ih h)
        | false =>
          cases c with
          | true => simp [parentModule] at h; subst h; exact .here _ _
          | false => simp [parentModule] at h
  · intro h
    induction h with
    | here => rfl
    | inNamespace _ _ _ _ _ ih => exact ih
    | inNode _ _ _ ih => exact ih

theorem declareModule_iff (p : Str) (decls : List Decl) : declaredInDeclareModule p decls = true ↔ ∃ d ∈ decls, InDeclareModule d.up p := by
  unfold declaredInDeclareModule
  simp only [List.any_eq_true]
  constructor
  · rintro ⟨d, hd, h⟩
    refine ⟨d, hd, ?_⟩
    rw [← parentModule_iff]
    split at h
    · rename_i n hn; simp at h; rw [hn, h]
    · simp at h
  · rintro ⟨d, hd, h⟩
    refine ⟨d, hd, ?_⟩
    rw [← parentModule_iff] at h
    simp [h]

theorem declarationFile_iff (p : Str) (files : List File) :
    declaredInDeclarationFile p files = true ↔ p ≠ [] ∧ ∃ f ∈ files, InPackage p f := by
  unfold declaredInDeclarationFile
  split
  · rename_i h; simp [h]
  · rename_i hp
    simp only [List.any_eq_true, ne_eq, hp, not_false_eq_true, true_and]
    constructor
    · rintro ⟨f, hf, h⟩
      refine ⟨f, hf, ?_⟩
      split at h
      · simp at h
      · rename_i id hid
        split at h
        · simp at h
        · rename_i hne
          simp only [Bool.and_eq_true, Bool.or_eq_true, decide_eq_true_eq] at h
          refine ⟨id, (packageOf_iff f id).1 hid, hne, h.2, ?_⟩
          rcases typesPackageName_iff p with ⟨s, n, h1, h2, h3, h4, h5⟩ | ⟨h5, _⟩
          · rw [h5] at h
            rcases h.1 with ((h' | h') | h') | h'
            · exact Or.inl h'
            · exact Or.inr (Or.inr ⟨s, n, h1, h2, h3, h4, Or.inl h'⟩)
            · exact Or.inr (Or.inl h')
            · exact Or.inr (Or.inr ⟨s, n, h1, h2, h3, h4, Or.inr h'⟩)
          · rw [h5] at h
            rcases h.1 with ((h' | h') | h') | h'
            · exact Or.inl h'
            · exact Or.inl h'
            · exact Or.inr (Or.inl h')
            · exact Or.inr (Or.inl h')
    · rintro ⟨f, hf, id, hid, hne, hext, h⟩
      refine ⟨f, hf, ?_⟩
      rw [(packageOf_iff f id).2 hid]
      simp only [hne, ↓reduceIte, Bool.and_eq_true, Bool.or_eq_true, decide_eq_true_eq]
      refine ⟨?_, hext⟩
      rcases h with h | h | ⟨s, n, h1, h2, h3, h4, h5⟩
      · exact Or.inl (Or.inl (Or.inl h))
      · exact Or.inl (Or.inr h)
      · rcases typesPackageName_iff p with ⟨s', n', g1, g2, g3, g4, g5⟩ | ⟨_, g⟩
        · have e : s = s' ∧ n = n' := by
            rw [h4] at g4
            simp only [List.cons_append, List.cons.injEq, true_and] at g4
            exact split_unique h3 g3 g4
          rw [g5, ← e.1, ← e.2]
          rcases h5 with h5 | h5
          · exact Or.inl (Or.inl (Or.inr h5))
          · exact Or.inr h5
        · exact absurd h4 (g s n h1 h2 h3)

theorem sourceMatches_iff (host : Host) (s : MSpec) (decls : List Decl) : sourceMatches host s decls = true ↔ SourceOk host s decls := by
  unfold sourceMatches SourceOk
  cases s.frm with
  | name => simp
  | file =>
    simp only [declaredInFile]
    split <;> rename_i h <;> simp [List.isPrefixOf_iff_prefix]
  | lib =>
    simp only [declaredInLib]
    split
    · rename_i h; simp at h; simp [h]
    · rename_i h; simp at h; simp [h]
  | package =>
    simp only [declaredInPackage, Bool.or_eq_true, declareModule_iff, declarationFile_iff]
    simp only [List.mem_map]
    grind

theorem typeMatchesString_iff (t : Ty) (names : List Str) : typeMatchesString t names = true ↔ ∃ n ∈ names, HasName t n := by
  unfold typeMatchesString HasName
  obtain ⟨al, sy, it⟩ := t
  cases al <;> cases sy <;> cases it <;> simp [exists_or, and_or_left] 

theorem typeMatches_iff (host : Host) (t : Ty) (s : MSpec) : typeMatches host t s = true ↔ Meets host t s := by
  unfold typeMatches Meets
  rw [← typeMatchesString_iff, ← sourceMatches_iff]
  cases h : typeMatchesString t s.name with
  | false => simp
  | true =>
    simp only [Bool.true_eq_false, ↓reduceIte, true_and]
    unfold declsOf
    cases t.symbol <;> cases t.alias <;> simp

end Tsgolint.Specifier
