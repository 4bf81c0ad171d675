import Verif.Spec.TypeExports
import Verif.Proof.StableFix
/-! # C90 -/
namespace Tsgolint.TypeExports
open Tsgolint.Fixer (Fix Bytes ascii AppliesTo Seg)

theorem StandsFor.unique {E : Nat → Info} {s : Nat} {a b : Bool} (h : StandsFor E s a) (h' : StandsFor E s b) : a = b := by
  induction h with
  | typeOnly h => cases h' <;> simp_all
  | value h1 h2 => cases h' <;> simp_all
  | aliased h1 h2 h3 h4 _ ih =>
    cases h' with
    | typeOnly => simp_all
    | value => simp_all
    | type => simp_all
    | aliased _ _ _ hn h => rw [h4] at hn; cases hn; exact ih h
  | type => cases h' <;> simp_all

/-- The number of steps down to the verdict is unique, so a symbol on a cycle has none. -/
inductive Height (E : Nat → Info) : Nat → Nat → Bool → Prop
  | typeOnly {s} : (E s).typeOnly = true → Height E s 0 true
  | value {s} : (E s).typeOnly = false → (E s).value = true → Height E s 0 false
  | aliased {s n k b} : (E s).typeOnly = false → (E s).value = false → (E s).alias = true → (E s).next = some n → Height E n k b → Height E s (k + 1) b
  | type {s} : (E s).typeOnly = false → (E s).value = false → (E s).alias = false → Height E s 0 true

theorem StandsFor.height {E : Nat → Info} {s : Nat} {b : Bool} (h : StandsFor E s b) : ∃ k, Height E s k b := by
  induction h with
  | typeOnly h => exact ⟨0, .typeOnly h⟩
  | value h h' => exact ⟨0, .value h h'⟩
  | type h h' h'' => exact ⟨0, .type h h' h''⟩
  | aliased h1 h2 h3 h4 _ ih => obtain ⟨k, hk⟩ := ih; exact ⟨k + 1, .aliased h1 h2 h3 h4 hk⟩

theorem Height.unique {E : Nat → Info} {s k k' : Nat} {a b : Bool} (h : Height E s k a) (h' : Height E s k' b) : k = k' := by
  induction h generalizing k' with
  | typeOnly h => cases h' <;> simp_all
  | value h1 h2 => cases h' <;> simp_all
  | aliased h1 h2 h3 h4 _ ih =>
    cases h' with
    | typeOnly => simp_all
    | value => simp_all
    | type => simp_all
    | aliased _ _ _ hn h => rw [h4] at hn; cases hn; rw [ih h]
  | type => cases h' <;> simp_all

theorem typeBased_sound (E : Nat → Info) (fuel : Nat) : ∀ visited s b, typeBased E fuel visited (some s) = some (some b) → StandsFor E s b := by
  induction fuel with
  | zero => intro _ _ _ h; simp [typeBased] at h
  | succ fuel ih =>
    intro visited s b h
    rw [typeBased] at h
    cases hv : visited.contains s with
    | true => rw [hv] at h; simp at h
    | false =>
      rw [hv] at h
      simp only [Bool.false_eq_true, if_false] at h
      cases h1 : (E s).typeOnly with
      | true => simp [h1] at h; subst h; exact .typeOnly h1
      | false =>
        cases h2 : (E s).value with
        | true => simp [h1, h2] at h; subst h; exact .value h1 h2
        | false =>
          cases h3 : (E s).alias with
          | false => simp [h1, h2, h3] at h; subst h; exact .type h1 h2 h3
          | true =>
            cases h4 : (E s).next with
            | none => simp [h1, h2, h3, h4] at h
            | some n =>
              simp only [h1, h2, h3, h4, Bool.false_eq_true, if_false, if_true] at h
              exact .aliased h1 h2 h3 h4 (ih _ _ _ h)

theorem typeBased_complete (E : Nat → Info) (fuel : Nat) : ∀ visited s k b r, Height E s k b → (∀ v ∈ visited, ∀ k' b', Height E v k' b' → k < k') →
    typeBased E fuel visited (some s) = some r → r = some b := by
  induction fuel with
  | zero => intro _ _ _ _ _ _ _ h; simp [typeBased] at h
  | succ fuel ih =>
    intro visited s k b r hk hv h
    rw [typeBased] at h
    have hc : visited.contains s = false := by
      cases hc : visited.contains s with
      | false => rfl
      | true => have := hv s (by simpa using hc) k b hk; omega
    rw [hc] at h
    simp only [Bool.false_eq_true, if_false] at h
    cases hk with
    | typeOnly h1 => simp [h1] at h; exact h.symm
    | value h1 h2 => simp [h1, h2] at h; exact h.symm
    | type h1 h2 h3 => simp [h1, h2, h3] at h; exact h.symm
    | aliased h1 h2 h3 h4 hn =>
      simp only [h1, h2, h3, h4, Bool.false_eq_true, if_false, if_true] at h
      refine ih _ _ _ _ _ hn ?_ h
      intro v hvm k' b' hk'
      rcases List.mem_cons.1 hvm with rfl | hvm
      · have := Height.unique hk' (.aliased h1 h2 h3 h4 hn); omega
      · have := hv v hvm k' b' hk'; omega

/-- C90 (termination).  Following aliases ends, also for aliases of each other: with `n` aliases at most `n` are followed. -/
theorem C90_terminates (E : Nat → Info) (aliases : List Nat) (ha : ∀ s, (E s).alias = true → s ∈ aliases) (o : Option Nat) :
    ∃ r, typeBased E (aliases.length + 1) [] o = some r := by
  cases o with
  | none => exact ⟨_, rfl⟩
  | some s =>
  suffices ∀ (fuel : Nat) (visited : List Nat), (aliases.filter fun s => !visited.contains s).length < fuel →
      ∀ s, ∃ r, typeBased E fuel visited (some s) = some r from
    this _ _ (Nat.lt_succ_of_le (List.length_filter_le _ _)) s
  clear s
  intro fuel
  induction fuel with
  | zero => intro visited hv; omega
  | succ fuel ih =>
    intro visited hv s
    rw [typeBased]
    cases hc : visited.contains s with
    | true => exact ⟨_, rfl⟩
    | false =>
      cases h1 : (E s).typeOnly with
      | true => exact ⟨_, rfl⟩
      | false =>
        cases h2 : (E s).value with
        | true => exact ⟨_, rfl⟩
        | false =>
          cases h3 : (E s).alias with
          | false => exact ⟨_, rfl⟩
          | true =>
            cases h4 : (E s).next with
            | none => exact ⟨_, rfl⟩
            | some n =>
              simp only [Bool.false_eq_true, if_false, if_true]
              refine ih _ ?_ n
              have hmem : s ∈ aliases.filter fun s => !visited.contains s := by
                rw [List.mem_filter]; exact ⟨ha s h3, by rw [hc]; rfl⟩
              have hsub : (aliases.filter fun r => !(s :: visited).contains r) = (aliases.filter fun r => !visited.contains r).filter (· != s) := by
                rw [List.filter_filter]
                refine List.filter_congr fun r _ => ?_
                simp only [List.contains_cons, Bool.not_or]
                rfl
              rw [hsub]
              have : ((aliases.filter fun r => !visited.contains r).filter (· != s)).length < (aliases.filter fun r => !visited.contains r).length := by
                exact List.length_filter_lt_length_iff_exists.2 ⟨s, hmem, by simp⟩
              omega

/-- C90 (resolution).  A symbol counts as type or value exactly if following its aliases ends at one; otherwise it is unresolved. -/
theorem C90_resolution (E : Nat → Info) (fuel s : Nat) (r : Option Bool) (h : typeBased E fuel [] (some s) = some r) (b : Bool) :
    r = some b ↔ StandsFor E s b := by
  constructor
  · rintro rfl; exact typeBased_sound E fuel _ _ _ h
  · intro hb
    obtain ⟨k, hk⟩ := hb.height
    exact typeBased_complete E fuel _ _ _ _ _ hk (by simp) h

theorem strip_typed {w t : Bytes} (hw : Gap w t) (ht : ∀ c ∈ t.head?, isBlank c = false) : strip (ascii "type" ++ w ++ t) = t := by
  obtain ⟨hall, hne⟩ := hw
  have h4 : (ascii "type").length = 4 := by decide
  have hdrop : (ascii "type" ++ w ++ t).drop 4 = w ++ t := by
    rw [List.append_assoc, ← h4, List.drop_left]
  have htake : (ascii "type" ++ w ++ t).take 4 = ascii "type" := by
    rw [List.append_assoc, ← h4, List.take_left]
  have hdw : ∀ w : Bytes, (∀ b ∈ w, isBlank b = true) → (w ++ t).dropWhile isBlank = t := by
    intro w
    induction w with
    | nil =>
      intro _
      cases t with
      | nil => rfl
      | cons c t => rw [List.nil_append, List.dropWhile_cons, ht c (by simp)]; rfl
    | cons c w ih =>
      intro h
      rw [List.cons_append, List.dropWhile_cons, h c (by simp)]
      exact ih fun b hb => h b (by simp [hb])
  cases w with
  | nil =>
    have hh := hne rfl
    cases t with
    | nil => simp at hh
    | cons c t =>
      simp only [List.head?_cons, Option.some.injEq] at hh
      subst hh
      rw [strip, if_neg (by rw [htake]; simp), hdrop]
      simp only [List.nil_append, bne_self_eq_false, Bool.and_false, Bool.false_eq_true, if_false]
      exact hdw [] (by simp)
  | cons c w =>
    have hc : isBlank c = true := hall c (by simp)
    have hs : isSpace c = true := by
      simp only [isBlank, isSpace, Bool.or_eq_true, beq_iff_eq] at hc ⊢
      rcases hc with ((h | h) | h) | h <;> simp [h]
    rw [strip, if_neg (by rw [htake]; simp), hdrop]
    simp only [List.cons_append, hs, Bool.not_true, Bool.false_and, Bool.false_eq_true, if_false]
    exact hdw (c :: w) hall

theorem name_item {s : Specifier} (h : s.WellFormed) : ItemText s.local s.exported s.name := by
  unfold Specifier.name
  cases h with
  | plain h =>
    simp only [h, Bool.false_eq_true, if_false]
    by_cases he : s.local = s.exported
    · rw [if_pos he]; exact .same he
    · rw [if_neg he]
      have : s.local ++ ascii " as " ++ s.exported = s.local ++ ascii " " ++ ascii "as" ++ ascii " " ++ s.exported := by
        have : ascii " as " = ascii " " ++ ascii "as" ++ ascii " " := by decide
        rw [this]; simp [List.append_assoc]
      rw [this]
      exact .renamed ⟨by decide, by decide⟩ ⟨by decide, by decide⟩
  | typed h hw hi hh ht =>
    rw [if_pos h, ht, strip_typed hw hh]
    exact hi

/-- Judged to be a type. -/
def IsType (resolve : Option Nat → Option Bool) (s : Specifier) : Bool := s.typeOnly || resolve s.symbol == some true
def IsValue (resolve : Option Nat → Option Bool) (s : Specifier) : Bool := !s.typeOnly && resolve s.symbol == some false
def IsTypeBased (resolve : Option Nat → Option Bool) (s : Specifier) : Bool := !s.typeOnly && resolve s.symbol == some true

theorem analyze_eq (resolve : Option Nat → Option Bool) (l : List Specifier) : analyze resolve l =
    ⟨(l.filter (IsType resolve)).map (·.name), l.filter (IsTypeBased resolve), (l.filter (IsValue resolve)).map (·.name)⟩ := by
  induction l with
  | nil => rfl
  | cons s l ih =>
    rw [analyze, ih]
    simp only [List.filter_cons, IsType, IsTypeBased, IsValue]
    have hb : s.typeOnly = false ∨ s.typeOnly = true := by cases s.typeOnly <;> simp
    have hr : resolve s.symbol = none ∨ resolve s.symbol = some false ∨ resolve s.symbol = some true := by
      rcases resolve s.symbol with _ | _ | _ <;> simp
    rcases hb with hb | hb
    · rcases hr with hr | hr | hr <;> simp [hb, hr]
    · simp [hb]

/-- C90 (reports).  A named export is reported exactly if it is not `export type` and some specifier without `type` stands for
a type; as a whole if none stands for a value. -/
theorem C90_reported (resolve : Option Nat → Option Bool) (o : Bool) (d : Named) :
    ((∃ r, checkNamed resolve o d = some r) ↔ d.typeOnly = false ∧ ∃ s ∈ d.specifiers, s.typeOnly = false ∧ resolve s.symbol = some true) ∧
    (∀ m e, checkNamed resolve o d = some (m, e) →
      (m = .typeOverValue ↔ ∀ s ∈ d.specifiers, s.typeOnly = true ∨ resolve s.symbol ≠ some false)) := by
  have hb : (d.specifiers.filter (IsTypeBased resolve)).isEmpty = false ↔ ∃ s ∈ d.specifiers, s.typeOnly = false ∧ resolve s.symbol = some true := by
    rw [List.isEmpty_eq_false_iff_exists_mem]
    simp [IsTypeBased]
  have hv : ((d.specifiers.filter (IsValue resolve)).map (·.name)).isEmpty = true ↔ ∀ s ∈ d.specifiers, s.typeOnly = true ∨ resolve s.symbol ≠ some false := by
    simp only [List.isEmpty_iff, List.map_eq_nil_iff, List.filter_eq_nil_iff, IsValue]
    refine forall_congr' fun s => forall_congr' fun _ => ?_
    cases s.typeOnly <;> simp
  simp only [checkNamed, analyze_eq]
  cases ht : d.typeOnly with
  | true => simp
  | false =>
    simp only [Bool.false_eq_true, if_false, true_and]
    rw [← hb, ← hv]
    cases h1 : (d.specifiers.filter (IsTypeBased resolve)).isEmpty with
    | true => simp
    | false =>
      cases h2 : ((d.specifiers.filter (IsValue resolve)).map (·.name)).isEmpty with
      | true => simp
      | false =>
        simp only [Bool.false_eq_true, if_false, iff_false, Option.some.injEq, exists_eq', iff_true, true_and, Prod.mk.injEq, and_imp]
        rintro m e rfl rfl
        split <;> simp

theorem joinWords_listed (l : List Bytes) (h : l ≠ []) : Listed l (joinWords l) := by
  match l with
  | [] => exact absurd rfl h
  | [a] => exact .one
  | [a, b] => exact .two
  | a :: b :: c :: l =>
    have hne : a :: b :: c :: l ≠ [] := by simp
    have e := List.dropLast_concat_getLast hne
    have hj : joinWords (a :: b :: c :: l) = join (ascii ", ") (a :: b :: c :: l).dropLast ++ ascii ", and " ++ (a :: b :: c :: l).getLast hne := by
      rw [joinWords.eq_def]; simp only []; rw [List.getLast?_eq_some_getLast hne]; rfl
    rw [hj]
    have := Listed.more (l := (a :: b :: c :: l).dropLast) (z := (a :: b :: c :: l).getLast hne) (by simp)
    rwa [e] at this

/-- C90 (the name or names in the message). -/
theorem C90_message (resolve : Option Nat → Option Bool) (o : Bool) (d : Named) (m : Message) (e : Edit) (h : checkNamed resolve o d = some (m, e)) :
    (∀ n, m = .single n → ∃ s, d.specifiers.filter (fun s => !s.typeOnly && resolve s.symbol == some true) = [s] ∧ n = s.name) ∧
    (∀ n, m = .multiple n → Listed ((d.specifiers.filter (fun s => !s.typeOnly && resolve s.symbol == some true)).map (·.name)) n ∧
      2 ≤ (d.specifiers.filter (fun s => !s.typeOnly && resolve s.symbol == some true)).length) := by
  change (∀ n, m = .single n → ∃ s, d.specifiers.filter (IsTypeBased resolve) = [s] ∧ n = s.name) ∧
    (∀ n, m = .multiple n → Listed ((d.specifiers.filter (IsTypeBased resolve)).map (·.name)) n ∧ 2 ≤ (d.specifiers.filter (IsTypeBased resolve)).length)
  simp only [checkNamed, analyze_eq] at h
  generalize d.specifiers.filter (IsTypeBased resolve) = l at h
  cases htd : d.typeOnly with
  | true => simp [htd] at h
  | false =>
    cases l with
    | nil => simp [htd] at h
    | cons a l =>
      by_cases hv : ((d.specifiers.filter (IsValue resolve)).map (·.name)).isEmpty = true
      · simp only [htd, Bool.false_eq_true, if_false, List.isEmpty_cons, hv, if_true, Option.some.injEq, Prod.mk.injEq] at h
        obtain ⟨rfl, _⟩ := h
        simp
      · simp only [htd, Bool.false_eq_true, if_false, List.isEmpty_cons, hv, Option.some.injEq, Prod.mk.injEq] at h
        obtain ⟨rfl, _⟩ := h
        cases l with
        | nil => simp
        | cons b l =>
          refine ⟨fun n h => by simp at h, fun n h => ?_⟩
          simp only [Message.multiple.injEq] at h
          subst h
          exact ⟨joinWords_listed _ (by simp), by simp⟩

theorem forall₂_items (l : List Specifier) (h : ∀ s ∈ l, s.WellFormed) (f : Specifier → Bool) :
    List.Forall₂ (fun (i : Export) t => ItemText i.local i.exported t) (l.map fun s => s.export (f s)) (l.map (·.name)) := by
  induction l with
  | nil => exact .nil
  | cons s l ih => exact .cons (name_item (h s (by simp))) (ih fun s hs => h s (by simp [hs]))

/-- C90 (fix).  If every specifier is resolved, the replacement is one or two export statements that export the same local names
under the same names, as types exactly those that stand for types (or were exported as types). -/
theorem C90_fix (resolve : Option Nat → Option Bool) (o : Bool) (d : Named) (hw : ∀ s ∈ d.specifiers, s.WellFormed)
    (hr : ∀ s ∈ d.specifiers, s.typeOnly = true ∨ (resolve s.symbol).isSome) (m : Message) (text : Bytes) (h : checkNamed resolve o d = some (m, .replace text)) :
    ∃ types values, (types ++ values).Perm (d.specifiers.map fun s => s.export (resolve s.symbol == some true)) ∧
      (∀ e ∈ types, e.typeOnly = true) ∧ (∀ e ∈ values, e.typeOnly = false) ∧
      ((m = .typeOverValue ∧ values = [] ∧ StatementText types d.source text) ∨
       (m ≠ .typeOverValue ∧ ∃ t v, StatementText types d.source t ∧ StatementText values d.source v ∧ text = t ++ ascii "\n" ++ v)) := by
  let f : Specifier → Bool := fun s => resolve s.symbol == some true
  refine ⟨(d.specifiers.filter (IsType resolve)).map fun s => s.export (f s), (d.specifiers.filter (IsValue resolve)).map fun s => s.export (f s), ?_, ?_, ?_, ?_⟩
  · rw [← List.map_append]
    refine List.Perm.map _ ?_
    have : d.specifiers.filter (IsValue resolve) = d.specifiers.filter (fun s => !IsType resolve s) := by
      refine List.filter_congr fun s hs => ?_
      rcases hr s hs with h | h
      · simp [IsValue, IsType, h]
      · cases hres : resolve s.symbol with
        | none => rw [hres] at h; cases h
        | some b => cases b <;> cases ht : s.typeOnly <;> simp [IsValue, IsType, ht, hres]
    rw [this]
    exact List.filter_append_perm _ _
  · intro e he
    obtain ⟨s, hs, rfl⟩ := List.mem_map.1 he
    exact (List.mem_filter.1 hs).2
  · intro e he
    obtain ⟨s, hs, rfl⟩ := List.mem_map.1 he
    have := (List.mem_filter.1 hs).2
    simp only [IsValue, Bool.and_eq_true, Bool.not_eq_true', beq_iff_eq] at this
    simp [Specifier.export, f, this.1, this.2]
  · have ht : StatementText ((d.specifiers.filter (IsType resolve)).map fun s => s.export (f s)) d.source (statement true ((d.specifiers.filter (IsType resolve)).map (·.name)) d.source) := by
      refine StatementText.mk (typeOnly := true) ?_ (forall₂_items _ (fun s hs => hw s (List.mem_filter.1 hs).1) f)
      intro e he
      obtain ⟨s, hs, rfl⟩ := List.mem_map.1 he
      exact (List.mem_filter.1 hs).2
    have hv : StatementText ((d.specifiers.filter (IsValue resolve)).map fun s => s.export (f s)) d.source (statement false ((d.specifiers.filter (IsValue resolve)).map (·.name)) d.source) := by
      refine StatementText.mk (typeOnly := false) ?_ (forall₂_items _ (fun s hs => hw s (List.mem_filter.1 hs).1) f)
      intro e he
      obtain ⟨s, hs, rfl⟩ := List.mem_map.1 he
      have := (List.mem_filter.1 hs).2
      simp only [IsValue, Bool.and_eq_true, Bool.not_eq_true', beq_iff_eq] at this
      simp [Specifier.export, f, this.1, this.2]
    simp only [checkNamed, analyze_eq] at h
    cases htd : d.typeOnly with
    | true => simp [htd] at h
    | false =>
      cases hb : (d.specifiers.filter (IsTypeBased resolve)).isEmpty with
      | true => simp [htd, hb] at h
      | false =>
        cases hve : (d.specifiers.filter (IsValue resolve)) with
        | nil =>
          simp only [htd, hb, hve, Bool.false_eq_true, if_false, List.map_nil, List.isEmpty_nil, if_true, Option.some.injEq, Prod.mk.injEq, Edit.replace.injEq] at h
          obtain ⟨rfl, rfl⟩ := h
          exact .inl ⟨rfl, rfl, ht⟩
        | cons a l =>
          rw [hve] at hv
          simp only [htd, hb, hve, Bool.false_eq_true, if_false, List.map_cons, List.isEmpty_cons, Option.some.injEq, Prod.mk.injEq] at h
          obtain ⟨hm, he⟩ := h
          cases o with
          | true => simp at he
          | false =>
            simp only [Bool.false_eq_true, if_false, Edit.replace.injEq] at he
            subst he
            refine .inr ⟨?_, _, _, ht, hv, rfl⟩
            rw [← hm]
            split <;> simp

/-- C90 (inline fix).  With `fixMixedExportsWithInlineTypeSpecifier`, `type ` is inserted before exactly the specifiers without
`type` that stand for types. -/
theorem C90_inline (resolve : Option Nat → Option Bool) (o : Bool) (d : Named) (m : Message) (l : List Specifier) (h : checkNamed resolve o d = some (m, .inline l)) :
    o = true ∧ l = d.specifiers.filter (fun s => !s.typeOnly && resolve s.symbol == some true) := by
  change _ ∧ l = d.specifiers.filter (IsTypeBased resolve)
  simp only [checkNamed, analyze_eq] at h
  cases htd : d.typeOnly with
  | true => simp [htd] at h
  | false =>
    cases hb : (d.specifiers.filter (IsTypeBased resolve)).isEmpty with
    | true => simp [htd, hb] at h
    | false =>
      cases hve : ((d.specifiers.filter (IsValue resolve)).map (·.name)).isEmpty with
      | true => simp [htd, hb, hve] at h
      | false =>
        simp only [htd, hb, hve, Bool.false_eq_true, if_false, Option.some.injEq, Prod.mk.injEq] at h
        cases o with
        | false => simp at h
        | true => simpa [eq_comm] using h.2

/-- C90 (`export *`).  It is reported exactly if it is not `export type *`, the module is resolved and exports no value. -/
theorem C90_star (d : Star) : checkStar d = true ↔ d.typeOnly = false ∧ ∃ props, d.module = some props ∧ ∀ p ∈ props, p = false := by
  unfold checkStar
  cases d.typeOnly with
  | true => simp
  | false =>
    cases d.module with
    | none => simp
    | some props =>
      by_cases h : props.any id = true
      · simp only [Bool.false_eq_true, if_false, h, if_true, true_and, Option.some.injEq, exists_eq_left', false_iff]
        intro hp
        obtain ⟨x, hx, hx'⟩ := List.any_eq_true.1 h
        rw [hp x hx] at hx'; cases hx'
      · simp only [Bool.false_eq_true, if_false, h, true_and, Option.some.injEq, exists_eq_left', true_iff]
        intro p hp
        cases p with
        | false => rfl
        | true => exact absurd (List.any_eq_true.2 ⟨_, hp, rfl⟩) h

/-- C90 (`export *`, fix).  `type ` goes directly before the asterisk. -/
theorem C90_star_fix (pre post : Bytes) (before after : List (Token × Nat)) (stop : Nat) (hb : ∀ t ∈ before, t.1 = .other ∧ t.2 < stop) :
    AppliesTo (pre ++ ascii "*" ++ post) (starFix stop (before ++ (.asterisk, pre.length) :: after)) (pre ++ ascii "type *" ++ post) := by
  have : starFix stop (before ++ (.asterisk, pre.length) :: after) = [{ text := ascii "type ", pos := pre.length, stop := pre.length }] := by
    induction before with
    | nil => simp [starFix]
    | cons t l ih =>
      obtain ⟨k, p⟩ := t
      obtain ⟨h1, h2⟩ := hb (k, p) (by simp)
      simp only at h1 h2
      subst h1
      have : ¬(p ≥ stop) := by omega
      simp [starFix, this]
      exact ih fun t ht => hb t (by simp [ht])
  rw [this]
  have key := Seg.applies_sorted [.keep pre, .sub [] (ascii "type "), .keep (ascii "*" ++ post)]
  have e : ascii "type *" = ascii "type " ++ ascii "*" := by decide
  rw [e]
  simpa [Seg.old, Seg.new, Seg.edits, List.append_assoc] using key

/-- C90 (hazard: lost exports).  A specifier that is not resolved is in neither replacement: `export { T, x }` with unresolved `x`
becomes `export type { T };`. -/
theorem C90_hazard_lost : checkNamed (fun s => if s = some 0 then some true else none) false
      ⟨false, [⟨ascii "T", ascii "T", ascii "T", false, some 0⟩, ⟨ascii "x", ascii "x", ascii "x", false, none⟩], []⟩ =
    some (.typeOverValue, .replace (ascii "export type { T };")) := by decide

/-- C90 (hazard: `export*`).  Without a space before the asterisk the words are joined. -/
theorem C90_hazard_join : AppliesTo (ascii "export* from 'a'") (starFix 16 [(.other, 0), (.asterisk, 6)]) (ascii "exporttype * from 'a'") := by
  have := C90_star_fix (ascii "export") (ascii " from 'a'") [(.other, 0)] [] 16 (by simp)
  have h1 : ascii "export" ++ ascii "*" ++ ascii " from 'a'" = ascii "export* from 'a'" := by decide
  have h2 : ascii "export" ++ ascii "type *" ++ ascii " from 'a'" = ascii "exporttype * from 'a'" := by decide
  have h3 : (ascii "export").length = 6 := by decide
  rw [h1, h2, h3] at this
  exact this

-- the hypotheses are met
example : typeBased (fun s => if s = 0 then ⟨false, false, true, some 1⟩ else ⟨false, false, false, none⟩) 2 [] (some 0) = some (some true) := by decide
example : typeBased (fun s => ⟨false, false, true, some (1 - s)⟩) 3 [] (some 0) = some none := by decide
example : ∀ s ∈ [(⟨ascii "type A as B", ascii "A", ascii "B", true, none⟩ : Specifier), ⟨ascii "x", ascii "x", ascii "x", false, some 0⟩], s.WellFormed := by
  intro s hs
  simp only [List.mem_cons, List.not_mem_nil, or_false] at hs
  rcases hs with rfl | rfl
  · exact .typed (w := ascii " ") (t := ascii "A as B") rfl ⟨by decide, by decide⟩
      (show ItemText (ascii "A") (ascii "B") (ascii "A" ++ ascii " " ++ ascii "as" ++ ascii " " ++ ascii "B") from .renamed ⟨by decide, by decide⟩ ⟨by decide, by decide⟩) (by decide) (by decide)
  · exact .plain rfl
example : checkNamed (fun s => if s = some 0 then some true else some false) false
      ⟨false, [⟨ascii "T", ascii "T", ascii "T", false, some 0⟩, ⟨ascii "x as y", ascii "x", ascii "y", false, some 1⟩], ascii "'m'"⟩ =
    some (.single (ascii "T"), .replace (ascii "export type { T } from 'm';\nexport { x as y } from 'm';")) := by decide +kernel
example : (⟨ascii "type/*c*/A", ascii "A", ascii "A", true, none⟩ : Specifier).WellFormed :=
  .typed (w := []) (t := ascii "/*c*/A") rfl ⟨by simp, by decide⟩
    (show ItemText (ascii "A") (ascii "A") (ascii "/*" ++ ascii "c" ++ ascii "*/" ++ [] ++ ascii "A") from
      .commented (fun ⟨a, b, h⟩ => by
        have := congrArg List.length h
        simp only [List.length_append, show (ascii "c").length = 1 by decide, show (ascii "*/").length = 2 by decide] at this
        omega) (by simp) (.same rfl)) (by decide) (by decide)
example : joinWords [ascii "A", ascii "B", ascii "C"] = ascii "A, B, and C" := by decide
example : checkStar ⟨false, some []⟩ = true := rfl

end Tsgolint.TypeExports
