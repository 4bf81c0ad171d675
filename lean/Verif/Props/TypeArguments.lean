import Verif.Spec.TypeArguments
import Verif.Proof.StableFix
/-! # C76: no-unnecessary-type-arguments -/
namespace Tsgolint.TypeArguments
open Tsgolint.Fixer
variable {T D : Type} [DecidableEq T]

theorem sameArguments_iff : ∀ as bs : List T, as.length = bs.length → (sameArguments as bs = true ↔ as = bs)
  | [], [], _ => by simp [sameArguments]
  | a :: as, b :: bs, h => by
    simp only [List.length_cons, Nat.add_right_cancel_iff] at h
    rw [sameArguments]
    by_cases hab : a = b
    · simp [hab, sameArguments_iff as bs h]
    · simp [hab]

/-- C76 (equality).  Types match exactly if they are the same object, or references to the same generic type with the same arguments. -/
theorem C76_same (E : Env T) (s t : T) : typesMatch E s t = true ↔ Same E s t := by
  unfold typesMatch Same comparison
  by_cases h : s = t
  · simp [h]
  · simp only [h, if_false, false_or]
    cases hs : E.reference s with
    | none =>
      cases ht : E.reference t with
      | none => simp [h]
      | some r =>
        obtain ⟨g, as⟩ := r
        simp only [Bool.and_eq_true, decide_eq_true_eq]
        by_cases hg : s = g
        · subst hg
          cases as <;> simp [sameArguments]
        · simp [hg, Ne.symm hg]
    | some q =>
      obtain ⟨f, bs⟩ := q
      cases ht : E.reference t with
      | none =>
        simp only [Bool.and_eq_true, decide_eq_true_eq]
        by_cases hg : f = t
        · subst hg
          cases bs <;> simp [sameArguments]
        · simp [hg]
      | some r =>
        obtain ⟨g, as⟩ := r
        simp only [Bool.and_eq_true, decide_eq_true_eq]
        by_cases hg : f = g
        · by_cases hl : bs.length = as.length
          · simp only [hg, hl, and_self, if_true, sameArguments_iff bs as hl]
            constructor
            · intro h; exact .inl ⟨_, rfl, by rw [h]⟩
            · rintro (⟨r, h1, h2⟩ | ⟨-, h2⟩ | ⟨-, h2⟩)
              · cases h1; cases h2; rfl
              · cases h2
              · cases h2
          · simp only [hg, hl, and_false, if_false, Bool.false_eq_true, false_iff]
            rintro (⟨r, h1, h2⟩ | ⟨-, h2⟩ | ⟨-, h2⟩)
            · cases h1; cases h2; exact hl rfl
            · cases h2
            · cases h2
        · simp only [hg, false_and, if_false, Bool.false_eq_true, false_iff]
          rintro (⟨r, h1, h2⟩ | ⟨-, h2⟩ | ⟨-, h2⟩)
          · cases h1; cases h2; exact hg rfl
          · cases h2
          · cases h2

theorem getLast_idx (l : List T) (a : T) : l[l.length - 1]? = some a ↔ ∃ l', l = l' ++ [a] := by
  rw [← List.getLast?_eq_getElem?, List.getLast?_eq_some_iff]

/-- C76 (reports).  The last type argument is reported exactly if its parameter has a default and the argument is the same type — unless it is the only argument of a
`new` with arguments in whose parameter types a type parameter occurs. -/
theorem C76_reported (E : Env T) (u : Use T) (params : List (Param T)) :
    reported E u params = true ↔ ∃ as a p d, u.arguments = as ++ [a] ∧ params[as.length]? = some p ∧ p.default = some d ∧ Same E d a ∧
      ¬ (as = [] ∧ u.isNew = true ∧ u.valueArguments ≠ 0 ∧ ∃ ss ∈ u.mentioned, ∃ s ∈ ss, ∃ q ∈ params, q.symbol = s) := by
  have hinf : canInfer u params = true ↔ u.isNew = true ∧ u.valueArguments ≠ 0 ∧ ∃ ss ∈ u.mentioned, ∃ s ∈ ss, ∃ q ∈ params, q.symbol = s := by
    unfold canInfer
    cases u.isNew with
    | false => simp
    | true =>
      by_cases hv : u.valueArguments = 0
      · simp [hv]
      · cases params with
        | nil => simp [hv]
        | cons p ps => simp only [Bool.not_true, Bool.false_or, beq_iff_eq, hv, if_false, List.isEmpty_cons, Bool.false_eq_true, List.any_eq_true,
            List.contains_iff_mem, List.mem_map, ne_eq, not_false_eq_true, true_and]
  rw [← hinf]
  unfold reported
  rcases List.eq_nil_or_concat u.arguments with h | ⟨as, a, h⟩
  · simp [h]
  · simp only [List.concat_eq_append] at h
    have he : (as ++ [a]).isEmpty = false := by simp
    simp only [h, he, Bool.false_or, List.length_append, List.length_cons, List.length_nil,
      Nat.zero_add, Nat.add_sub_cancel, List.getElem?_concat_length]
    by_cases hp : params = []
    · subst hp; simp
    · have hpe : params.isEmpty = false := by cases params <;> simp_all
      simp only [hpe, Bool.false_eq_true, if_false]
      by_cases hlen : as.length ≥ params.length
      · simp only [hlen, if_true, Bool.false_eq_true, false_iff]
        rintro ⟨as', a', p, d, h1, h2, -⟩
        have := List.append_inj' h1 rfl
        rw [← this.1, List.getElem?_eq_none hlen] at h2
        cases h2
      · obtain ⟨p, hp'⟩ : ∃ p, params[as.length]? = some p := ⟨params[as.length]'(by omega), List.getElem?_eq_getElem _⟩
        simp only [hlen, if_false, hp']
        have hex : (∃ as' a' p' d, as ++ [a] = as' ++ [a'] ∧ params[as'.length]? = some p' ∧ p'.default = some d ∧ Same E d a' ∧
            ¬ (as' = [] ∧ canInfer u params = true)) ↔ ∃ d, p.default = some d ∧ Same E d a ∧ ¬ (as = [] ∧ canInfer u params = true) := by
          constructor
          · rintro ⟨as', a', p', d, h1, h2, h3, h4, h5⟩
            obtain ⟨rfl, h6⟩ := List.append_inj' h1 rfl
            cases h6
            rw [hp'] at h2
            cases h2
            exact ⟨d, h3, h4, h5⟩
          · rintro ⟨d, h3, h4, h5⟩
            exact ⟨as, a, p, d, rfl, hp', h3, h4, h5⟩
        rw [hex]
        cases hd : p.default with
        | none => simp
        | some d =>
          simp only [Option.some.injEq, exists_eq_left', ← C76_same]
          cases typesMatch E d a with
          | false => simp
          | true =>
            simp only [Bool.not_true, Bool.false_eq_true, if_false, true_and]
            cases canInfer u params <;> cases as <;> simp

omit [DecidableEq T] in
theorem fill_last {E : Env T} (M : Meaning E D) (v : D) (d : T) : ∀ (params : List (Param T)) (vs : List D) (ρ : Nat → D) (p : Param T),
    params[vs.length]? = some p → p.default = some d →
    (∀ ρ', (∀ x, (∀ q ∈ params, q.symbol ≠ x) → ρ x = ρ' x) → M.meaning ρ' d = v) → fill M ρ params (vs ++ [v]) = fill M ρ params vs
  | [], vs, ρ, p, h, _, _ => by simp at h
  | q :: params, [], ρ, p, h, hd, hv => by
    simp only [List.length_nil, List.getElem?_cons_zero, Option.some.injEq] at h
    subst h
    have := hv ρ (fun _ _ => rfl)
    simp [fill, hd, this]
  | q :: params, w :: vs, ρ, p, h, hd, hv => by
    simp only [List.cons_append, fill]
    rw [fill_last M v d params vs _ p (by simpa using h) hd]
    intro ρ' h'
    refine hv ρ' fun x hx => ?_
    rw [← h' x fun q' hq' => hx q' (by simp [hq'])]
    have := hx q (by simp)
    simp [update, Ne.symm this]

/-- C76 (dropping the argument is safe).  If the last argument is reported, and the default does not refer to the type parameters of its own declaration, then
without the argument the list is completed to the same arguments. -/
theorem C76_safe (E : Env T) (M : Meaning E D) (u : Use T) (params : List (Param T)) (ρ : Nat → D) (h : reported E u params = true)
    (hi : ∀ p ∈ params, ∀ d, p.default = some d → Independent M params d) :
    fill M ρ params (u.arguments.dropLast.map (M.meaning ρ)) = fill M ρ params (u.arguments.map (M.meaning ρ)) := by
  obtain ⟨as, a, p, d, h1, h2, h3, h4, -⟩ := (C76_reported ..).1 h
  have hm : M.meaning ρ d = M.meaning ρ a := by
    rcases h4 with rfl | ⟨r, h5, h6⟩ | ⟨h5, h6⟩ | ⟨h5, h6⟩
    · rfl
    · exact M.congr ρ _ _ r h5 h6
    · exact M.bare ρ _ _ h5 h6
    · exact (M.bare ρ _ _ h5 h6).symm
  rw [h1, List.dropLast_concat, List.map_append, List.map_cons, List.map_nil]
  refine (fill_last M (M.meaning ρ a) d params (as.map (M.meaning ρ)) ρ p (by simpa using h2) h3 fun ρ' h' => ?_).symm
  rw [← hm]
  exact (hi p (List.mem_of_getElem? h2) d h3 ρ ρ' h').symm

/-- C76 (finding).  A default that is another type parameter: inside `class C<A, B = A> { x: C<string, A> }` the argument `A` is the same type as the default, so it is
reported, but without it the type is `C<string, string>`.  (Types: 0 stands for `A`, 1 for `string`; `A` stands for 7.) -/
theorem C76_hazard_parameter : ∃ (E : Env Nat) (M : Meaning E Nat) (u : Use Nat) (params : List (Param Nat)) (ρ : Nat → Nat),
    reported E u params = true ∧ fill M ρ params (u.arguments.map (M.meaning ρ)) = some [1, 7] ∧
    fill M ρ params (u.arguments.dropLast.map (M.meaning ρ)) = some [1, 1] :=
  ⟨⟨fun _ => none⟩, ⟨fun ρ t => if t = 0 then ρ 0 else t, by simp, by simp⟩, ⟨false, [1, 0], [], 0⟩, [⟨0, none⟩, ⟨1, some 0⟩], fun _ => 7, by decide, by decide, by decide⟩

/-- C76 (finding).  The type argument of an ordinary call is reported even if a parameter type mentions the type parameter, so that without the argument the type
is inferred from the values instead. -/
theorem C76_hazard_call (E : Env T) (t : T) (sym : Nat) (ms : List (List Nat)) (n : Nat) : reported E ⟨false, [t], ms, n⟩ [⟨sym, some t⟩] = true := by
  simp [reported, typesMatch, canInfer]

/-! ## Which declaration counts -/

omit [DecidableEq T] in
theorem compare_le (b : Bool) (x y : Decl T) : compare b x y ≤ 0 ↔ if b then (isTypeContext y = true → isTypeContext x = true) else (isTypeContext x = true → isTypeContext y = true) := by
  cases b <;> cases h1 : isTypeContext x <;> cases h2 : isTypeContext y <;> simp [compare, h1, h2]

omit [DecidableEq T] in
theorem firstParams_mem : ∀ (ds : List (Decl T)) ps, firstParams ds = some ps → ∃ d ∈ ds, d = .typeContext ps ∨ d = .classLike ps ∨ d = .variable_ (some ps)
  | [], ps, h => by simp [firstParams] at h
  | d :: ds, ps, h => by
    cases d with
    | typeContext qs => simp [firstParams] at h; subst h; exact ⟨_, by simp, .inl rfl⟩
    | classLike qs => simp [firstParams] at h; subst h; exact ⟨_, by simp, .inr (.inl rfl)⟩
    | variable_ qs =>
      cases qs with
      | none =>
        obtain ⟨d, h1, h2⟩ := firstParams_mem ds ps (by simpa [firstParams] using h)
        exact ⟨d, by simp [h1], h2⟩
      | some qs => simp [firstParams] at h; subst h; exact ⟨_, by simp, .inr (.inr rfl)⟩
    | other =>
      obtain ⟨d, h1, h2⟩ := firstParams_mem ds ps (by simpa [firstParams] using h)
      exact ⟨d, by simp [h1], h2⟩

omit [DecidableEq T] in
/-- C76 (declarations, in a type).  Whatever the sort does with equal elements: where a type is meant and the symbol has an alias or interface declaration, the type
parameters are those of one of these; if not, they are those of a class or of a variable with a construct signature. -/
theorem C76_type_declaration (S : Sorter (compare (T := T) true)) (decls : List (Decl T)) :
    ((∃ ps, Decl.typeContext ps ∈ decls) → ∃ ps, Decl.typeContext ps ∈ decls ∧ paramsFromType true S decls = some ps) ∧
    (∀ ps, paramsFromType true S decls = some ps → Decl.typeContext ps ∈ decls ∨
      ((∀ qs, Decl.typeContext qs ∉ decls) ∧ (Decl.classLike ps ∈ decls ∨ Decl.variable_ (some ps) ∈ decls))) := by
  have hp := S.perm decls
  have hs := S.sorted decls
  unfold paramsFromType
  have first : (∃ ps, Decl.typeContext ps ∈ decls) → ∃ ps, Decl.typeContext ps ∈ decls ∧ firstParams (S.sort decls) = some ps := by
    rintro ⟨ps, h⟩
    have hm := hp.symm.subset h
    cases hl : S.sort decls with
    | nil => simp [hl] at hm
    | cons d ds =>
      rw [hl] at hs hm hp
      have hd : isTypeContext d = true := by
        rcases List.mem_cons.1 hm with rfl | hm
        · rfl
        · have := (List.pairwise_cons.1 hs).1 _ hm
          rw [compare_le] at this
          simpa [isTypeContext] using this
      cases d with
      | typeContext qs => exact ⟨qs, hp.subset (by simp), rfl⟩
      | _ => simp [isTypeContext] at hd
  refine ⟨first, fun ps h => ?_⟩
  obtain ⟨d, h1, h2⟩ := firstParams_mem _ _ h
  have h1' := hp.subset h1
  by_cases hex : ∃ qs, Decl.typeContext qs ∈ decls
  · obtain ⟨qs, h3, h4⟩ := first hex
    rw [h4] at h
    cases h
    exact .inl h3
  · rcases h2 with rfl | rfl | rfl
    · exact .inl h1'
    · exact .inr ⟨fun qs hq => hex ⟨qs, hq⟩, .inl h1'⟩
    · exact .inr ⟨fun qs hq => hex ⟨qs, hq⟩, .inr h1'⟩

omit [DecidableEq T] in
/-- C76 (declarations, in a value).  Where a value is meant, a class or a variable with a construct signature comes first. -/
theorem C76_value_declaration (S : Sorter (compare (T := T) false)) (decls : List (Decl T)) (ps : List (Param T))
    (h : paramsFromType false S decls = some ps) :
    (Decl.classLike ps ∈ decls ∨ Decl.variable_ (some ps) ∈ decls) ∨
    (Decl.typeContext ps ∈ decls ∧ ∀ qs, Decl.classLike qs ∉ decls ∧ Decl.variable_ (some qs) ∉ decls) := by
  have hp := S.perm decls
  have hs := S.sorted decls
  unfold paramsFromType at h
  suffices ∀ l : List (Decl T), l.Pairwise (fun a b => compare false a b ≤ 0) → firstParams l = some ps →
      (Decl.classLike ps ∈ l ∨ Decl.variable_ (some ps) ∈ l) ∨ (Decl.typeContext ps ∈ l ∧ ∀ qs, Decl.classLike qs ∉ l ∧ Decl.variable_ (some qs) ∉ l) by
    simpa only [hp.mem_iff] using this _ hs h
  clear h hs hp
  intro l
  induction l with
  | nil => intro _ h; simp [firstParams] at h
  | cons d l ih =>
    intro hs h
    have hs' := List.pairwise_cons.1 hs
    cases d with
    | typeContext qs =>
      simp [firstParams] at h; subst h
      refine .inr ⟨by simp, fun qs => ⟨?_, ?_⟩⟩
      · intro hm
        rcases List.mem_cons.1 hm with h | hm
        · cases h
        · have := hs'.1 _ hm
          rw [compare_le] at this
          simp [isTypeContext] at this
      · intro hm
        rcases List.mem_cons.1 hm with h | hm
        · cases h
        · have := hs'.1 _ hm
          rw [compare_le] at this
          simp [isTypeContext] at this
    | classLike qs => simp [firstParams] at h; subst h; exact .inl (.inl (by simp))
    | variable_ qs =>
      cases qs with
      | none => simpa using ih hs'.2 (by simpa [firstParams] using h)
      | some qs => simp [firstParams] at h; subst h; exact .inl (.inr (by simp))
    | other => simpa using ih hs'.2 (by simpa [firstParams] using h)

omit [DecidableEq T] in
/-- C76 (declarations, found).  Type parameters are found exactly if some declaration has any, wherever it stands. -/
theorem C76_found (b : Bool) (S : Sorter (compare (T := T) b)) (decls : List (Decl T)) :
    (paramsFromType b S decls).isSome = true ↔
      ∃ ps, Decl.typeContext ps ∈ decls ∨ Decl.classLike ps ∈ decls ∨ Decl.variable_ (some ps) ∈ decls := by
  have hp := S.perm decls
  unfold paramsFromType
  simp only [← hp.mem_iff]
  generalize S.sort decls = l
  clear hp
  induction l with
  | nil => simp [firstParams]
  | cons d ds ih =>
    cases d with
    | typeContext qs => simpa [firstParams] using ⟨qs, .inl (.inl rfl)⟩
    | classLike qs => simpa [firstParams] using ⟨qs, .inr (.inl (.inl rfl))⟩
    | variable_ qs =>
      cases qs with
      | none => simpa [firstParams] using ih
      | some qs => simpa [firstParams] using ⟨qs, .inr (.inr (.inl rfl))⟩
    | other => simpa [firstParams] using ih

/-- C76 (fix).  The only argument goes with its brackets, another one with the comma before it. -/
theorem C76_fix (pre args last post : Bytes) (n : Nat) (hn : n ≠ 1) (gap : Bytes) :
    AppliesTo (pre ++ ascii "<" ++ last ++ gap ++ ascii ">" ++ post) [fix 1 (pre ++ ascii "<").length (pre ++ ascii "<" ++ last ++ gap ++ ascii ">").length 0 0] (pre ++ post) ∧
    AppliesTo (pre ++ args ++ last ++ post) [fix n 0 0 (pre ++ args).length (pre ++ args ++ last).length] (pre ++ args ++ post) := by
  constructor
  · have := Seg.applies_sorted [.keep pre, .sub (ascii "<" ++ last ++ gap ++ ascii ">") [], .keep post]
    have e : (pre.length : Int) + ((ascii "<").length : Int) - 1 = (pre.length : Int) := by
      have : (ascii "<").length = 1 := by decide
      omega
    simpa [Seg.old, Seg.new, Seg.edits, fix, List.append_assoc, Nat.add_assoc, e] using this
  · have := Seg.applies_sorted [.keep (pre ++ args), .sub last [], .keep post]
    simpa [Seg.old, Seg.new, Seg.edits, fix, hn, List.append_assoc, Nat.add_assoc] using this

/-! ## Where the rule looks -/

/-- C76 (places).  Type arguments are looked at wherever they are given, and compared with the type parameters they belong to: in a type reference and after `implements` those
of the type, after `extends` those of the value; in a call, `new`, tagged template or JSX element those of the resolved signature, of a `new` otherwise those of the class. -/
theorem C76_places (E : Env T) (S : (b : Bool) → Sorter (compare (T := T) b)) (place : Place) (parent : Parent) (hg : Grammatical place parent)
    (signature : Option (List (Param T))) (name : Name T) (u : Use T) :
    look E S place parent signature name u = true ↔
      ∃ ps, Parameters (fun b => (paramsFromType b (S b) (declarations name)).getD []) (signature.getD []) place parent ps ∧ reported E u ps = true := by
  have hnil : reported E u [] = false := by unfold reported; simp
  have hempty : u.arguments.isEmpty = true → ∀ ps, reported E u ps = false := by
    intro h ps; unfold reported; simp [h]
  have hname : ∀ _ : Bool, (paramsFromName S place parent name).getD [] = (paramsFromType (inTypeContext place parent) (S (inTypeContext place parent)) (declarations name)).getD [] := by
    have hempty : (paramsFromType (inTypeContext place parent) (S (inTypeContext place parent)) ([] : List (Decl T))) = none := by
      unfold paramsFromType
      rw [List.Perm.eq_nil ((S (inTypeContext place parent)).perm [])]; rfl
    intro _; unfold paramsFromName
    cases name with
    | unknown => simp only [Name.decls, declarations, hempty]
    | plain ds => rfl
    | alias_ t => cases t with
      | none => simp only [Name.decls, declarations, hempty]
      | some ds => rfl
  unfold look
  by_cases he : u.arguments.isEmpty = true
  · rw [if_pos he]
    simp only [Bool.false_eq_true, false_iff]
    rintro ⟨ps, -, h⟩
    rw [hempty he ps] at h; cases h
  · rw [if_neg he]
    have hother : place ≠ .heritage → place ≠ .typeReference →
        (reported E u ((paramsFromCall S place parent signature name).getD []) = true ↔
          ∃ ps, Parameters (fun b => (paramsFromType b (S b) (declarations name)).getD []) (signature.getD []) place parent ps ∧ reported E u ps = true) := by
      intro h1 h2
      have hp := hg.2 h1 h2
      have hctx : inTypeContext place parent = false := by
        subst hp; unfold inTypeContext; simp [h2]
      constructor
      · intro h
        cases hs : signature.getD [] with
        | cons p ps =>
          refine ⟨p :: ps, ?_, ?_⟩
          · exact .resolved place parent h1 h2 (by simp)
          · cases signature with
            | none => cases hs
            | some l =>
              simp only [Option.getD_some] at hs
              subst hs; exact h
        | nil =>
          have hc : paramsFromCall S place parent signature name = if place = .newCall then paramsFromName S place parent name else none := by
            cases signature with
            | none => rfl
            | some l => simp only [Option.getD_some] at hs; subst hs; rfl
          rw [hc] at h
          by_cases hn : place = .newCall
          · rw [if_pos hn, hname true, hctx] at h
            subst hn
            exact ⟨_, .constructed parent rfl, h⟩
          · rw [if_neg hn] at h
            rw [show (none : Option (List (Param T))).getD [] = [] from rfl, hnil] at h
            cases h
      · rintro ⟨ps, hp', h⟩
        cases hp' with
        | reference => exact absurd rfl h2
        | implemented => exact absurd rfl h1
        | extended => exact absurd rfl h1
        | resolved _ _ _ _ hs =>
          have : paramsFromCall S place parent signature name = signature := by
            cases signature with
            | none => exact absurd rfl hs
            | some l => cases l with
              | nil => exact absurd rfl hs
              | cons p ps => rfl
          rw [this]; exact h
        | constructed _ hs =>
          have hc : paramsFromCall S .newCall parent signature name = paramsFromName S .newCall parent name := by
            cases signature with
            | none => rfl
            | some l => simp only [Option.getD_some] at hs; subst hs; rfl
          rw [hc, hname true, hctx]; exact h
    cases place with
    | heritage =>
      obtain ⟨b, i, rfl⟩ := hg.1 rfl
      show reported E u ((paramsFromName S .heritage (.heritage b i) name).getD []) = true ↔ _
      rw [hname true, show inTypeContext .heritage (.heritage b i) = b by cases b <;> cases i <;> rfl]
      constructor
      · intro h
        cases b with
        | true => exact ⟨_, .implemented i, h⟩
        | false => exact ⟨_, .extended i, h⟩
      · rintro ⟨ps, hp', h⟩
        cases hp' with
        | implemented => exact h
        | extended => exact h
        | resolved _ _ h1 => exact absurd rfl h1
    | typeReference =>
      show reported E u ((paramsFromName S .typeReference parent name).getD []) = true ↔ _
      rw [hname true, show inTypeContext .typeReference parent = true by unfold inTypeContext; simp]
      constructor
      · intro h; exact ⟨_, .reference parent, h⟩
      · rintro ⟨ps, hp', h⟩
        cases hp' with
        | reference => exact h
        | resolved _ _ _ h2 => exact absurd rfl h2
    | call => exact hother (by decide) (by decide)
    | newCall => exact hother (by decide) (by decide)
    | tag => exact hother (by decide) (by decide)
    | jsx => exact hother (by decide) (by decide)
    | jsxSelf => exact hother (by decide) (by decide)

/-- C76 (finding).  `interface J extends I<number>` is looked at as a value: if besides `interface I<T = string>` there is a variable `I` with a construct signature `new <T = number>`,
the argument is reported, although without it the interface extends `I<string>`.  (Types: 0 is `string`, 1 is `number`.) -/
theorem C76_hazard_interface (S : (b : Bool) → Sorter (compare (T := Nat) b)) :
    look ⟨fun _ => none⟩ S .heritage (.heritage false true) none (.plain [.typeContext [⟨0, some 0⟩], .variable_ (some [⟨1, some 1⟩])]) ⟨false, [1], [], 0⟩ = true := by
  have hp := (S false).perm [Decl.typeContext [⟨0, some 0⟩], Decl.variable_ (some [⟨1, some 1⟩])]
  have key : paramsFromType false (S false) [Decl.typeContext [⟨0, some 0⟩], Decl.variable_ (some [⟨1, some 1⟩])] = some [⟨1, some 1⟩] := by
    have hs := (C76_found false (S false) [Decl.typeContext [⟨0, some 0⟩], Decl.variable_ (some [⟨1, some 1⟩])]).2 ⟨[⟨0, some 0⟩], .inl (by simp)⟩
    obtain ⟨ps, hps⟩ := Option.isSome_iff_exists.1 hs
    have hv := C76_value_declaration (S false) _ ps hps
    simp at hv
    simp [hps, hv]
  show reported _ _ ((paramsFromType false (S false) _).getD []) = true
  rw [key]
  decide

/-! ## Cases -/

example : Grammatical .heritage (.heritage true false) ∧ Grammatical .newCall .other := ⟨⟨fun _ => ⟨_, _, rfl⟩, fun h => absurd rfl h⟩, ⟨fun h => absurd h (by decide), fun _ _ => rfl⟩⟩

example : reported (T := Nat) ⟨fun t => if t = 5 ∨ t = 6 then some (4, [1]) else none⟩ ⟨false, [5], [], 0⟩ [⟨0, some 6⟩] = true := by decide
example : reported (T := Nat) ⟨fun _ => none⟩ ⟨false, [5], [], 0⟩ [⟨0, some 6⟩] = false := by decide
example : reported (T := Nat) ⟨fun _ => none⟩ ⟨true, [6], [[0]], 1⟩ [⟨0, some 6⟩] = false := by decide
example : reported (T := Nat) ⟨fun _ => none⟩ ⟨true, [6], [[3]], 1⟩ [⟨0, some 6⟩] = true := by decide
example : reported (T := Nat) ⟨fun _ => none⟩ ⟨true, [1, 6], [[0]], 1⟩ [⟨0, none⟩, ⟨1, some 6⟩] = true := by decide
example : reported (T := Nat) ⟨fun _ => none⟩ ⟨false, [1, 6, 2], [[0]], 1⟩ [⟨0, none⟩, ⟨1, some 6⟩] = false := by decide
def byClass (b : Bool) : Sorter (compare (T := Nat) b) := Sorter.ofMergeSort _
  (by intro x y z; simp only [compare_le]; cases b <;> simp <;> intro h1 h2 h3 <;> simp_all)
  (by intro x y; simp only [compare_le]; cases b <;> cases isTypeContext x <;> cases isTypeContext y <;> simp)
example : ∃ ps, Decl.typeContext ps ∈ [Decl.classLike [], Decl.typeContext (T := Nat) [⟨0, none⟩]] := ⟨_, List.mem_cons_of_mem _ (List.mem_singleton.2 rfl)⟩

end Tsgolint.TypeArguments
