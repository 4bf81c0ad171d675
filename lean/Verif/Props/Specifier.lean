import Verif.Proof.Specifier
/-! # C37, C38: type-or-value specifiers -/
namespace Tsgolint.Specifier
open Tsgolint.Payload

/-- C37.  Exactly the documented JSON forms are accepted, with the documented meaning (`Denotes`); everything else is rejected. -/
theorem C37_accepted (j : Json) (s : Spec) : unmarshal j = some s ↔ Denotes j s := unmarshal_iff j s

theorem C37_rejected (j : Json) : unmarshal j = none ↔ ∀ s, ¬ Denotes j s := by
  constructor
  · intro h s hs; rw [(unmarshal_iff j s).2 hs] at h; cases h
  · intro h
    cases hu : unmarshal j with
    | none => rfl
    | some s => exact absurd ((unmarshal_iff j s).1 hu) (h s)

theorem get_from (v : Json) (r : List (String × Json)) : get "from" (("from", v) :: r) = v := by simp [Payload.get]

/-- C37 (round trip).  Every specifier other than the universal kind is written as JSON that is read back as the same specifier. -/
theorem C37_round_trip (s : Spec) (h : s.frm ≠ .name) : ∃ j, marshal s = some j ∧ unmarshal j = some s := by
  obtain ⟨frm, name, path, package⟩ := s
  have key : ∀ (f : String) (frm : From), parseFrom f = some frm →
      unmarshal (.obj ([("from", .str f), ("name", .arr (name.map .str))] ++
      (if path ≠ "" then [("path", Json.str path)] else []) ++
      (if package ≠ "" then [("package", Json.str package)] else []))) = some ⟨frm, name, path, package⟩ := by
    intro f frm hf
    rw [unmarshal_iff]
    refine .object _ _ _ _ _ ?_ ?_ ?_ ?_
    · have : get "from" ([("from", .str f), ("name", .arr (name.map .str))] ++
        (if path ≠ "" then [("path", Json.str path)] else []) ++
        (if package ≠ "" then [("package", Json.str package)] else [])) = .str f := by simp [Payload.get]
      rw [this]
      exact (from_iff _ _).1 (by simpa [unString] using hf)
    · right; right; simp [Payload.get]
    · by_cases h1 : path = "" <;> by_cases h2 : package = "" <;> simp [Payload.get, h1, h2]
    · by_cases h1 : path = "" <;> by_cases h2 : package = "" <;> simp [Payload.get, h1, h2]
  cases frm with
  | name => exact absurd rfl h
  | file => exact ⟨_, rfl, key "file" .file (by decide)⟩
  | lib => exact ⟨_, rfl, key "lib" .lib (by decide)⟩
  | package => exact ⟨_, rfl, key "package" .package (by decide)⟩

/-- C37 (round trip).  Whatever is accepted can be written back, and what is written is read as the same specifier. -/
theorem C37_reread (j : Json) (s : Spec) (h : unmarshal j = some s) : ∃ j', marshal s = some j' ∧ unmarshal j' = some s := by
  by_cases hn : s.frm = .name
  · rw [unmarshal_iff] at h
    cases h with
    | string x => exact ⟨.str x, rfl, rfl⟩
    | null => exact ⟨.str "", rfl, rfl⟩
    | object m frm names path package hfrom =>
      simp only at hn
      subst hn
      simp at hfrom
  · exact C37_round_trip s hn

/-- C37.  A universal specifier can be written back iff it has exactly one name. -/
theorem C37_universal (s : Spec) (h : s.frm = .name) : (∃ j, marshal s = some j) ↔ ∃ n, s.name = [n] := by
  obtain ⟨frm, name, path, package⟩ := s
  simp only at h; subst h
  unfold marshal
  simp only
  constructor
  · rintro ⟨j, hj⟩
    split at hj
    · rename_i n; exact ⟨n, rfl⟩
    · cases hj
  · rintro ⟨n, rfl⟩; exact ⟨_, rfl⟩

/-- C38.  A type is accepted by a list of specifiers iff it, or a constituent of the intersection it is, is not the error type and meets
one of them: one of its names is listed and its declarations are where the specifier says. -/
theorem C38_type (host : Host) (t : Ty) (parts : List Ty) (specs : List MSpec) :
    typeMatchesSome host t parts specs = true ↔
      ∃ u, (u = t ∨ u ∈ parts) ∧ u.intrinsic ≠ some errorName ∧ ∃ s ∈ specs, Meets host u s := by
  have key : ∀ u : Ty, (if u.intrinsic = some errorName then false else specs.any fun s => typeMatches host u s) = true ↔
      u.intrinsic ≠ some errorName ∧ ∃ s ∈ specs, Meets host u s := by
    intro u
    split
    · rename_i h; simp [h]
    · rename_i h; simp [h, List.any_eq_true, typeMatches_iff]
  unfold typeMatchesSome
  by_cases h : (if t.intrinsic = some errorName then false else specs.any fun s => typeMatches host t s) = true
  · simp only [h, ↓reduceIte]
    rw [key] at h
    exact ⟨fun _ => ⟨t, Or.inl rfl, h⟩, fun _ => trivial⟩
  · simp only [h, Bool.false_eq_true, ↓reduceIte]
    rw [key] at h
    rw [List.any_eq_true]
    constructor
    · rintro ⟨u, hu, h'⟩; exact ⟨u, Or.inr hu, (key u).1 h'⟩
    · rintro ⟨u, rfl | hu, h'⟩
      · exact absurd h' h
      · exact ⟨u, hu, (key u).2 h'⟩

/-- C38.  A symbol found by name is accepted iff that name is listed and its declarations are where the specifier says. -/
theorem C38_symbol (host : Host) (symbol : Option Sym) (name : Str) (s : MSpec) :
    symbolMatches host symbol name s = true ↔ ∃ x, symbol = some x ∧ name ∈ s.name ∧ SourceOk host s x.declarations := by
  unfold symbolMatches
  cases symbol with
  | none => simp
  | some x =>
    simp only [Option.some.injEq, exists_eq_left', ← sourceMatches_iff]
    by_cases h : name ∈ s.name
    · simp [h]
    · simp [h]

/-- C38.  The package of a file without a usable `package.json` is the segment after its last `node_modules`. -/
theorem C38_package_of_path (f : File) (pre rest : List Str) (n : Str) (hj : f.packageJson = none)
    (hs : IsSegments f.fileName (pre ++ nodeModules :: n :: rest)) (hn : n ≠ [] ∧ n ≠ ['.'] ∧ n ≠ ['.', '.'] ∧ ¬ ['@'] <+: n)
    (hlast : nodeModules ∉ n :: rest) : packageOf f = some n := by
  rw [packageOf_iff]
  refine ⟨_, hs, by simp, Or.inr ⟨hj, pre, .unscoped n rest rfl hn.1 hn.2.1 hn.2.2.1 hn.2.2.2, ?_⟩⟩
  intro pre' id' h
  have e : ∃ tl, pre ++ nodeModules :: n :: rest = pre' ++ nodeModules :: tl := by
    cases h with
    | unscoped _ _ e => exact ⟨_, e⟩
    | inScope _ _ _ e => exact ⟨_, e⟩
  obtain ⟨tl, e⟩ := e
  apply Classical.byContradiction
  intro hlt
  have h1 : (pre ++ nodeModules :: n :: rest)[pre'.length]? = some nodeModules := by rw [e]; simp
  rw [List.getElem?_append_right (by omega)] at h1
  obtain ⟨k, hk⟩ : ∃ k, pre'.length - pre.length = k + 1 := ⟨pre'.length - pre.length - 1, by omega⟩
  rw [hk] at h1
  simp only [List.getElem?_cons_succ] at h1
  exact hlast (List.mem_of_getElem? h1)

/-- C38.  For a scoped package it is the two segments after the last `node_modules`. -/
theorem C38_scoped_package_of_path (f : File) (pre rest : List Str) (s n : Str) (hj : f.packageJson = none)
    (hs : IsSegments f.fileName (pre ++ nodeModules :: ('@' :: s) :: n :: rest)) (hn : n ≠ [])
    (hlast : nodeModules ∉ n :: rest) : packageOf f = some ('@' :: s ++ '/' :: n) := by
  rw [packageOf_iff]
  refine ⟨_, hs, by simp, Or.inr ⟨hj, pre, .inScope ('@' :: s) n rest rfl ⟨s, rfl⟩ hn, ?_⟩⟩
  intro pre' id' h
  have e : ∃ tl, pre ++ nodeModules :: ('@' :: s) :: n :: rest = pre' ++ nodeModules :: tl := by
    cases h with
    | unscoped _ _ e => exact ⟨_, e⟩
    | inScope _ _ _ e => exact ⟨_, e⟩
  obtain ⟨tl, e⟩ := e
  apply Classical.byContradiction
  intro hlt
  have h1 : (pre ++ nodeModules :: ('@' :: s) :: n :: rest)[pre'.length]? = some nodeModules := by rw [e]; simp
  rw [List.getElem?_append_right (by omega)] at h1
  obtain ⟨k, hk⟩ : ∃ k, pre'.length - pre.length = k + 1 := ⟨pre'.length - pre.length - 1, by omega⟩
  rw [hk] at h1
  simp only [List.getElem?_cons_succ] at h1
  cases k with
  | zero =>
    simp only [List.getElem?_cons_zero, Option.some.injEq] at h1
    have := congrArg List.head? h1
    simp [nodeModules] at this
  | succ k => simp only [List.getElem?_cons_succ] at h1; exact hlast (List.mem_of_getElem? h1)

/-- C38.  A file that is not below a `node_modules` directory belongs to no package, whatever `package.json` it has. -/
theorem C38_outside_node_modules (f : File) (segs : List Str) (h : IsSegments f.fileName segs) (hn : nodeModules ∉ segs) :
    packageOf f = none := by
  cases hp : packageOf f with
  | none => rfl
  | some id =>
    obtain ⟨segs', h1, h2, _⟩ := (packageOf_iff f id).1 hp
    rw [segments_unique h1, ← segments_unique h] at h2
    exact absurd h2 hn

/-- C38.  The `package.json` that counts is the nearest one with a name, among the directories below (or at) a `node_modules`. -/
theorem C38_nearest_package_json (nameIn : Str → Option Str) (dirs : List Str) (n : Str) :
    nearestPackageJson nameIn dirs = some n ↔ ∃ pre d post, dirs = pre ++ d :: post ∧ nameIn d = some n ∧
      (∀ x ∈ pre, nameIn x = none) ∧ ∀ x ∈ pre ++ [d], x ≠ [] ∧ containsNodeModules x = true := by
  induction dirs with
  | nil => simp [nearestPackageJson]
  | cons a dirs ih =>
    simp only [nearestPackageJson]
    split
    · rename_i h
      simp only [reduceCtorEq, false_iff]
      rintro ⟨pre, d, post, h1, _, _, h4⟩
      have ha : a ∈ pre ++ [d] := by
        cases pre with
        | nil => simp at h1; simp [h1.1]
        | cons b pre => simp at h1; simp [h1.1]
      have := h4 a ha
      rcases h with h | h
      · exact this.1 h
      · rw [this.2] at h; cases h
    · rename_i h
      simp only [not_or, Bool.not_eq_false] at h
      cases hn : nameIn a with
      | some m =>
        simp only [Option.some.injEq]
        constructor
        · rintro rfl; exact ⟨[], a, dirs, rfl, hn, by simp, by simpa using h⟩
        · rintro ⟨pre, d, post, h1, h2, h3, _⟩
          cases pre with
          | nil => simp at h1; rw [← h1.1, hn] at h2; simpa using h2
          | cons b pre => simp at h1; have := h3 b (by simp); rw [← h1.1, hn] at this; cases this
      | none =>
        simp only
        rw [ih]
        constructor
        · rintro ⟨pre, d, post, h1, h2, h3, h4⟩
          refine ⟨a :: pre, d, post, by simp [h1], h2, ?_, ?_⟩
          · intro x hx; simp at hx; rcases hx with rfl | hx
            · exact hn
            · exact h3 x hx
          · intro x hx; simp at hx; rcases hx with rfl | hx | rfl
            · exact h
            · exact h4 x (by simp [hx])
            · exact h4 x (by simp)
        · rintro ⟨pre, d, post, h1, h2, h3, h4⟩
          cases pre with
          | nil => simp at h1; rw [← h1.1, hn] at h2; cases h2
          | cons b pre =>
            simp at h1
            exact ⟨pre, d, post, h1.2, h2, fun x hx => h3 x (by simp [hx]), fun x hx => h4 x (by simp at hx ⊢; exact Or.inr hx)⟩

/-- C38 (finding).  A file specifier without a path is meant for files of the project directory, but the code compares the bare prefix:
a file of a sibling directory whose name begins with the project's name is accepted too. -/
theorem C38_file_prefix_not_directory (host : Host) (rest : Str) :
    declaredInFile host [] [⟨host.cwd ++ ['2', '/'] ++ rest, false, false, none⟩] = true := by
  simp [declaredInFile, List.isPrefixOf_iff_prefix]

/-- C38.  A value (a call to be allowed, a deprecated reference) is accepted by a list of specifiers iff it has a static name that one of
them lists, and, for a package specifier, its type's declarations are in that package.  For file and lib specifiers the code does not look
at the declarations at all (finding). -/
theorem C38_value (nodeName : Str) (symbol : Option Sym) (specs : List MSpec) :
    valueMatchesSome nodeName true symbol specs = true ↔ nodeName ≠ [] ∧ ∃ s ∈ specs, nodeName ∈ s.name ∧
      (s.frm = .package → ∃ x, symbol = some x ∧
        ((∃ d ∈ x.declarations, InDeclareModule d.up s.package) ∨ (s.package ≠ [] ∧ ∃ d ∈ x.declarations, InPackage s.package d.file))) := by
  unfold valueMatchesSome
  rw [List.any_eq_true]
  have key : ∀ s : MSpec, valueMatches nodeName true symbol s = true ↔ nodeName ≠ [] ∧ nodeName ∈ s.name ∧
      (s.frm = .package → ∃ x, symbol = some x ∧
        ((∃ d ∈ x.declarations, InDeclareModule d.up s.package) ∨ (s.package ≠ [] ∧ ∃ d ∈ x.declarations, InPackage s.package d.file))) := by
    intro s
    unfold valueMatches
    by_cases h1 : nodeName = []
    · simp [h1]
    by_cases h2 : nodeName ∈ s.name
    · simp only [h1, ↓reduceIte, List.contains_eq_mem, h2, decide_true, Bool.true_eq_false, ne_eq, not_false_eq_true, true_and]
      cases hf : s.frm with
      | package =>
        cases symbol with
        | none => simp
        | some x =>
          simp only [declaredInPackage, Bool.or_eq_true, declareModule_iff, declarationFile_iff, List.mem_map, forall_const,
            Option.some.injEq, exists_eq_left']
          grind
      | _ => simp
    · simp [h1, h2]
  constructor
  · rintro ⟨s, hs, h⟩; have := (key s).1 h; exact ⟨this.1, s, hs, this.2⟩
  · rintro ⟨h0, s, hs, h⟩; exact ⟨s, hs, (key s).2 ⟨h0, h⟩⟩

/-! ## Cases that meet the hypotheses -/

/-- `{"from": "package", "name": ["A", "B"], "package": "@s/n"}` -/
example : unmarshal (.obj [("from", .str "package"), ("name", .arr [.str "A", .str "B"]), ("package", .str "@s/n")]) =
    some ⟨.package, ["A", "B"], "", "@s/n"⟩ := by decide

example : unmarshal (.obj [("from", .str "web"), ("name", .str "A")]) = none ∧
    unmarshal (.obj [("from", .str "lib"), ("name", .arr [.str "A", .int 1])]) = none ∧ unmarshal (.int 3) = none := by decide

/-- A declaration file of `@types/s__n` is accepted for the package specifier `@s/n`. -/
example : let f : File := ⟨"/p/node_modules/@types/s__n/index.d.ts".toList, false, true, none⟩
    typeMatchesSome ⟨"/p".toList, id⟩ ⟨none, some ⟨"A".toList, [⟨[], f⟩]⟩, none⟩ [] [⟨.package, ["A".toList], [], "@s/n".toList⟩] = true := by
  decide +kernel

/-- The file is `/p/node_modules/a/node_modules/b/x.ts`: the package is `b`. -/
example : packageOf ⟨"/p/node_modules/a/node_modules/b/x.ts".toList, false, true, none⟩ = some "b".toList ∧
    IsSegments "/p/node_modules/a/node_modules/b/x.ts".toList
      (["".toList, "p".toList, nodeModules, "a".toList] ++ nodeModules :: "b".toList :: ["x.ts".toList]) := by
  refine ⟨by decide +kernel, by decide, by decide +kernel, by decide +kernel⟩

end Tsgolint.Specifier
