import Verif.Spec.Payload
/-! # C09, C10: payload versions -/
namespace Tsgolint.Payload

theorem allSome_map {α β γ : Type} (f : β → Option γ) (g : α → β) (h : α → γ) (l : List α)
    (hfg : ∀ a ∈ l, f (g a) = some (h a)) : allSome f (l.map g) = some (l.map h) := by
  induction l with
  | nil => rfl
  | cons a l ih =>
    simp only [List.map_cons, allSome, hfg a (by simp), ih (fun b hb => hfg b (by simp [hb]))]

theorem get_absent {k : String} {m : List (String × Json)} (h : ∀ kv ∈ m, kv.1 ≠ k) : get k m = .null := by
  induction m with
  | nil => rfl
  | cons kv m ih => simp [get, h kv (by simp), ih (fun x hx => h x (by simp [hx]))]

theorem get_eq_find (k : String) (m : List (String × Json)) :
    get k m = ((m.find? (fun kv => kv.1 = k)).map (·.2)).getD .null := by
  induction m with
  | nil => rfl
  | cons kv m ih => by_cases h : kv.1 = k <;> simp [get, h, ih]

theorem unFileV1_doc (f : String × List String) :
    unFileV1 (.obj [("file_path", .str f.1), ("rules", .arr (f.2.map .str))]) = some ⟨f.1, f.2⟩ := by
  have h := allSome_map unString Json.str id f.2 (fun _ _ => rfl)
  simp [unFileV1, unStruct, get, unString, unSlice, h]

theorem unConfig_doc (f : String × List String) :
    unConfig (.obj [("file_paths", .arr [.str f.1]), ("rules", .arr (f.2.map fun r => .obj [("name", .str r)]))]) =
      some ⟨[f.1], f.2.map fun r => ⟨r, none⟩⟩ := by
  have h := allSome_map unRule (fun r : String => Json.obj [("name", .str r)]) (fun r => ⟨r, none⟩) f.2
    (fun _ _ => by simp [unRule, unStruct, get, unString, unAny])
  simp [unConfig, unStruct, get, unSlice, h, allSome, unString]

/-- C09 (format).  A V1 document with at least one file — with any further members other than `version` — is accepted with
exactly the meaning of its V2 translation (one config per file, in order, same rules in order, nothing else switched on). -/
theorem C09_v1_means_v2 (files : List (String × List String)) (extra : List (String × Json)) (hne : files ≠ [])
    (hextra : ∀ kv ∈ extra, kv.1 ≠ "version") :
    deserialize (v1Doc files extra) = deserialize (v2Doc files) ∧
    deserialize (v1Doc files extra) = .ok
      { version := 2
        configs := files.map fun f => ⟨[f.1], f.2.map fun r => ⟨r, none⟩⟩
        sourceOverrides := [], reportSyntactic := false, reportSemantic := false } := by
  have h1 := allSome_map unFileV1
    (fun f : String × List String => .obj [("file_path", .str f.1), ("rules", .arr (f.2.map .str))])
    (fun f => ⟨f.1, f.2⟩) files (fun f _ => unFileV1_doc f)
  have h2 := allSome_map unConfig
    (fun f : String × List String =>
      .obj [("file_paths", .arr [.str f.1]), ("rules", .arr (f.2.map fun r => .obj [("name", .str r)]))])
    (fun f => ⟨[f.1], f.2.map fun r => ⟨r, none⟩⟩) files (fun f _ => unConfig_doc f)
  have hv : get "version" extra = .null := get_absent hextra
  have e1 : deserialize (v1Doc files extra) = .ok
      { version := 2
        configs := files.map fun f => ⟨[f.1], f.2.map fun r => ⟨r, none⟩⟩
        sourceOverrides := [], reportSyntactic := false, reportSemantic := false } := by
    simp [deserialize, v1Doc, getPayloadVersion, unStruct, get, hv, unInt, unPayloadV1, unSlice, h1, hne, convertV1,
      Function.comp_def]
  have e2 : deserialize (v2Doc files) = .ok
      { version := 2
        configs := files.map fun f => ⟨[f.1], f.2.map fun r => ⟨r, none⟩⟩
        sourceOverrides := [], reportSyntactic := false, reportSemantic := false } := by
    simp [deserialize, v2Doc, getPayloadVersion, unStruct, get, unInt, unPayload, unSlice, h2, unMapStr, unBool]
  exact ⟨e1.trans e2.symm, e1⟩

/-- C09 (rejection).  A V1 payload without files (member missing, null or empty) is rejected. -/
theorem C09_v1_no_files_rejected (m : List (String × Json)) (hv : ∀ kv ∈ m, kv.1 ≠ "version")
    (hf : get "files" m = .null ∨ get "files" m = .arr []) : deserialize (.obj m) = .error .noFiles := by
  have hv := get_absent hv
  rcases hf with hf | hf <;>
    simp [deserialize, getPayloadVersion, unStruct, hv, unInt, unPayloadV1, unSlice, hf, allSome]

/-- C09 (whatever is accepted).  Every payload that is accepted although its version is not 2 comes from a non-empty V1 file
list and means its V2 translation: nothing else is ever accepted as V1. -/
theorem C09_accepted_v1 (j : Json) (p : Payload) (hok : deserialize j = .ok p) (hv : getPayloadVersion j ≠ some 2) :
    ∃ files : List (String × List String), files ≠ [] ∧
      unPayloadV1 j = some (files.map fun f => ⟨f.1, f.2⟩) ∧ deserialize (v2Doc files) = .ok p := by
  unfold deserialize at hok
  cases hg : getPayloadVersion j with
  | none => simp [hg] at hok
  | some v =>
    rw [hg] at hv
    have hv2 : v ≠ 2 := fun h => hv (by rw [h])
    by_cases h0 : v = 0
    · simp only [hg, h0] at hok
      cases hu : unPayloadV1 j with
      | none => simp [hu] at hok
      | some fs =>
        simp only [hu] at hok
        cases fs with
        | nil => simp at hok
        | cons f fs =>
          refine ⟨(f :: fs).map fun f => (f.filePath, f.rules), by simp, by simp [Function.comp_def], ?_⟩
          rw [← (C09_v1_means_v2 _ [] (by simp) (by simp)).1, (C09_v1_means_v2 _ [] (by simp) (by simp)).2]
          simpa [convertV1, Function.comp_def] using hok
    · simp [hg, hv2, h0] at hok

/-- C10 (2 is V2).  A payload whose `version` is 2 is accepted iff it has the V2 shape, with the value of that shape; it is never
read as V1. -/
theorem C10_version_2 (m : List (String × Json)) (hv : get "version" m = .int 2) (p : Payload) :
    (deserialize (.obj m) = .ok p ↔ unPayload (.obj m) = some p) ∧
    (deserialize (.obj m) = .error .badV2 ↔ unPayload (.obj m) = none) := by
  cases h : unPayload (.obj m) <;> simp [deserialize, getPayloadVersion, unStruct, hv, unInt, h]

/-- C10.  The version of every accepted payload is 2 in the end: the rest of the program only ever sees V2. -/
theorem C10_accepted_is_v2 (j : Json) (p : Payload) (h : deserialize j = .ok p) : p.version = 2 := by
  have key : ∀ m, getPayloadVersion (.obj m) = some 2 → unPayload (.obj m) = some p → p.version = 2 := by
    intro m hg hu
    simp only [getPayloadVersion, unStruct] at hg
    simp only [unPayload, unStruct, hg] at hu
    split at hu
    · rename_i h1 _ _ _ _
      injection h1 with h1; injection hu with hu
      rw [← hu, ← h1]
    · cases hu
  unfold deserialize at h
  split at h
  · cases h
  · rename_i v hg
    split at h
    · rename_i hv; subst hv
      split at h
      · cases h
      · rename_i q hq
        injection h with h; subst h
        cases j with
        | obj m => exact key m hg hq
        | null => simp [getPayloadVersion, unStruct, get, unInt] at hg
        | _ => simp [getPayloadVersion, unStruct] at hg
    · split at h
      · cases h
      · split at h
        · cases h
        · split at h
          · cases h
          · injection h with h; rw [← h]; rfl

/-- C10 (V2 round trip).  Every V2 payload value can be sent: its document decodes to exactly that value, rule order, options,
overrides and flags included. -/
theorem C10_v2_round_trip (p : Payload) (h2 : p.version = 2)
    (hopt : ∀ c ∈ p.configs, ∀ r ∈ c.rules, r.options ≠ some .null) : deserialize (fullV2Doc p) = .ok p := by
  have hr : ∀ c ∈ p.configs, allSome unRule
      (c.rules.map fun r => .obj [("name", .str r.name), ("options", r.options.getD .null)]) = some c.rules := by
    intro c hc
    have := allSome_map unRule (fun r : Rule => .obj [("name", .str r.name), ("options", r.options.getD .null)]) id c.rules
      (by
        intro r hr
        have := hopt c hc r hr
        obtain ⟨n, o⟩ := r
        cases o with
        | none => simp [unRule, unStruct, get, unString, unAny]
        | some o => cases o <;> simp_all [unRule, unStruct, get, unString, unAny])
    simpa using this
  have hf : ∀ c ∈ p.configs, allSome unString (c.filePaths.map .str) = some c.filePaths := by
    intro c _
    simpa using allSome_map unString Json.str id c.filePaths (fun _ _ => rfl)
  have hc := allSome_map unConfig
    (fun c : Config => .obj [("file_paths", .arr (c.filePaths.map .str)),
      ("rules", .arr (c.rules.map fun r => .obj [("name", .str r.name), ("options", r.options.getD .null)]))]) id p.configs
    (fun c hc => by simp [unConfig, unStruct, get, unSlice, hr c hc, hf c hc])
  have ho := allSome_map (fun kv : String × Json => (unString kv.2).map (fun v => (kv.1, v)))
    (fun kv : String × String => (kv.1, .str kv.2)) id p.sourceOverrides (fun kv _ => by simp [unString])
  obtain ⟨v, cs, os, a, b⟩ := p
  simp only at h2; subst h2
  simp only [List.map_id] at hc ho
  simp [deserialize, fullV2Doc, getPayloadVersion, unStruct, get, unInt, unPayload, unSlice, hc, unMapStr, ho, unBool]

/-- C10 (unset, null, 0 are V1): the three are indistinguishable, and never read as V2 nor reported as unsupported. -/
theorem C10_unset_null_zero (m : List (String × Json)) (hv : ∀ kv ∈ m, kv.1 ≠ "version") :
    deserialize (.obj (("version", .null) :: m)) = deserialize (.obj m) ∧
    deserialize (.obj (("version", .int 0) :: m)) = deserialize (.obj m) := by
  have hv := get_absent hv
  constructor <;>
    simp [deserialize, getPayloadVersion, unStruct, get, hv, unInt, unPayloadV1]

/-- C10 (everything else is rejected).  Any other 64-bit integer is rejected with an error that names it. -/
theorem C10_other_rejected (m : List (String × Json)) (v : Int) (h0 : v ≠ 0) (h2 : v ≠ 2)
    (hb : -(2 ^ 63) ≤ v ∧ v < 2 ^ 63) (hv : get "version" m = .int v) : deserialize (.obj m) = .error (.unsupported v) := by
  have hi : unInt (.int v) = some v := if_pos hb
  simp [deserialize, getPayloadVersion, unStruct, hv, hi, h0, h2]

/-- C10 (a version that is not a 64-bit integer literal is rejected), whatever else the payload holds. -/
theorem C10_bad_version_rejected (m : List (String × Json))
    (hv : (∃ b, get "version" m = .bool b) ∨ (∃ s, get "version" m = .frac s) ∨ (∃ s, get "version" m = .str s) ∨
      (∃ l, get "version" m = .arr l) ∨ (∃ l, get "version" m = .obj l) ∨
      (∃ i, get "version" m = .int i ∧ ¬ (-(2 ^ 63) ≤ i ∧ i < 2 ^ 63))) : deserialize (.obj m) = .error .badVersion := by
  rcases hv with ⟨b, h⟩ | ⟨b, h⟩ | ⟨b, h⟩ | ⟨b, h⟩ | ⟨b, h⟩ | ⟨b, h, hn⟩
  case inr.inr.inr.inr.inr =>
    have hi : unInt (.int b) = none := if_neg hn
    simp [deserialize, getPayloadVersion, unStruct, h, hi]
  all_goals simp [deserialize, getPayloadVersion, unStruct, h, unInt]

/-- C10 (unknown members).  Adding a member the format does not know, anywhere at the top level, never changes the outcome. -/
theorem C10_unknown_member_ignored (m m' : List (String × Json)) (k : String) (v : Json)
    (hk : k ∉ ["version", "files", "configs", "source_overrides", "report_syntactic", "report_semantic"]) :
    deserialize (.obj (m ++ (k, v) :: m')) = deserialize (.obj (m ++ m')) := by
  have hg : ∀ q, q ≠ k → get q (m ++ (k, v) :: m') = get q (m ++ m') := by
    intro q hq
    induction m with
    | nil => simp [get, Ne.symm hq]
    | cons kv m ih => simp [get, ih]
  simp only [List.mem_cons, List.not_mem_nil, or_false, not_or] at hk
  obtain ⟨k1, k2, k3, k4, k5, k6⟩ := hk
  simp [deserialize, getPayloadVersion, unStruct, unPayload, unPayloadV1, hg _ (Ne.symm k1), hg _ (Ne.symm k2),
    hg _ (Ne.symm k3), hg _ (Ne.symm k4), hg _ (Ne.symm k5), hg _ (Ne.symm k6)]

/-- C10: a payload that is not JSON, or whose top level is a scalar or an array, is rejected; so is top-level `null`. -/
theorem C10_not_an_object_rejected (B : Type) (parse : B → Option Json) (data : B) (p : Payload)
    (h : deserializeBytes parse data = .ok p) : ∃ m, parse data = some (.obj m) := by
  unfold deserializeBytes at h
  cases hp : parse data with
  | none => simp [hp] at h
  | some j =>
    cases j with
    | obj m => exact ⟨m, rfl⟩
    | _ => simp [hp, deserialize, getPayloadVersion, unStruct, get, unInt, unPayloadV1, unSlice] at h

/-- Non-vacuity: a real V1 and a real V2 document, and a rejected version. -/
example : (deserialize (v1Doc [("a.ts", ["x", "y"]), ("b.ts", [])] [("foo", .null)])).isOk = true :=
  by rw [(C09_v1_means_v2 _ _ (by simp) (by simp)).2]; rfl
example : deserialize (.obj [("version", .int 3)]) = .error (.unsupported 3) :=
  C10_other_rejected _ 3 (by decide) (by decide) (by decide) rfl

end Tsgolint.Payload
