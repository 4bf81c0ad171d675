import Verif.Spec.Options
/-! # C36: bool-or-object options; C50: rule options and their defaults -/
namespace Tsgolint.Options
open Tsgolint.Payload

/-! ## C36 -/

section
variable {T : Type} (dec : Json → Option T) (enc : T → Json)

/-- C36.  `true` and `false` are read as themselves. -/
theorem C36_bool (b : Bool) : BoolOr.unmarshal dec (.bool b) = boolOrValue b := rfl

/-- C36.  What each form of the option means: exactly `true` is "true"; an object of the right shape is that object and nothing else is;
everything else, including `false`, `null` and values of the wrong shape, is "false". -/
theorem C36_meaning (j : Json) :
    ((BoolOr.unmarshal dec j).isTrue = true ↔ j = .bool true) ∧
    (∀ o, (BoolOr.unmarshal dec j).objectVal = some o ↔ j ≠ .null ∧ (∀ b, j ≠ .bool b) ∧ dec j = some o) ∧
    ((BoolOr.unmarshal dec j).isFalse = true ↔ j = .null ∨ j = .bool false ∨ ((∀ b, j ≠ .bool b) ∧ dec j = none)) ∧
    ((BoolOr.unmarshal dec j).isSet = true ↔ (∃ b, j = .bool b) ∨ (j ≠ .null ∧ ∃ o, dec j = some o)) := by
  cases j with
  | null => simp [BoolOr.unmarshal, BoolOr.isTrue, BoolOr.isFalse]
  | bool b => cases b <;> simp [BoolOr.unmarshal, unBool, BoolOr.isTrue, BoolOr.isFalse]
  | int x => cases hd : dec (.int x) <;> simp [BoolOr.unmarshal, unBool, BoolOr.isTrue, BoolOr.isFalse, hd]
  | frac x => cases hd : dec (.frac x) <;> simp [BoolOr.unmarshal, unBool, BoolOr.isTrue, BoolOr.isFalse, hd]
  | str x => cases hd : dec (.str x) <;> simp [BoolOr.unmarshal, unBool, BoolOr.isTrue, BoolOr.isFalse, hd]
  | arr x => cases hd : dec (.arr x) <;> simp [BoolOr.unmarshal, unBool, BoolOr.isTrue, BoolOr.isFalse, hd]
  | obj x => cases hd : dec (.obj x) <;> simp [BoolOr.unmarshal, unBool, BoolOr.isTrue, BoolOr.isFalse, hd]

/-- C36.  Exactly one of "true", "false" and "object" holds of every option read. -/
theorem C36_trichotomy (j : Json) :
    let b := BoolOr.unmarshal dec j
    (b.isTrue = true ∧ b.isFalse = false ∧ b.objectVal = none ∧ b.bool = true) ∨
    (b.isTrue = false ∧ b.isFalse = true ∧ b.objectVal = none ∧ b.bool = false) ∨
    (b.isTrue = false ∧ b.isFalse = false ∧ b.objectVal.isSome = true ∧ b.bool = true) := by
  simp only
  unfold BoolOr.unmarshal
  split
  · simp [BoolOr.isTrue, BoolOr.isFalse, BoolOr.bool]
  · split
    · rename_i b _; cases b <;> simp [BoolOr.isTrue, BoolOr.isFalse, BoolOr.bool]
    · split <;> simp [BoolOr.isTrue, BoolOr.isFalse, BoolOr.bool]

/-- C36 (round trip).  An option that was read, written and read again is unchanged, if objects of the inner type survive the same. -/
theorem C36_round_trip (h : ∀ o, dec (enc o) = some o) (hobj : ∀ o, ∃ m, enc o = .obj m) (j : Json) :
    BoolOr.unmarshal dec (BoolOr.marshal enc (BoolOr.unmarshal dec j)) = BoolOr.unmarshal dec j := by
  have key : ∀ b : BoolOr T, (b = {} ∨ (∃ v, b = { isSet := true, boolVal := v }) ∨
      ∃ o, b = { isSet := true, boolVal := true, objectVal := some o }) → BoolOr.unmarshal dec (BoolOr.marshal enc b) = b := by
    rintro b (rfl | ⟨v, rfl⟩ | ⟨o, rfl⟩)
    · simp [BoolOr.marshal, BoolOr.unmarshal]
    · simp [BoolOr.marshal, BoolOr.unmarshal, unBool]
    · obtain ⟨m, hm⟩ := hobj o
      have := h o
      rw [hm] at this
      simp [BoolOr.marshal, BoolOr.unmarshal, unBool, hm, this]
  apply key
  unfold BoolOr.unmarshal
  split
  · exact Or.inl rfl
  · split
    · exact Or.inr (Or.inl ⟨_, rfl⟩)
    · split
      · exact Or.inr (Or.inr ⟨_, rfl⟩)
      · exact Or.inl rfl
end

/-! ## C50 -/

theorem get_mem {k : String} {v : Json} {m : List (String × Json)} (hn : (m.map (·.1)).Nodup) (h : (k, v) ∈ m) : Payload.get k m = v := by
  induction m with
  | nil => simp at h
  | cons a m ih =>
    obtain ⟨k', v'⟩ := a
    simp only [List.map_cons, List.nodup_cons] at hn
    simp only [Payload.get]
    simp only [List.mem_cons, Prod.mk.injEq] at h
    rcases h with ⟨rfl, rfl⟩ | h
    · simp
    · have : k' ≠ k := by
        rintro rfl
        exact hn.1 (List.mem_map.2 ⟨(k', v), h, rfl⟩)
      simp [this, ih hn.2 h]

theorem get_not_given {k : String} {m : List (String × Json)} (h : ∀ v, ¬ ((k, v) ∈ m ∧ v ≠ .null)) : Payload.get k m = .null := by
  induction m with
  | nil => rfl
  | cons a m ih =>
    obtain ⟨k', v'⟩ := a
    simp only [Payload.get]
    split
    · rename_i hk; subst hk
      by_cases hv : v' = .null
      · exact hv
      · exact absurd ⟨List.mem_cons_self, hv⟩ (h v')
    · exact ih fun v hv => h v ⟨by simp [hv.1], hv.2⟩

theorem readAll_mem {m : List (String × Json)} {s : Schema} {r : List (String × Val)} (h : readAll m s = some r) {f : Field}
    (hf : f ∈ s) : ∃ v, f.read m = some v ∧ (f.name, v) ∈ r := by
  induction s generalizing r with
  | nil => simp at hf
  | cons g s ih =>
    simp only [readAll] at h
    split at h
    · rename_i v vs h1 h2
      cases h
      simp only [List.mem_cons] at hf
      rcases hf with rfl | hf
      · exact ⟨v, h1, by simp⟩
      · obtain ⟨w, hw, hm⟩ := ih h2 hf
        exact ⟨w, hw, by simp [hm]⟩
    · simp at h

theorem readAll_names {m : List (String × Json)} {s : Schema} {r : List (String × Val)} (h : readAll m s = some r) :
    r.map (·.1) = s.map (·.name) := by
  induction s generalizing r with
  | nil => simp [readAll] at h; simp [← h]
  | cons g s ih =>
    simp only [readAll] at h
    split at h
    · rename_i v vs h1 h2; cases h; simp [ih h2]
    · simp at h

theorem readAll_isSome (m : List (String × Json)) (s : Schema) : (readAll m s).isSome = true ↔ ∀ f ∈ s, (f.read m).isSome = true := by
  induction s with
  | nil => simp [readAll]
  | cons g s ih =>
    simp only [readAll, List.forall_mem_cons, ← ih]
    cases g.read m <;> cases readAll m s <;> simp

theorem decode_null (k : Kind) : k.decode .null = some k.zero := by
  cases k <;> rfl

theorem read_isSome (f : Field) (m : List (String × Json)) : (f.read m).isSome = (f.kind.decode (Payload.get f.name m)).isSome := by
  unfold Field.read
  cases f.kind.decode (Payload.get f.name m) with
  | none => rfl
  | some v => simp only; split <;> rfl

/-- C50.  An option that is given (with a non-null value) has exactly the value given. -/
theorem C50_given (s : Schema) (j : Json) (hj : Distinct j) (r : List (String × Val)) (h : unmarshalOptions s j = some r) (f : Field)
    (hf : f ∈ s) (v : Json) (hv : Given j f.name v) : ∃ x, f.kind.decode v = some x ∧ (f.name, x) ∈ r := by
  obtain ⟨m, rfl, hm, hne⟩ := hv
  have hget := get_mem (hj m rfl) hm
  obtain ⟨x, hx, hmem⟩ := readAll_mem h hf
  refine ⟨x, ?_, hmem⟩
  unfold Field.read at hx
  rw [hget] at hx
  split at hx
  · simp at hx
  · rename_i w hw
    rw [hw]
    split at hx
    · exact absurd rfl hne
    · exact hx

/-- C50.  An option that is not given, or null, has its default (the zero value of its type if the code names no default). -/
theorem C50_default (s : Schema) (j : Json) (r : List (String × Val)) (h : unmarshalOptions s j = some r) (f : Field) (hf : f ∈ s)
    (hv : ∀ v, ¬ Given j f.name v) : (f.name, f.dflt.getD f.kind.zero) ∈ r := by
  have key : ∀ m, readAll m s = some r → Payload.get f.name m = .null → (f.name, f.dflt.getD f.kind.zero) ∈ r := by
    intro m hr hget
    obtain ⟨x, hx, hmem⟩ := readAll_mem hr hf
    unfold Field.read at hx
    rw [hget, decode_null] at hx
    simp only at hx
    cases hd : f.dflt with
    | none => rw [hd] at hx; simp at hx; rw [← hx] at hmem; exact hmem
    | some d => rw [hd] at hx; simp at hx; rw [← hx] at hmem; exact hmem
  cases j with
  | null => exact key [] h rfl
  | obj m => exact key m h (get_not_given fun v hh => hv v ⟨m, rfl, hh.1, hh.2⟩)
  | bool _ => simp [unmarshalOptions, unmarshal, unStruct] at h
  | int _ => simp [unmarshalOptions, unmarshal, unStruct] at h
  | frac _ => simp [unmarshalOptions, unmarshal, unStruct] at h
  | str _ => simp [unmarshalOptions, unmarshal, unStruct] at h
  | arr _ => simp [unmarshalOptions, unmarshal, unStruct] at h

/-- C50.  Each option gets exactly one value, and there are no others. -/
theorem C50_exactly_the_options (s : Schema) (j : Json) (r : List (String × Val)) (h : unmarshalOptions s j = some r) :
    r.map (·.1) = s.map (·.name) := by
  cases j with
  | null => exact readAll_names (m := []) h
  | obj m => exact readAll_names h
  | bool _ => simp [unmarshalOptions, unmarshal, unStruct] at h
  | int _ => simp [unmarshalOptions, unmarshal, unStruct] at h
  | frac _ => simp [unmarshalOptions, unmarshal, unStruct] at h
  | str _ => simp [unmarshalOptions, unmarshal, unStruct] at h
  | arr _ => simp [unmarshalOptions, unmarshal, unStruct] at h

/-- C50.  The rule panics exactly if the options are neither null nor an object, or a given option has the wrong type. -/
theorem C50_panics_iff (s : Schema) (j : Json) (hj : Distinct j) :
    unmarshalOptions s j = none ↔ ¬ ((j = .null ∨ ∃ m, j = .obj m) ∧
      ∀ f ∈ s, ∀ v, Given j f.name v → ∃ x, f.kind.decode v = some x) := by
  have hsome : ∀ m, (readAll m s = none ↔ ¬ ∀ f ∈ s, (f.kind.decode (Payload.get f.name m)).isSome = true) := by
    intro m
    have := readAll_isSome m s
    simp only [read_isSome] at this
    rw [← this]
    cases readAll m s <;> simp
  cases j with
  | null =>
    simp only [unmarshalOptions, unmarshal, unStruct]
    rw [hsome]
    have : ∀ f ∈ s, (f.kind.decode (Payload.get f.name [])).isSome = true := by
      intro f _; simp only [Payload.get]; rw [decode_null]; rfl
    simp only [true_or, true_and]
    constructor
    · intro h; exact absurd this h
    · intro h
      exfalso
      apply h
      rintro f _ v ⟨m, hm, _⟩
      cases hm
  | obj m =>
    simp only [unmarshalOptions, unmarshal, unStruct]
    rw [hsome]
    have : (∀ f ∈ s, (f.kind.decode (Payload.get f.name m)).isSome = true) ↔
        ∀ f ∈ s, ∀ v, Given (.obj m) f.name v → ∃ x, f.kind.decode v = some x := by
      constructor
      · rintro h f hf v ⟨m', hm, hv, _⟩
        cases hm
        have := h f hf
        rw [get_mem (hj m rfl) hv] at this
        exact Option.isSome_iff_exists.1 this
      · intro h f hf
        by_cases hg : ∃ v, (f.name, v) ∈ m ∧ v ≠ .null
        · obtain ⟨v, hv, hne⟩ := hg
          rw [get_mem (hj m rfl) hv]
          exact Option.isSome_iff_exists.2 (h f hf v ⟨m, rfl, hv, hne⟩)
        · rw [get_not_given (fun v hv => hg ⟨v, hv⟩), decode_null]; rfl
    rw [this]
    simp
  | bool _ => simp [unmarshalOptions, unmarshal, unStruct]
  | int _ => simp [unmarshalOptions, unmarshal, unStruct]
  | frac _ => simp [unmarshalOptions, unmarshal, unStruct]
  | str _ => simp [unmarshalOptions, unmarshal, unStruct]
  | arr _ => simp [unmarshalOptions, unmarshal, unStruct]

/-- Equality of the values that occur as defaults. -/
def valEq : Val → Val → Bool
  | .bool a, .bool b => a == b
  | .str a, .str b => a == b
  | .strPtr a, .strPtr b => a == b
  | .strs a, .strs b => a == b
  | .specs a, .specs b => decide (a = b)
  | .any (some (.bool a)), .any (some (.bool b)) => a == b
  | .any (some (.str a)), .any (some (.str b)) => a == b
  | _, _ => false

theorem valEq_sound {a b : Val} (h : valEq a b = true) : a = b := by
  unfold valEq at h
  split at h <;> simp_all

/-- The row of the code's table agrees with the row of the documentation. -/
def rowOk (s : Schema) (docs : List (String × Option Json)) : Bool :=
  decide ((s.map (·.name)).Nodup) && docs.all fun d =>
    match d.2 with
    | none => true
    | some j => s.any fun f => decide (f.name = d.1) && (match f.kind.decode j, j with
      | _, .null => false
      | some x, _ => valEq x (f.dflt.getD f.kind.zero)
      | none, _ => false)

theorem readAll_congr {m m' : List (String × Json)} {s : Schema} (h : ∀ f ∈ s, f.read m = f.read m') : readAll m s = readAll m' s := by
  induction s with
  | nil => rfl
  | cons g s ih =>
    simp only [readAll]
    rw [h g (by simp), ih fun f hf => h f (by simp [hf])]

theorem field_unique {s : Schema} (hn : (s.map (·.name)).Nodup) {f g : Field} (hf : f ∈ s) (hg : g ∈ s) (h : f.name = g.name) : f = g := by
  induction s with
  | nil => simp at hf
  | cons a s ih =>
    simp only [List.map_cons, List.nodup_cons] at hn
    simp only [List.mem_cons] at hf hg
    rcases hf with rfl | hf <;> rcases hg with rfl | hg
    · rfl
    · exact absurd (List.mem_map.2 ⟨g, hg, h.symm⟩) hn.1
    · exact absurd (List.mem_map.2 ⟨f, hf, h⟩) hn.1
    · exact ih hn.2 hf hg

theorem rowOk_spec {s : Schema} {docs : List (String × Option Json)} (h : rowOk s docs = true) (opt : String) (d : Json)
    (hd : (opt, some d) ∈ docs) (m : List (String × Json)) (hm : ∀ v, (opt, v) ∉ m) :
    unmarshalOptions s (.obj ((opt, d) :: m)) = unmarshalOptions s (.obj m) := by
  simp only [rowOk, Bool.and_eq_true, decide_eq_true_eq, List.all_eq_true] at h
  obtain ⟨hnd, hall⟩ := h
  have h1 := hall _ hd
  simp only [List.any_eq_true, Bool.and_eq_true, decide_eq_true_eq] at h1
  obtain ⟨f, hf, hname, h2⟩ := h1
  simp only [unmarshalOptions, unmarshal, unStruct]
  apply readAll_congr
  intro g hg
  by_cases hgo : g.name = opt
  · have : g = f := field_unique hnd hg hf (by rw [hgo, hname])
    subst this
    have g1 : Payload.get g.name ((opt, d) :: m) = d := by simp [Payload.get, hgo]
    have g2 : Payload.get g.name m = .null := get_not_given (fun v hv => hm v (by rw [← hgo]; exact hv.1))
    unfold Field.read
    rw [g1, g2, decode_null]
    cases hx : g.kind.decode d with
    | none => rw [hx] at h2; revert h2; cases d <;> simp
    | some x =>
      rw [hx] at h2
      have h3 : d ≠ .null ∧ valEq x (g.dflt.getD g.kind.zero) = true := by
        revert h2; cases d <;> simp
      obtain ⟨hne, h4⟩ := h3
      have := valEq_sound h4
      cases hdf : g.dflt with
      | none => rw [hdf] at this; subst this; revert hne; cases d <;> simp
      | some y => rw [hdf] at this; subst this; revert hne; cases d <;> simp
  · have : Payload.get g.name ((opt, d) :: m) = Payload.get g.name m := by
      simp [Payload.get]; intro h; exact absurd h.symm hgo
    unfold Field.read
    rw [this]

theorem zip_rows {D : List (String × String × List (String × Option Json))} {R : List (String × String × Schema)}
    (hlen : D.length = R.length)
    (hz : ∀ p ∈ D.zip R, p.1.1 = p.2.1 ∧ p.1.2.1 = p.2.2.1 ∧ rowOk p.2.2.2 p.1.2.2 = true) :
    ∀ row ∈ D, ∃ s, (row.1, row.2.1, s) ∈ R ∧ rowOk s row.2.2 = true := by
  induction D generalizing R with
  | nil => simp
  | cons d D ih =>
    cases R with
    | nil => simp at hlen
    | cons r R =>
      simp only [List.zip_cons_cons, List.forall_mem_cons] at hz ⊢
      refine ⟨⟨r.2.2, ?_, hz.1.2.2⟩, fun row hrow => ?_⟩
      · rw [hz.1.1, hz.1.2.1]; exact List.mem_cons_self
      · obtain ⟨s, hs, hok⟩ := ih (by simpa using hlen) hz.2 row hrow
        exact ⟨s, List.mem_cons_of_mem _ hs, hok⟩

/-- C50 (documented defaults).  For every rule and every option whose schema documents a default, leaving the option out of any options
object is the same as writing the documented default there. -/
theorem C50_documented (rule type : String) (docs : List (String × Option Json)) (h : (rule, type, docs) ∈ documented) :
    ∃ s, (rule, type, s) ∈ ruleOptions ∧ ∀ opt d, (opt, some d) ∈ docs → ∀ m : List (String × Json), (∀ v, (opt, v) ∉ m) →
      unmarshalOptions s (.obj ((opt, d) :: m)) = unmarshalOptions s (.obj m) := by
  have check : ∀ row ∈ documented, ∃ s, (row.1, row.2.1, s) ∈ ruleOptions ∧ rowOk s row.2.2 = true := by
    have hlen : documented.length = ruleOptions.length := by decide
    have hz : ∀ p ∈ documented.zip ruleOptions, p.1.1 = p.2.1 ∧ p.1.2.1 = p.2.2.1 ∧ rowOk p.2.2.2 p.1.2.2 = true := by decide +kernel
    intro row hrow
    exact zip_rows hlen hz row hrow
  obtain ⟨s, hs, hok⟩ := check _ h
  exact ⟨s, hs, fun opt d hd m hm => rowOk_spec hok opt d hd m hm⟩

/-- C50.  Rules without options get all defaults: no options (null) and an empty object are the same. -/
theorem C50_none_is_empty (s : Schema) : unmarshalOptions s .null = unmarshalOptions s (.obj []) ∧ unmarshalOptions s .null ≠ none := by
  refine ⟨rfl, ?_⟩
  rw [Ne, C50_panics_iff s .null (by intro m h; cases h)]
  simp [Given]

/-- C50 (`return-await`).  The option is one of the four documented words, `null` is `in-try-catch`, everything else panics. -/
theorem C50_return_await (j : Json) (s : String) : returnAwait j = some s ↔
    (j = .null ∧ s = "in-try-catch") ∨ (j = .str s ∧ (s = "always" ∨ s = "error-handling-correctness-only" ∨ s = "in-try-catch" ∨ s = "never")) := by
  cases j with
  | str x =>
    simp only [returnAwait, List.mem_cons, List.not_mem_nil, or_false, reduceCtorEq, false_and, Json.str.injEq, false_or]
    split
    · rename_i h; simp only [Option.some.injEq]
      constructor
      · rintro rfl; exact ⟨rfl, h⟩
      · rintro ⟨rfl, _⟩; rfl
    · rename_i h; simp only [reduceCtorEq, false_iff]; rintro ⟨rfl, h'⟩; exact h h'
  | null => simp [returnAwait]; exact eq_comm
  | bool _ => simp [returnAwait]
  | int _ => simp [returnAwait]
  | frac _ => simp [returnAwait]
  | arr _ => simp [returnAwait]
  | obj _ => simp [returnAwait]

/-- The default sub-options of `checksVoidReturn` (no_misused_promises.go:76-85). -/
def voidReturnDefaults : List (String × Val) :=
  [("arguments", .bool true), ("attributes", .bool true), ("inheritedMethods", .bool true), ("properties", .bool true),
   ("returns", .bool true), ("variables", .bool true)]

/-- C50 (`no-misused-promises`).  `checksVoidReturn: true`, `{}` and no option at all mean the same: everything is checked. -/
theorem C50_checks_void_return : checksVoidReturn checksVoidReturnOptions voidReturnDefaults none = (true, some voidReturnDefaults) ∧
    checksVoidReturn checksVoidReturnOptions voidReturnDefaults (some (.bool true)) = (true, some voidReturnDefaults) ∧
    checksVoidReturn checksVoidReturnOptions voidReturnDefaults (some (.obj [])) = (true, some voidReturnDefaults) ∧
    checksVoidReturn checksVoidReturnOptions voidReturnDefaults (some (.bool false)) = (false, none) := ⟨rfl, rfl, rfl, rfl⟩

/-- C50 (`no-misused-promises`).  With an object, exactly the sub-options set to false are off — unless one of them has the wrong type,
then all are on. -/
theorem C50_checks_void_return_object (m : List (String × Json)) (hm : (m.map (·.1)).Nodup) :
    ∃ o, checksVoidReturn checksVoidReturnOptions voidReturnDefaults (some (.obj m)) = (true, some o) ∧
      ((∃ n ∈ voidReturnDefaults.map (·.1), ∃ v, (n, v) ∈ m ∧ v ≠ .null ∧ ∀ b, v ≠ .bool b) ∧ o = voidReturnDefaults ∨
       ∀ n ∈ voidReturnDefaults.map (·.1), ((n, Json.bool false) ∈ m → (n, Val.bool false) ∈ o) ∧
        ((n, Json.bool false) ∉ m → (n, Val.bool true) ∈ o)) := by
  have hd : Distinct (.obj m) := by intro m' h; cases h; exact hm
  have hfield : ∀ n ∈ voidReturnDefaults.map (·.1), (⟨n, .bool, some (.bool true)⟩ : Field) ∈ checksVoidReturnOptions := by
    intro n hn
    simp only [voidReturnDefaults, List.map_cons, List.map_nil, List.mem_cons, List.not_mem_nil, or_false] at hn
    rcases hn with rfl | rfl | rfl | rfl | rfl | rfl <;> simp [checksVoidReturnOptions]
  have hback : ∀ f ∈ checksVoidReturnOptions, f.name ∈ voidReturnDefaults.map (·.1) ∧ f.kind = .bool := by
    intro f hf
    simp only [checksVoidReturnOptions, List.mem_cons, List.not_mem_nil, or_false] at hf
    rcases hf with rfl | rfl | rfl | rfl | rfl | rfl <;> simp [voidReturnDefaults]
  cases hu : unmarshal checksVoidReturnOptions (.obj m) with
  | none =>
    refine ⟨voidReturnDefaults, by simp [checksVoidReturn, hu], Or.inl ⟨?_, rfl⟩⟩
    have := (C50_panics_iff checksVoidReturnOptions (.obj m) hd).1 hu
    simp only [reduceCtorEq, Json.obj.injEq, exists_eq', or_true, true_and] at this
    apply Classical.byContradiction
    intro hno
    apply this
    rintro f hf v ⟨m', he, hv, hne⟩
    cases he
    obtain ⟨h1, h2⟩ := hback f hf
    rw [h2]
    have hb : ∃ b, v = .bool b := by
      apply Classical.byContradiction
      intro hb
      exact hno ⟨f.name, h1, v, hv, hne, fun b hvb => hb ⟨b, hvb⟩⟩
    obtain ⟨b, rfl⟩ := hb
    exact ⟨.bool b, rfl⟩
  | some o =>
    refine ⟨o, by simp [checksVoidReturn, hu], Or.inr ?_⟩
    intro n hn
    have hf := hfield n hn
    constructor
    · intro hfalse
      obtain ⟨x, hx, hmem⟩ := C50_given _ _ hd o hu _ hf (.bool false) ⟨m, rfl, hfalse, by simp⟩
      simp [Kind.decode, unBool] at hx
      subst hx; exact hmem
    · intro hnf
      by_cases hg : ∃ v, (n, v) ∈ m ∧ v ≠ .null
      · obtain ⟨v, hv, hne⟩ := hg
        obtain ⟨x, hx, hmem⟩ := C50_given _ _ hd o hu _ hf v ⟨m, rfl, hv, hne⟩
        cases v with
        | bool b =>
          cases b with
          | false => exact absurd hv hnf
          | true => simp [Kind.decode, unBool] at hx; subst hx; exact hmem
        | null => exact absurd rfl hne
        | int _ => simp [Kind.decode, unBool] at hx
        | frac _ => simp [Kind.decode, unBool] at hx
        | str _ => simp [Kind.decode, unBool] at hx
        | arr _ => simp [Kind.decode, unBool] at hx
        | obj _ => simp [Kind.decode, unBool] at hx
      · have := C50_default _ _ o hu _ hf (fun v hv => by
          obtain ⟨m', he, h1, h2⟩ := hv
          cases he; exact hg ⟨v, h1, h2⟩)
        simpa using this

/-- C50 (finding).  A value of `checksVoidReturn` that is neither a boolean nor an object does not panic and does not count as either: it
silently turns all the void-return checks off. -/
theorem C50_checks_void_return_other (s : String) :
    checksVoidReturn checksVoidReturnOptions voidReturnDefaults (some (.str s)) = (true, none) := rfl

/-! ## Cases that meet the hypotheses -/

/-- `{"ignoreVoid": false, "checkThenables": null, "other": 1}` for `no-floating-promises`. -/
example : unmarshalOptions noFloatingPromisesOptions (.obj [("ignoreVoid", .bool false), ("checkThenables", .null), ("other", .int 1)]) =
    some [("allowForKnownSafeCalls", .specs []), ("allowForKnownSafePromises", .specs []), ("checkThenables", .bool false),
      ("ignoreIIFE", .bool false), ("ignoreVoid", .bool false)] := rfl

example : Given (.obj [("ignoreVoid", .bool false)]) "ignoreVoid" (.bool false) := ⟨_, rfl, by simp, by simp⟩

example : unmarshalOptions noFloatingPromisesOptions (.obj [("ignoreVoid", .int 0)]) = none := rfl

example : documented.length = 32 ∧ (documented.map (·.2.2.length)).sum = 105 := by decide

end Tsgolint.Options
