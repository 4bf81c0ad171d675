import Verif.Model.MisusedSpread
import Verif.Props.TypeGraph
import Verif.Props.SmallRules
/-! # C91: no-misused-spread.  The specification vocabulary (`Constituent`, `UnionPart`) is that of `Spec/TypeGraph`. -/
namespace Tsgolint.MisusedSpread
open Tsgolint.TypeGraph Tsgolint.Fixer
variable {T : Type}

theorem recurse_iff (E : Env T) (p : T → Bool) (n : Nat) (t : T) (b : Bool) (h : recurse E p n t = some b) :
    b = true ↔ ∃ c, Constituent E.shape t c ∧ p c = true := by
  unfold recurse at h
  cases hr : typeRecurser E.shape (fun t (_ : Unit) => some (p t, ())) n t () with
  | none => rw [hr] at h; simp at h
  | some r =>
    obtain ⟨b', u⟩ := r
    rw [hr] at h
    simp only [Option.map_some, Option.some.injEq] at h
    subst h
    haveI : DecidableEq T := fun _ _ => Classical.propDecidable _
    exact SmallRules.recurser_pure E.shape p n t b' hr

/-- What a type is, by some constituent of it. -/
def Is (E : Env T) (t : T) : Kind → Prop
  | .promise => ∃ c, Constituent E.shape t c ∧ E.promiseLike c = true
  | .function => ∃ c, Constituent E.shape t c ∧ E.callSignatures c ≠ 0 ∧ E.properties c = 0
  | .map => ∃ c, Constituent E.shape t c ∧ (E.builtin c "Map" = true ∨ E.builtin c "ReadonlyMap" = true ∨ E.builtin c "WeakMap" = true)
  | .array => ∃ c, Constituent E.shape t c ∧ E.arrayOrTuple c = true
  | .iterable => (∃ c, Constituent E.shape t c ∧ E.iterator c = true) ∧ ¬∃ c, Constituent E.shape t c ∧ E.stringLike c = true
  | .classInstance => ∃ c, Constituent E.shape t c ∧ E.constructSignatures c = 0 ∧ ∃ ds, E.declarations c = some ds ∧ ∃ n ∈ ds, n ≠ 0
  | .classDeclaration => ∃ c, Constituent E.shape t c ∧ (E.instantiation c = true ∨ E.classValue c = true)

theorem instanceOf_iff (E : Env T) (t : T) : instanceOf E t = true ↔ E.constructSignatures t = 0 ∧ ∃ ds, E.declarations t = some ds ∧ ∃ n ∈ ds, n ≠ 0 := by
  unfold instanceOf
  by_cases h : E.constructSignatures t = 0
  · rw [if_neg (by simpa using h)]
    cases hd : E.declarations t with
    | none => simp [h]
    | some ds => simp [h]
  · rw [if_pos h]; simp [h]

theorem holds_iff (E : Env T) (n : Nat) (t : T) (k : Kind) (b : Bool) (h : k.holds E n t = some b) : b = true ↔ Is E t k := by
  cases k with
  | iterable =>
    simp only [Kind.holds, Option.bind_eq_some_iff] at h
    obtain ⟨c, hc, h⟩ := h
    have h1 := recurse_iff E _ n t c hc
    cases c with
    | false =>
      simp only [Bool.false_eq_true, if_false, Option.some.injEq] at h
      subst h
      simp only [Bool.false_eq_true, false_iff] at h1 ⊢
      rintro ⟨h', _⟩; exact h1 h'
    | true =>
      simp only [if_true, Option.map_eq_some_iff] at h
      obtain ⟨s, hs, rfl⟩ := h
      have h2 := recurse_iff E _ n t s hs
      unfold Is
      rw [← h2]
      have h1 := h1.1 rfl
      simp only [Kind.test] at h1
      cases s <;> simp [h1]
  | promise => exact recurse_iff E _ n t b h
  | function => rw [recurse_iff E _ n t b h]; simp [Is, Kind.test, functionWithoutProps]
  | map => rw [recurse_iff E _ n t b h]; simp [Is, Kind.test, mapLike, or_assoc]
  | array => exact recurse_iff E _ n t b h
  | classInstance => rw [recurse_iff E _ n t b h]; simp only [Is, Kind.test, instanceOf_iff]
  | classDeclaration => rw [recurse_iff E _ n t b h]; simp [Is, Kind.test, classLike]

theorem firstOf_iff (E : Env T) (n : Nat) (t : T) (ks : List Kind) (r : Option Kind) (h : firstOf E n t ks = some r) :
    (r = none → ∀ k ∈ ks, ¬Is E t k) ∧ (∀ k, r = some k → ∃ before after, ks = before ++ k :: after ∧ Is E t k ∧ ∀ j ∈ before, ¬Is E t j) := by
  induction ks with
  | nil =>
    simp only [firstOf, Option.some.injEq] at h
    subst h; simp
  | cons k ks ih =>
    simp only [firstOf, Option.bind_eq_some_iff] at h
    obtain ⟨b, hb, h⟩ := h
    have := holds_iff E n t k b hb
    cases b with
    | true =>
      simp only [if_true, Option.some.injEq] at h
      subst h
      refine ⟨nofun, fun k' hk' => ?_⟩
      cases hk'
      exact ⟨[], ks, rfl, this.1 rfl, by simp⟩
    | false =>
      simp only [Bool.false_eq_true, if_false] at h
      have hn : ¬Is E t k := by rw [← this]; simp
      obtain ⟨h1, h2⟩ := ih h
      refine ⟨fun hr => ?_, fun k' hk' => ?_⟩
      · intro j hj
        rcases List.mem_cons.1 hj with rfl | hj
        · exact hn
        · exact h1 hr j hj
      · obtain ⟨bf, af, rfl, hi, hbf⟩ := h2 k' hk'
        refine ⟨k :: bf, af, rfl, hi, ?_⟩
        intro j hj
        rcases List.mem_cons.1 hj with rfl | hj
        · exact hn
        · exact hbf j hj

/-- C91 (objects).  A spread in an object is reported exactly if its type is not allowed and some constituent is a promise, a function
without properties, a map, an array, an iterable (no constituent being a string), an instance of a class, or a class; the
message is that of the first of these that applies. -/
theorem C91_object (E : Env T) (n : Nat) (t : T) (r : Option Kind) (h : checkObject E n t = some r) :
    (r = none ↔ E.allowed t = true ∨ ∀ k, ¬Is E t k) ∧
    ∀ k, r = some k → E.allowed t = false ∧ ∃ before after, [Kind.promise, .function, .map, .array, .iterable, .classInstance, .classDeclaration] = before ++ k :: after ∧
      Is E t k ∧ ∀ j ∈ before, ¬Is E t j := by
  unfold checkObject at h
  cases ha : E.allowed t with
  | true => rw [if_pos ha] at h; cases h; simp
  | false =>
    rw [if_neg (by simp [ha])] at h
    obtain ⟨h1, h2⟩ := firstOf_iff E n t order r h
    refine ⟨⟨fun hr => .inr fun k => h1 hr k (by cases k <;> decide), ?_⟩, fun k hk => ⟨rfl, h2 k hk⟩⟩
    rintro (h' | h')
    · cases h'
    · cases r with
      | none => rfl
      | some k => obtain ⟨_, _, _, hi, _⟩ := h2 k rfl; exact absurd hi (h' k)

/-- C91 (arrays and calls).  A spread in an array or a call is reported exactly if its type is not allowed and some constituent is a string. -/
theorem C91_array (E : Env T) (n : Nat) (t : T) (b : Bool) (h : checkArray E n t = some b) :
    b = true ↔ E.allowed t = false ∧ ∃ c, Constituent E.shape t c ∧ E.stringLike c = true := by
  unfold checkArray at h
  cases ha : E.allowed t with
  | true => rw [if_pos ha] at h; cases h; simp
  | false =>
    rw [if_neg (by simp [ha])] at h
    rw [recurse_iff E _ n t b h]; simp

/-- C91 (maps).  `Object.fromEntries` is suggested exactly if every part of the union is a map. -/
theorem C91_map (E : Env T) (n : Nat) (t : T) (b : Bool) (h : mapSuggestion E n t = some b) :
    b = true ↔ ∀ p, UnionPart E.shape t p → Is E p .map := by
  unfold mapSuggestion at h
  have : ∀ ps : List T, mapParts E n ps = some b → (b = true ↔ ∀ p ∈ ps, Is E p .map) := by
    intro ps
    induction ps with
    | nil => intro h; simp only [mapParts, Option.some.injEq] at h; subst h; simp
    | cons p ps ih =>
      intro h
      simp only [mapParts, Option.bind_eq_some_iff] at h
      obtain ⟨c, hc, h⟩ := h
      have hp : c = true ↔ Is E p .map := holds_iff E n p .map c hc
      rw [List.forall_mem_cons, ← hp]
      cases c with
      | true => simpa using ih h
      | false =>
        simp only [Bool.false_eq_true, if_false, Option.some.injEq] at h
        subst h; simp
  rw [this _ h]
  simp only [mem_unionParts]

/-- C91 (map fix).  `{ ...m }` becomes `Object.fromEntries(m)`, blanks around it kept and a comma behind it removed; with more members only
the argument is wrapped. -/
theorem C91_map_fix (pre g1 g2 arg tail g3 post : Bytes) :
    AppliesTo (pre ++ ascii "{" ++ g1 ++ ascii "..." ++ g2 ++ arg ++ tail ++ g3 ++ ascii "}" ++ post)
      (mapFix true ⟨pre.length, (pre ++ ascii "{" ++ g1).length, (pre ++ ascii "{" ++ g1 ++ ascii "..." ++ g2).length, (pre ++ ascii "{" ++ g1 ++ ascii "..." ++ g2 ++ arg).length,
        (pre ++ ascii "{" ++ g1 ++ ascii "..." ++ g2 ++ arg ++ tail).length, (pre ++ ascii "{" ++ g1 ++ ascii "..." ++ g2 ++ arg ++ tail ++ g3 ++ ascii "}").length⟩)
      (pre ++ g1 ++ ascii "Object.fromEntries(" ++ g2 ++ arg ++ ascii ")" ++ g3 ++ post) := by
  have key := Seg.applies_sorted [.keep pre, .sub (ascii "{") [], .keep g1, .sub (ascii "...") (ascii "Object.fromEntries("), .keep (g2 ++ arg), .sub tail (ascii ")"),
    .keep g3, .sub (ascii "}") [], .keep post]
  have h1 : (ascii "{").length = 1 := by decide
  have h2 : (ascii "}").length = 1 := by decide
  have h3 : (ascii "...").length = 3 := by decide
  simp only [Seg.old, Seg.new, Seg.edits, List.append_assoc, List.length_append, h1, h2, h3, List.nil_append, List.append_nil] at key
  simp only [mapFix, if_true, List.append_assoc, List.length_append, h1, h2, h3]
  refine Eq.mp (congrArg (fun l => AppliesTo _ l _) ?_) key
  simp only [List.cons.injEq, Fix.mk.injEq, true_and, and_true]
  omega

theorem C91_map_wrap (pre arg post : Bytes) (s : Spans) (hp : s.argPos = pre.length) (he : s.argEnd = (pre ++ arg).length) :
    AppliesTo (pre ++ arg ++ post) (mapFix false s) (pre ++ ascii "Object.fromEntries(" ++ arg ++ ascii ")" ++ post) := by
  have key := Seg.applies_sorted [.keep pre, .sub [] (ascii "Object.fromEntries("), .keep arg, .sub [] (ascii ")"), .keep post]
  simpa [Seg.old, Seg.new, Seg.edits, mapFix, hp, he, List.append_assoc] using key

/-- C91 (promise fix).  `await ` goes before the argument, which is put in parentheses unless it binds more tightly. -/
theorem C91_await (pre arg post : Bytes) :
    AppliesTo (pre ++ arg ++ post) (awaitFix true pre.length (pre ++ arg).length) (pre ++ ascii "await " ++ arg ++ post) ∧
    AppliesTo (pre ++ arg ++ post) (awaitFix false pre.length (pre ++ arg).length) (pre ++ ascii "await (" ++ arg ++ ascii ")" ++ post) := by
  have k1 := Seg.applies_sorted [.keep pre, .sub [] (ascii "await "), .keep (arg ++ post)]
  have k2 := Seg.applies_sorted [.keep pre, .sub [] (ascii "await ("), .keep arg, .sub [] (ascii ")"), .keep post]
  constructor
  · simpa [Seg.old, Seg.new, Seg.edits, awaitFix, List.append_assoc] using k1
  · simpa [Seg.old, Seg.new, Seg.edits, awaitFix, List.append_assoc] using k2

/-- A sample: type 0 is a `WeakMap`, 1 the union of 0 and a string. -/
def sample : Env Nat where
  shape n := if n = 1 then .union [0, 2] else .other
  allowed _ := false
  stringLike n := n == 2
  promiseLike _ := false
  callSignatures _ := 0
  properties _ := 0
  builtin n s := n == 0 && s == "WeakMap"
  arrayOrTuple _ := false
  iterator n := n == 2 || n == 3
  constructSignatures _ := 0
  declarations _ := none
  instantiation _ := false
  classValue _ := false

/-- C91 (hazard: WeakMap).  `Object.fromEntries` is suggested for a `WeakMap`, which is not iterable. -/
theorem C91_hazard_weakMap : checkObject sample 2 0 = some (some .map) ∧ mapSuggestion sample 2 0 = some true ∧ ¬Is sample 0 .iterable := by
  refine ⟨by decide, by decide, ?_⟩
  rw [← holds_iff sample 2 0 .iterable false (by decide)]; simp

example : checkObject sample 3 1 = some (some .map) ∧ mapSuggestion sample 3 1 = some false ∧ checkArray sample 3 1 = some true ∧ checkObject sample 2 3 = some (some .iterable) ∧
    checkObject sample 2 2 = some none := by decide

/-- C91 (hazard: joined words).  `return{...m}` becomes `returnObject.fromEntries(m)`. -/
theorem C91_hazard_join : AppliesTo (ascii "return{...m}") (mapFix true ⟨6, 7, 10, 11, 11, 12⟩) (ascii "returnObject.fromEntries(m)") := by
  have := C91_map_fix (ascii "return") [] [] (ascii "m") [] [] []
  exact this

end Tsgolint.MisusedSpread
