import Verif.Model.ReturnThisPlaces
import Verif.Props.FunctionKinds
/-! # C86: which functions prefer-return-this-type checks -/
namespace Tsgolint.ReturnThisPlaces
open Tsgolint.Visit (Node Kinds Ev visitFile Reach idss)

/-- The expression is a function, perhaps in parentheses. -/
inductive FunctionValue : Init → Prop
  | function : FunctionValue .functionExpression
  | arrow : FunctionValue .arrowFunction
  | parens {e} : FunctionValue e → FunctionValue (.parens e)

theorem listener_id (property method : Nat) (info : Nat → Info) (e : Ev) : ∀ c ∈ listener property method info e, c.1 = e.2 := by
  intro c hc
  unfold listener at hc
  split at hc
  · split at hc
    · cases hc
    · split at hc
      · cases hc
      · split at hc
        · simp only [List.mem_singleton] at hc; rw [hc]
        · cases hc
  · split at hc
    · split at hc
      · cases hc
      · simp only [List.mem_singleton] at hc; rw [hc]
    · cases hc

theorem checks_of (K : Kinds) {property method : Nat} (hp : property < 1000) (hm : method < 1000) (info : Nat → Info) (topLevel : List Node)
    (hd : (idss topLevel).Nodup) (t) (ht : t ∈ topLevel) (q m) (hr : Reach false t q m) :
    (checks K property method info topLevel).filter (fun c => c.1 == m.id) = listener property method info (m.kind K, m.id) :=
  FunctionKinds.of_node K (listener property method info) (·.1) (listener_id property method info)
    (fun k i hk => by
      have h1 : k ≠ property := by omega
      have h2 : k ≠ method := by omega
      simp [listener, h1, h2]) topLevel hd t ht q m hr

/-- C86 (places).  In every file each method of a class is checked exactly once, and so is each property of a class whose value is a function that is not put in
parentheses; no other property, no method of an object, and nothing else is checked. -/
theorem C86_places (K : Kinds) {property method : Nat} (hne : property ≠ method) (hp : property < 1000) (hm : method < 1000) (info : Nat → Info)
    (topLevel : List Node) (hd : (idss topLevel).Nodup) (t) (ht : t ∈ topLevel) (q m) (hr : Reach false t q m) :
    (m.kind K = method → (info m.id).inClass = true → (checks K property method info topLevel).filter (fun c => c.1 == m.id) = [(m.id, .node)]) ∧
    (m.kind K = property → (info m.id).inClass = true → ∀ i, (info m.id).initializer = some i → (∀ e, i ≠ .parens e) → FunctionValue i →
      (checks K property method info topLevel).filter (fun c => c.1 == m.id) = [(m.id, .initializer)]) ∧
    ((checks K property method info topLevel).filter (fun c => c.1 == m.id) ≠ [] → (info m.id).inClass = true ∧
      (m.kind K = method ∨ (m.kind K = property ∧ ∃ i, (info m.id).initializer = some i ∧ FunctionValue i))) := by
  rw [checks_of K hp hm info topLevel hd t ht q m hr]
  refine ⟨fun hk hc => ?_, fun hk hc i hi hn hv => ?_, fun h => ?_⟩
  · simp [listener, hk, hc, Ne.symm hne]
  · cases hv with
    | function => simp [listener, hk, hc, hi, isFunction]
    | arrow => simp [listener, hk, hc, hi, isFunction]
    | parens => exact absurd rfl (hn _)
  · unfold listener at h
    simp only [] at h
    split at h
    · rename_i hk
      split at h
      · exact absurd rfl h
      · rename_i hc
        split at h
        · exact absurd rfl h
        · rename_i i hi
          split at h
          · rename_i hf
            refine ⟨by simpa using hc, .inr ⟨hk, i, hi, ?_⟩⟩
            cases i with
            | functionExpression => exact .function
            | arrowFunction => exact .arrow
            | parens => cases hf
            | other => cases hf
          · exact absurd rfl h
    · split at h
      · rename_i hk
        split at h
        · exact absurd rfl h
        · rename_i hc
          exact ⟨by simpa using hc, .inl hk⟩
      · exact absurd rfl h

/-- C86 (hazard).  A property whose value is a function in parentheses is never checked. -/
theorem C86_hazard_parens (K : Kinds) {property method : Nat} (hp : property < 1000) (hm : method < 1000) (info : Nat → Info) (topLevel : List Node)
    (hd : (idss topLevel).Nodup) (t) (ht : t ∈ topLevel) (q m) (hr : Reach false t q m) (hk : m.kind K = property) (i : Init)
    (hi : (info m.id).initializer = some (.parens i)) : (checks K property method info topLevel).filter (fun c => c.1 == m.id) = [] := by
  rw [checks_of K hp hm info topLevel hd t ht q m hr]
  simp [listener, hk, hi, isFunction]

/-! ## Cases -/

/-- `class C { f() {}  g = () => this;  h = (() => this) }` -/
def sampleFile : List Node := [.other 10 0 [.other 9 1 [], .other 8 2 [.other 7 4 []], .other 8 3 [.other 6 5 [.other 7 6 []]]]]
def sampleInfo : Nat → Info
  | 1 => ⟨true, none⟩
  | 2 => ⟨true, some .arrowFunction⟩
  | 3 => ⟨true, some (.parens .arrowFunction)⟩
  | _ => ⟨false, none⟩

example : checks ⟨50, 51, 52, 53⟩ 8 9 sampleInfo sampleFile = [(1, .node), (2, .initializer)] := by decide
example : (idss sampleFile).Nodup := by decide
example : FunctionValue (.parens .arrowFunction) := .parens .arrow

end Tsgolint.ReturnThisPlaces
