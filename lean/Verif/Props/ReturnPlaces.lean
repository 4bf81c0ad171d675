import Verif.Model.ReturnPlaces
import Verif.Props.FunctionKinds
/-! # C83: which values no-unsafe-return checks -/
namespace Tsgolint.ReturnPlaces
open Tsgolint.Visit (Node Kinds Ev visitFile Reach idss)

/-- A node returns a value: a return statement its expression, an arrow function without braces its body. -/
inductive Returns (arrow ret : Nat) (kind : Nat) (i : Info) : Nat → Token → Prop
  | statement {x} : kind = ret → i.expression = some x → Returns arrow ret kind i x .first
  | concise : kind = arrow → i.bodyIsBlock = false → Returns arrow ret kind i i.body .arrow

theorem listener_id (arrow ret : Nat) (info : Nat → Info) (e : Ev) : ∀ c ∈ listener arrow ret info e, c.node = e.2 := by
  intro c hc
  unfold listener at hc
  split at hc
  · split at hc
    · simp only [List.mem_singleton] at hc; rw [hc]
    · cases hc
  · split at hc
    · split at hc
      · cases hc
      · simp only [List.mem_singleton] at hc; rw [hc]
    · cases hc

/-- C83 (places).  In every file each returned value, of a statement or of an arrow function without braces, is checked exactly once, and nothing else is; of a
statement the keyword is highlighted, of an arrow function the arrow. -/
theorem C83_places (K : Kinds) {arrow ret : Nat} (hne : arrow ≠ ret) (ha : arrow < 1000) (hret : ret < 1000) (info : Nat → Info) (topLevel : List Node)
    (hd : (idss topLevel).Nodup) (t) (ht : t ∈ topLevel) (q m) (hr : Reach false t q m) :
    (∀ x k, Returns arrow ret (m.kind K) (info m.id) x k → (checks K arrow ret info topLevel).filter (fun c => c.node == m.id) = [⟨m.id, x, k⟩]) ∧
    ((∀ x k, ¬ Returns arrow ret (m.kind K) (info m.id) x k) → (checks K arrow ret info topLevel).filter (fun c => c.node == m.id) = []) := by
  have key := FunctionKinds.of_node K (listener arrow ret info) (·.node) (listener_id arrow ret info)
    (fun k i hk => by
      have h1 : k ≠ arrow := by omega
      have h2 : k ≠ ret := by omega
      simp [listener, h1, h2]) topLevel hd t ht q m hr
  unfold checks
  rw [key]
  constructor
  · rintro x k (⟨hk, hx⟩ | ⟨hk, hb⟩)
    · simp [listener, hk, hx, Ne.symm hne]
    · simp [listener, hk, hb]
  · intro h
    unfold listener
    split
    · rename_i hk
      split
      · rename_i hb
        exact absurd (.concise hk (by simpa using hb)) (h _ _)
      · rfl
    · split
      · rename_i hk
        split
        · rfl
        · rename_i x hx
          exact absurd (.statement hk hx) (h _ _)
      · rfl

/-! ## Cases -/

/-- `() => () => { return 1; }` -/
def sampleFile : List Node := [.other 10 0 [.other 5 1 [.other 5 2 [.other 6 3 [.other 7 4 [.other 8 5 []]]]]]]
def sampleInfo : Nat → Info
  | 1 => ⟨2, false, none⟩
  | 2 => ⟨3, true, none⟩
  | 4 => ⟨0, false, some 5⟩
  | _ => ⟨0, false, none⟩

example : checks ⟨50, 51, 52, 53⟩ 5 7 sampleInfo sampleFile = [⟨1, 2, .arrow⟩, ⟨4, 5, .first⟩] := by decide
example : (idss sampleFile).Nodup := by decide
example : Returns 5 7 5 (sampleInfo 1) 2 .arrow := .concise rfl rfl

end Tsgolint.ReturnPlaces
