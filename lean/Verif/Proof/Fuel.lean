import Verif.Proof.TypeGraph
import Verif.Model.Loops
/-! # Recursion with fuel: general lemmas about `Some` and `Every` loops over a predicate that may run out of fuel -/
namespace Tsgolint.TypeGraph
variable {T : Type}

theorem lift_eq {g : T → Option Bool} {p : T} {b : Bool} : lift g p () = some (b, ()) ↔ g p = some b := by
  simp [lift, Option.map_eq_some_iff]

theorem some?_eq {g : T → Option Bool} {ps : List T} {b : Bool} : some? g ps = some b ↔ someLoop (lift g) ps () = some (b, ()) := by
  simp only [some?, Option.map_eq_some_iff]
  constructor
  · rintro ⟨⟨c, u⟩, h, rfl⟩; exact h
  · intro h; exact ⟨_, h, rfl⟩

theorem every?_eq {g : T → Option Bool} {ps : List T} {b : Bool} : every? g ps = some b ↔ everyLoop (lift g) ps () = some (b, ()) := by
  simp only [every?, Option.map_eq_some_iff]
  constructor
  · rintro ⟨⟨c, u⟩, h, rfl⟩; exact h
  · intro h; exact ⟨_, h, rfl⟩

theorem some?_spec {g : T → Option Bool} {Q : T → Prop} {ps : List T} {b : Bool}
    (hg : ∀ p ∈ ps, ∀ c, g p = some c → (c = true ↔ Q p)) (h : some? g ps = some b) : b = true ↔ ∃ p ∈ ps, Q p :=
  someLoop_spec ps b (fun p hp c hc => hg p hp c (lift_eq.1 hc)) (some?_eq.1 h)

theorem every?_spec {g : T → Option Bool} {Q : T → Prop} {ps : List T} {b : Bool}
    (hg : ∀ p ∈ ps, ∀ c, g p = some c → (c = true ↔ Q p)) (h : every? g ps = some b) : b = true ↔ ∀ p ∈ ps, Q p :=
  everyLoop_spec ps b (fun p hp c hc => hg p hp c (lift_eq.1 hc)) (every?_eq.1 h)

theorem some?_total {g : T → Option Bool} {ps : List T} (hg : ∀ p ∈ ps, ∃ c, g p = some c) : ∃ b, some? g ps = some b := by
  obtain ⟨b, hb⟩ := someLoop_total (f := lift g) ps (fun p hp => (hg p hp).imp fun c hc => lift_eq.2 hc)
  exact ⟨b, some?_eq.2 hb⟩

theorem every?_total {g : T → Option Bool} {ps : List T} (hg : ∀ p ∈ ps, ∃ c, g p = some c) : ∃ b, every? g ps = some b := by
  obtain ⟨b, hb⟩ := everyLoop_total (f := lift g) ps (fun p hp => (hg p hp).imp fun c hc => lift_eq.2 hc)
  exact ⟨b, every?_eq.2 hb⟩

theorem some?_mono {g g' : T → Option Bool} (hg : ∀ p c, g p = some c → g' p = some c) {ps : List T} {b : Bool} (h : some? g ps = some b) :
    some? g' ps = some b := by
  rw [some?_eq] at h ⊢
  induction ps with
  | nil => exact h
  | cons p ps ih =>
    simp only [someLoop] at h ⊢
    cases hp : g p with
    | none => simp [lift, hp] at h
    | some y => cases y <;> simp_all [lift]

theorem every?_mono {g g' : T → Option Bool} (hg : ∀ p c, g p = some c → g' p = some c) {ps : List T} {b : Bool} (h : every? g ps = some b) :
    every? g' ps = some b := by
  rw [every?_eq] at h ⊢
  induction ps with
  | nil => exact h
  | cons p ps ih =>
    simp only [everyLoop] at h ⊢
    cases hp : g p with
    | none => simp [lift, hp] at h
    | some y => cases y <;> simp_all [lift]

/-- Enough fuel for each of finitely many is enough for all. -/
theorem enough {α : Type} (l : List α) (Q : α → Nat → Prop) (h : ∀ q ∈ l, ∃ n, ∀ m, n ≤ m → Q q m) : ∃ n, ∀ m, n ≤ m → ∀ q ∈ l, Q q m := by
  induction l with
  | nil => exact ⟨0, by simp⟩
  | cons a l ihl =>
    obtain ⟨n1, h1⟩ := h a (by simp)
    obtain ⟨n2, h2⟩ := ihl fun q hq => h q (by simp [hq])
    refine ⟨max n1 n2, fun m hm q hq => ?_⟩
    rcases List.mem_cons.1 hq with rfl | hq
    · exact h1 m (by omega)
    · exact h2 m (by omega) q hq

/-- Enough fuel for each of finitely many questions, for a function that keeps its answers when given more. -/
theorem enough_mono {α β : Type} (f : Nat → α → Option β) (hm : ∀ n a b, f n a = some b → f (n + 1) a = some b) (l : List α)
    (h : ∀ q ∈ l, ∃ n b, f n q = some b) : ∃ n, ∀ m, n ≤ m → ∀ q ∈ l, ∃ b, f m q = some b :=
  enough l (fun q m => ∃ b, f m q = some b) fun q hq => by
    obtain ⟨n, b, hb⟩ := h q hq
    exact ⟨n, fun m hnm => ⟨b, mono_le (f := fun n => f n q) (fun n x => hm n q x) hnm hb⟩⟩

end Tsgolint.TypeGraph
