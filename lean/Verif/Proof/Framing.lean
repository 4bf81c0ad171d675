import Verif.Spec.Framing
namespace Tsgolint.Framing

theorem MsgType.byte_inj {a b : MsgType} (h : a.byte = b.byte) : a = b := by
  cases a <;> cases b <;> first | rfl | (exact absurd h (by decide))

theorem digit_sum (v : Nat) (h : v < 2 ^ 32) :
    v % 256 + 256 * (v / 256 % 256) + 65536 * (v / 65536 % 256) + 16777216 * (v / 16777216 % 256) = v := by
  omega

theorem decode_short {b : Bytes} (h : b.length < 5) : decode b = ([], b) := by
  rw [decode]
  intro b0 b1 b2 b3 t rest he
  subst he
  simp at h
  omega

/-- One frame followed by anything. -/
theorem decode_frame (t : MsgType) (p rest : Bytes) (h : p.length < 2 ^ 32) :
    decode (frame t p ++ rest) = ((t.byte, p) :: (decode rest).1, (decode rest).2) := by
  simp only [frame, putUint32LE, List.cons_append, List.nil_append]
  rw [decode]
  have hv : p.length % 2 ^ 32 = p.length := Nat.mod_eq_of_lt h
  have hn : (UInt8.ofNat (p.length % 2 ^ 32 % 256)).toNat + 256 * (UInt8.ofNat (p.length % 2 ^ 32 / 256 % 256)).toNat +
      65536 * (UInt8.ofNat (p.length % 2 ^ 32 / 65536 % 256)).toNat +
      16777216 * (UInt8.ofNat (p.length % 2 ^ 32 / 16777216 % 256)).toNat = p.length := by
    rw [hv]; simp; omega
  simp only [hn]
  simp

theorem length_frame (t : MsgType) (p : Bytes) : (frame t p).length = 5 + p.length := by
  simp [frame, putUint32LE]; omega

/-- A proper prefix of one frame contains no complete message. -/
theorem decode_partial_frame (t : MsgType) (p q : Bytes) (h : p.length < 2 ^ 32) (hq : q <+: frame t p)
    (hl : q.length < (frame t p).length) : decode q = ([], q) := by
  by_cases h5 : q.length < 5
  · exact decode_short h5
  · obtain ⟨r, hr⟩ := hq
    rw [length_frame] at hl
    match q, h5 with
    | b0 :: b1 :: b2 :: b3 :: ty :: rest, _ =>
      simp only [frame, putUint32LE, List.cons_append, List.nil_append] at hr
      injection hr with e0 hr; injection hr with e1 hr; injection hr with e2 hr; injection hr with e3 hr
      injection hr with e4 hr
      rw [decode]
      have hv : p.length % 2 ^ 32 = p.length := Nat.mod_eq_of_lt h
      have hn : b0.toNat + 256 * b1.toNat + 65536 * b2.toNat + 16777216 * b3.toNat = p.length := by
        rw [e0, e1, e2, e3, hv]; simp; omega
      simp only [hn]
      simp only [List.length_cons] at hl
      rw [if_neg (by omega)]
    | [], h5 => simp at h5
    | [_], h5 => simp at h5
    | [_, _], h5 => simp at h5
    | [_, _, _], h5 => simp at h5
    | [_, _, _, _], h5 => simp at h5

theorem decode_writeAll_append (ms : List (MsgType × Bytes)) (h : Fits ms) (tail : Bytes) :
    decode (writeAll ms ++ tail) = (wire ms ++ (decode tail).1, (decode tail).2) := by
  induction ms with
  | nil => simp [writeAll, wire]
  | cons m ms ih =>
    obtain ⟨t, p⟩ := m
    simp only [writeAll, writeMessage, List.append_assoc]
    rw [decode_frame t p _ (h _ List.mem_cons_self), ih (fun m hm => h m (List.mem_cons_of_mem _ hm))]
    simp [wire]

theorem writeAll_append (a b : List (MsgType × Bytes)) : writeAll (a ++ b) = writeAll a ++ writeAll b := by
  induction a with
  | nil => simp [writeAll]
  | cons m ms ih => obtain ⟨t, p⟩ := m; simp [writeAll, ih]

/-- Every prefix of a frame stream is some complete frames plus a proper prefix of the next frame. -/
theorem prefix_split (ms : List (MsgType × Bytes)) (q : Bytes) (hq : q <+: writeAll ms) :
    ∃ done rest tail, ms = done ++ rest ∧ q = writeAll done ++ tail ∧
      ((rest = [] ∧ tail = []) ∨ ∃ t p rest', rest = (t, p) :: rest' ∧ tail <+: frame t p ∧ tail.length < (frame t p).length) := by
  induction ms generalizing q with
  | nil =>
    have : q = [] := by simpa [writeAll] using hq
    exact ⟨[], [], [], rfl, by simp [writeAll, this], Or.inl ⟨rfl, rfl⟩⟩
  | cons m ms ih =>
    obtain ⟨t, p⟩ := m
    simp only [writeAll, writeMessage] at hq
    by_cases hl : q.length < (frame t p).length
    · have : q <+: frame t p := List.prefix_of_prefix_length_le hq (List.prefix_append _ _) (by omega)
      exact ⟨[], (t, p) :: ms, q, rfl, by simp [writeAll], Or.inr ⟨t, p, ms, rfl, this, hl⟩⟩
    · have hp : frame t p <+: q := List.prefix_of_prefix_length_le (List.prefix_append _ _) hq (by omega)
      obtain ⟨q', rfl⟩ := hp
      obtain ⟨d, r, tl, h1, h2, h3⟩ := ih q' ((List.prefix_append_right_inj _).1 hq)
      exact ⟨(t, p) :: d, r, tl, by simp [h1], by simp [writeAll, writeMessage, h2], h3⟩

theorem wire_inj {a b : List (MsgType × Bytes)} (h : wire a = wire b) : a = b := by
  induction a generalizing b with
  | nil => cases b with | nil => rfl | cons => simp [wire] at h
  | cons x xs ih =>
    cases b with
    | nil => simp [wire] at h
    | cons y ys =>
      simp only [wire, List.map_cons] at h
      injection h with h1 h2
      simp only [Prod.mk.injEq] at h1
      rw [ih h2]
      congr 1
      exact Prod.ext (MsgType.byte_inj h1.1) h1.2

end Tsgolint.Framing
