import Verif.Proof.Framing
/-! # C06: the headless message framing is lossless -/
namespace Tsgolint.Framing

/-- C06.  Any sequence of messages whose payloads are shorter than 2^32 bytes is read back exactly, with nothing left over. -/
theorem C06_round_trip (ms : List (MsgType × Bytes)) (h : Fits ms) : decode (writeAll ms) = (wire ms, []) := by
  have := decode_writeAll_append ms h []
  simpa [decode_short (b := []) (by simp)] using this

/-- C06.  Different message sequences give different byte streams. -/
theorem C06_injective (ms ms' : List (MsgType × Bytes)) (h : Fits ms) (h' : Fits ms') (he : writeAll ms = writeAll ms') :
    ms = ms' := by
  have h1 := C06_round_trip ms h
  have h2 := C06_round_trip ms' h'
  rw [he, h2] at h1
  exact (wire_inj (Prod.mk.inj h1).1).symm

/-- C06.  A stream cut at any byte yields a prefix of the messages; the undecoded rest is a proper prefix of the next frame.
No wrong message is ever produced. -/
theorem C06_truncated (ms : List (MsgType × Bytes)) (h : Fits ms) (q : Bytes) (hq : q <+: writeAll ms) :
    ∃ done rest, ms = done ++ rest ∧ (decode q).1 = wire done ∧
      ((rest = [] ∧ (decode q).2 = []) ∨
        ∃ t p rest', rest = (t, p) :: rest' ∧ (decode q).2 <+: frame t p ∧ (decode q).2 ≠ frame t p) := by
  obtain ⟨d, r, tl, h1, h2, h3⟩ := prefix_split ms q hq
  have hd : Fits d := fun m hm => h m (by simp [h1, hm])
  have htl : decode tl = ([], tl) := by
    rcases h3 with ⟨_, rfl⟩ | ⟨t, p, r', rfl, ht, hl⟩
    · exact decode_short (by simp)
    · exact decode_partial_frame t p tl (h (t, p) (by simp [h1])) ht hl
  have hdec := decode_writeAll_append d hd tl
  rw [← h2, htl] at hdec
  refine ⟨d, r, h1, by simp [hdec], ?_⟩
  rcases h3 with ⟨h, rfl⟩ | ⟨t, p, r', h, ht, hl⟩
  · left; exact ⟨h, by simp [hdec]⟩
  · right
    refine ⟨t, p, r', h, by simpa [hdec] using ht, ?_⟩
    intro he
    simp only [hdec] at he
    rw [he] at hl; omega

/-- C06.  The header is the little-endian length followed by the type byte. -/
theorem C06_header (t : MsgType) (p : Bytes) (h : p.length < 2 ^ 32) :
    ∃ b0 b1 b2 b3 : UInt8, (writeMessage t (some p)).1 = [b0, b1, b2, b3, t.byte] ++ p ∧
      p.length = b0.toNat + 2 ^ 8 * b1.toNat + 2 ^ 16 * b2.toNat + 2 ^ 24 * b3.toNat := by
  refine ⟨_, _, _, _, rfl, ?_⟩
  simp; omega

/-- C06.  If marshalling fails nothing at all is written: a reader sees no trace of the message. -/
theorem C06_marshal_error_writes_nothing (t : MsgType) : writeMessage t none = ([], false) := rfl

/-- C06 (negative).  A payload of exactly 2^32 bytes is not recoverable: the reader sees an empty message of that type first. -/
theorem C06_oversized_not_recoverable (t : MsgType) :
    ∃ p : Bytes, p.length = 2 ^ 32 ∧ (decode (writeAll [(t, p)])).1 ≠ wire [(t, p)] := by
  refine ⟨List.replicate (2 ^ 32) 0, List.length_replicate, ?_⟩
  have hl : (List.replicate (2 ^ 32) (0 : UInt8)).length = 2 ^ 32 := List.length_replicate
  generalize List.replicate (2 ^ 32) (0 : UInt8) = p at hl
  have : decode (writeAll [(t, p)]) = ((t.byte, []) :: (decode p).1, (decode p).2) := by
    have e : writeAll [(t, p)] = frame t [] ++ p := by
      simp [writeAll, writeMessage, frame, putUint32LE, hl]
    rw [e, decode_frame t [] p (by simp)]
  rw [this]
  intro hc
  simp only [wire, List.map_cons, List.map_nil] at hc
  injection hc with hc _
  injection hc with _ hc
  rw [← hc] at hl
  simp at hl

/-- Non-vacuity: a mixed stream with an empty and a 300-byte payload fits. -/
example : Fits [(.diagnostic, [1, 2, 3]), (.timing, []), (.error, List.replicate 300 7)] := by
  intro m hm
  rcases List.mem_cons.1 hm with rfl | hm
  · simp
  rcases List.mem_cons.1 hm with rfl | hm
  · simp
  rcases List.mem_cons.1 hm with rfl | hm
  · rw [List.length_replicate]; omega
  · simp at hm

end Tsgolint.Framing
