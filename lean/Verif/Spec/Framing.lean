import Verif.Model.Framing
/-!
# Specification of a reader of the frame stream

Written from the wire format only: 4-byte little-endian length, 1 type byte, that many payload bytes.
-/
namespace Tsgolint.Framing

/-- The reader: returns the complete messages (type byte, payload) and the undecoded rest. -/
def decode (b : Bytes) : List (UInt8 × Bytes) × Bytes :=
  match b with
  | b0 :: b1 :: b2 :: b3 :: t :: rest =>
    let n := b0.toNat + 256 * b1.toNat + 65536 * b2.toNat + 16777216 * b3.toNat
    if n ≤ rest.length then
      let r := decode (rest.drop n)
      ((t, rest.take n) :: r.1, r.2)
    else ([], b)
  | _ => ([], b)
termination_by b.length
decreasing_by simp; omega

/-- What a reader should see for a list of messages. -/
def wire (ms : List (MsgType × Bytes)) : List (UInt8 × Bytes) := ms.map (fun m => (m.1.byte, m.2))

/-- Payload sizes representable in the header. -/
def Fits (ms : List (MsgType × Bytes)) : Prop := ∀ m ∈ ms, m.2.length < 2 ^ 32

end Tsgolint.Framing
