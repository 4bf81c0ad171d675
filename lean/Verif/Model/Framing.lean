/-!
# Model of the headless wire format (/repo/cmd/tsgolint/headless.go:147-212)
-/
namespace Tsgolint.Framing

abbrev Bytes := List UInt8

/-- Message type byte, headless.go:147-153 (`iota`). -/
inductive MsgType | error | diagnostic | timing
deriving DecidableEq, Repr

/-- `byte(messageType)`, headless.go:149-153,202. -/
def MsgType.byte : MsgType → UInt8
  | .error => 0
  | .diagnostic => 1
  | .timing => 2

/-- `binary.LittleEndian.PutUint32(header[:], uint32(n))`, headless.go:201.  The conversion `uint32(len)` keeps the low 32
bits; each byte of the header is one base-256 digit, least significant first. -/
def putUint32LE (n : Nat) : Bytes :=
  let v := n % 2 ^ 32
  [UInt8.ofNat (v % 256), UInt8.ofNat (v / 256 % 256), UInt8.ofNat (v / 65536 % 256), UInt8.ofNat (v / 16777216 % 256)]

/-- The bytes written by `writeMessage` (headless.go:195-206) once `json.Marshal` succeeded with `payload`:
4 bytes length, 1 byte type, payload. -/
def frame (t : MsgType) (payload : Bytes) : Bytes := putUint32LE payload.length ++ [t.byte] ++ payload

/-- `writeMessage` (headless.go:195-206).  `marshal = none` models an error of `json.Marshal`: nothing is written and the
error is returned (`false`).  Errors of `w.Write` are ignored by the Go code and not modelled here. -/
def writeMessage (t : MsgType) (marshal : Option Bytes) : Bytes × Bool :=
  match marshal with
  | none => ([], false)
  | some payload => (frame t payload, true)

/-- A sequence of messages written one after the other. -/
def writeAll : List (MsgType × Bytes) → Bytes
  | [] => []
  | (t, p) :: ms => (writeMessage t (some p)).1 ++ writeAll ms

end Tsgolint.Framing
