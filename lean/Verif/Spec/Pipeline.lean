import Verif.Model.Pipeline
import Verif.Spec.Framing
/-! # Specification of the pipeline's output -/
namespace Tsgolint.Pipeline
open Framing
variable {D F : Type}

/-- A job that does not fail. -/
def Job.Good : Job D F → Prop
  | .internal _ => True
  | .program _ cs => cs ≠ [] ∧ cs.Nodup
  | .fail _ => False

/-- A job whose program (if any) has at least one checker, all different. -/
def Job.Ok : Job D F → Prop
  | .internal _ => True
  | .program _ cs => cs ≠ [] ∧ cs.Nodup
  | .fail _ => True

/-- Files a job lints. -/
def Job.files : Job D F → List F
  | .internal _ => []
  | .program fs _ => fs
  | .fail _ => []

/-- What one job must put on the wire: internal diagnostics in order; for a program each file's diagnostics exactly as often as
the file is listed, each file's diagnostics in their own order, files interleaved arbitrarily. -/
def SegOk (diags : F → List D) : Job D F → List D → Prop
  | .internal ds, seg => seg = ds
  | .program fs _, seg => seg.Perm (fs.flatMap diags) ∧ ∀ f ∈ fs, (diags f).Sublist seg
  | .fail _, _ => False

/-- Job by job. -/
inductive SegsOk (diags : F → List D) : List (Job D F) → List (List D) → Prop
  | nil : SegsOk diags [] []
  | snoc {js segs j seg} : SegsOk diags js segs → SegOk diags j seg → SegsOk diags (js ++ [j]) (segs ++ [seg])

/-- The diagnostic messages (type, payload) for a list of diagnostics: those that can be marshalled. -/
def messages (enc : D → Option Bytes) (ds : List D) : List (MsgType × Bytes) :=
  (ds.filterMap enc).map (fun p => (.diagnostic, p))

/-- The timing message, if requested and marshalled. -/
def timingMessages (t : Option (Option Bytes)) : List (MsgType × Bytes) :=
  match t with
  | some (some p) => [(.timing, p)]
  | _ => []

/-- Checker held by a worker. -/
def Worker.held : Worker D F → List Nat
  | .holding c => [c]
  | .linting c _ _ => [c]
  | _ => []

/-- Everything sent to the channel so far. -/
def State.sent (s : State D F) : List D := s.segs.flatten ++ s.seg

/-- `c` is an interleaving of `a` and `b` (both keep their order). -/
inductive Interleaving {α : Type} : List α → List α → List α → Prop
  | nil : Interleaving [] [] []
  | left {a b c x} : Interleaving a b c → Interleaving (a ++ [x]) b (c ++ [x])
  | right {a b c x} : Interleaving a b c → Interleaving a (b ++ [x]) (c ++ [x])

end Tsgolint.Pipeline
