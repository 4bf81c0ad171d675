import Verif.Model.Highlights
/-! # Specification: places in a text -/
namespace Tsgolint.Highlights
open Fixer (Bytes)

/-- The place of a node in a text: `before` ends with the token before it, then come white space and comments, then the node. -/
def at' (before gap node : Bytes) : Place :=
  ⟨before.length, before.length + gap.length, before.length + gap.length + node.length⟩

/-- Started behind `before`, the scanner skips the gap and reads the token. -/
def Reads (token : Scanner) (before gap tok : Bytes) : Prop :=
  token before.length = ⟨before.length + gap.length, before.length + gap.length + tok.length⟩

/-- A decorator or other modifier, with the white space and comments before it -/
structure Item where
  decorator : Bool
  gap : Bytes
  text : Bytes

def Item.print (i : Item) : Bytes := i.gap ++ i.text

/-- The modifiers in a text, after `before` -/
def places : Bytes → List Item → List Modifier
  | _, [] => []
  | before, i :: is => ⟨i.decorator, at' before i.gap i.text⟩ :: places (before ++ i.print) is

end Tsgolint.Highlights
