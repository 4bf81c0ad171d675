import Verif.Model.DotNotation
import Verif.Spec.StableFix
/-! # Property names -/
namespace Tsgolint.DotNotation
open Fixer (Bytes ascii)

/-- ASCII letters, `_`, `$`. -/
def IdStart (b : UInt8) : Prop := b ∈ ascii "abcdefghijklmnopqrstuvwxyzABCDEFGHIJKLMNOPQRSTUVWXYZ_$"

def IdPart (b : UInt8) : Prop := IdStart b ∨ b ∈ ascii "0123456789"

/-- IdentifierName (ECMA-262 §12.7), ASCII only. -/
def IdentifierName (n : Bytes) : Prop := ∃ first rest, n = first :: rest ∧ IdStart first ∧ ∀ b ∈ rest, IdPart b

/-- The reserved words of ECMAScript 3 (§7.5.1): keywords, future reserved words, and literals. -/
def es3Reserved : List String :=
  ["break", "else", "new", "var", "case", "finally", "return", "void", "catch", "for", "switch", "while", "continue", "function", "this",
   "with", "default", "if", "throw", "delete", "in", "try", "do", "instanceof", "typeof"] ++
  ["abstract", "enum", "int", "short", "boolean", "export", "interface", "static", "byte", "extends", "long", "super", "char", "final",
   "native", "synchronized", "class", "float", "package", "throws", "const", "goto", "private", "transient", "debugger", "implements",
   "protected", "volatile", "double", "import", "public"] ++
  ["null", "true", "false"]

def Reserved (n : Bytes) : Prop := ∃ w ∈ es3Reserved, n = ascii w

/-- The property `obj[p]` refers to: ToPropertyKey of the value (strings are themselves). -/
inductive Key : Property → Bytes → Prop
  | str (t) : Key (.str t) t
  | template (t) : Key (.template t) t
  | tru : Key .tru (ascii "true")
  | fls : Key .fls (ascii "false")
  | null : Key .null (ascii "null")

/-- The declaration that decides about an access: with accessors the setter for writing and the getter for reading, if there is one,
else the other one; the first declaration if there are no accessors. -/
def Decides (decls : List Decl) (write : Bool) (d : Decl) : Prop :=
  let getter := decls.find? (·.getter)
  let setter := decls.find? (·.setter)
  some d = if write then setter.or (getter.or decls.head?) else getter.or (setter.or decls.head?)

end Tsgolint.DotNotation
