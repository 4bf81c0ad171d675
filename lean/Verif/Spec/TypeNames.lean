import Verif.Model.TypeNames
/-!
# How type names are shown
-/
namespace Tsgolint.TypeNames

/-- A name shown for a name: itself if it has at most 120 characters; otherwise its first 117 and three dots. -/
inductive Shown (name : Text) : Text → Prop
  | whole (h : name.length ≤ 120) : Shown name name
  | short (h : 120 < name.length) (first rest : Text) (hn : name = first ++ rest) (hf : first.length = 117) : Shown name (first ++ "...".toList)

/-- A literal, possibly in parentheses, whose type needs no explanation. -/
inductive PlainLiteral : Expr → Prop
  | true_ : PlainLiteral .true_
  | false_ : PlainLiteral .false_
  | null : PlainLiteral .null
  | number : PlainLiteral .number
  | bigint : PlainLiteral .bigint
  | string : PlainLiteral .string
  | template : PlainLiteral .template
  | parens {e} : PlainLiteral e → PlainLiteral (.parens e)

end Tsgolint.TypeNames
