import Verif.Model.Comments
/-!
# What stands between a position and the next token

ECMA-262 §12: white space, line ends and comments.
-/
namespace Tsgolint.Comments

/-- What may stand between two tokens. -/
inductive Item
  | blank (c : Char)
  | newline (c : Char)
  | line (body : Text)
  | block (body : Text)

def Item.text : Item → Text
  | .blank c => [c]
  | .newline c => [c]
  | .line body => '/' :: '/' :: body
  | .block body => '/' :: '*' :: (body ++ ['*', '/'])

def itemsText : List Item → Text
  | [] => []
  | i :: is => i.text ++ itemsText is

/-- The item is what it says: a block comment ends with the first `*/`. -/
def Item.Ok (wide : Char → Bool) : Item → Prop
  | .blank c => isBlank wide c = true ∧ c ≠ '\n' ∧ c ≠ '\r' ∧ c ≠ '/'
  | .newline c => c = '\n' ∨ c = '\r'
  | .line body => ∀ c ∈ body, isLineBreak c = false
  | .block body => ¬ ['*', '/'] <:+: body ++ ['*']

/-- The rest of the file begins with a token (or is empty). -/
def TokenNext (wide : Char → Bool) : Text → Prop
  | [] => True
  | c :: rest => c ≠ '\n' ∧ c ≠ '\r' ∧ isBlank wide c = false ∧ (c = '/' → rest.head? ≠ some '/' ∧ rest.head? ≠ some '*')

/-- A line comment lasts to the end of its line. -/
def LinesEnd : List Item → Text → Prop
  | [], _ => True
  | .line _ :: is, rest => (∀ c ∈ (itemsText is ++ rest).head?, isLineBreak c = true) ∧ LinesEnd is rest
  | _ :: is, rest => LinesEnd is rest

/-- `text` consists of the items up to the first token, and the rest. -/
structure Between (wide : Char → Bool) (text : Text) (items : List Item) (rest : Text) : Prop where
  text_eq : text = itemsText items ++ rest
  ok : ∀ i ∈ items, i.Ok wide
  lines : LinesEnd items rest
  token : TokenNext wide rest

/-- The comments among the items, from a position. -/
def commentsOf : Nat → List Item → List Comment
  | _, [] => []
  | pos, .line body :: is => ⟨false, pos, pos + (Item.line body).text.length⟩ :: commentsOf (pos + (Item.line body).text.length) is
  | pos, .block body :: is => ⟨true, pos, pos + (Item.block body).text.length⟩ :: commentsOf (pos + (Item.block body).text.length) is
  | pos, i :: is => commentsOf (pos + i.text.length) is

/-- What an iteration does: a loop over a list that can be left early. -/
def foldUntil (yield : S → Comment → S × Bool) : S → List Comment → S
  | s, [] => s
  | s, c :: cs => if (yield s c).2 then foldUntil yield (yield s c).1 cs else (yield s c).1

end Tsgolint.Comments
