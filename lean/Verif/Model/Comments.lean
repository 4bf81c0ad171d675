/-!
# Model of the search for comments (/repo/internal/utils/utils.go, lines 19-48)

`scanner.GetTrailingCommentRanges` and `scanner.GetLeadingCommentRanges` belong to typescript-go and are modelled from the scanner's
documented behaviour (`iterateCommentRanges`), on the text from a position that is not the beginning of the file: both pass over white
space and comments up to the first token; the trailing ones end with the line, the leading ones begin with the next line.  Positions are
counted in characters.  The two rules using the functions, switch-exhaustiveness-check (line 87) and
no-unnecessary-template-expression (lines 135 and 217), ask about positions behind other tokens.
-/
namespace Tsgolint.Comments

abbrev Text := List Char

/-- A comment: its kind and range. -/
structure Comment where
  block : Bool
  pos : Nat
  stop : Nat
deriving DecidableEq, Repr

/-- `stringutil.IsLineBreak`: where a line comment ends. -/
def isLineBreak (c : Char) : Bool := c = '\n' || c = '\r' || c = '\u2028' || c = '\u2029'

/-- White space passed over that does not end the search for trailing comments; `wide`: `isWhiteSpaceLike` of other characters (which
contains the line and paragraph separators). -/
def isBlank (wide : Char → Bool) (c : Char) : Bool := c = ' ' || c = '\t' || c = '\x0b' || c = '\x0c' || (decide (127 < c.toNat) && wide c)

/-- The length of a line comment after its slashes. -/
def lineLength : Text → Nat
  | [] => 0
  | c :: cs => if isLineBreak c then 0 else lineLength cs + 1

/-- The length of a block comment after its first two characters. -/
def blockLength : Text → Nat
  | '*' :: '/' :: _ => 2
  | _ :: cs => blockLength cs + 1
  | [] => 0

/-- The scan from a position; `fuel` bounds the number of steps, each of which passes over a character. -/
def scan (wide : Char → Bool) (trailing : Bool) : Nat → Bool → Nat → Text → List Comment
  | 0, _, _, _ => []
  | fuel + 1, collecting, pos, text => match text with
    | [] => []
    | '/' :: '/' :: rest =>
      let n := 2 + lineLength rest
      (if collecting then [⟨false, pos, pos + n⟩] else []) ++ scan wide trailing fuel collecting (pos + n) (rest.drop (lineLength rest))
    | '/' :: '*' :: rest =>
      let n := 2 + blockLength rest
      (if collecting then [⟨true, pos, pos + n⟩] else []) ++ scan wide trailing fuel collecting (pos + n) (rest.drop (blockLength rest))
    | c :: rest =>
      if c = '\n' || c = '\r' then (if trailing then [] else scan wide trailing fuel true (pos + 1) rest)
      else if isBlank wide c then scan wide trailing fuel collecting (pos + 1) rest
      else []

/-- `scanner.GetTrailingCommentRanges`. -/
def trailingComments (wide : Char → Bool) (pos : Nat) (text : Text) : List Comment := scan wide true text.length true pos text

/-- `scanner.GetLeadingCommentRanges`, the position not being 0. -/
def leadingComments (wide : Char → Bool) (pos : Nat) (text : Text) : List Comment := scan wide false text.length false pos text

/-- The loops of lines 23-30 and 32-39: the state after it, and whether `yield` has asked to stop. -/
def feed (stop : Nat) (yield : S → Comment → S × Bool) : S → List Comment → S × Bool
  | s, [] => (s, false)
  | s, c :: cs =>
    if stop ≤ c.pos then (s, false)
    else match yield s c with
      | (s', false) => (s', true)
      | (s', true) => feed stop yield s' cs

/-- `GetCommentsInRange`, lines 19-41: the iteration over the comments of a range; `text` is what follows `pos`. -/
def commentsInRange (wide : Char → Bool) (pos stop : Nat) (text : Text) (yield : S → Comment → S × Bool) (s : S) : S :=
  match feed stop yield s (trailingComments wide pos text) with
  | (s', true) => s'
  | (s', false) => (feed stop yield s' (leadingComments wide pos text)).1

/-- `HasCommentsInRange`, lines 43-48. -/
def hasCommentsInRange (wide : Char → Bool) (pos stop : Nat) (text : Text) : Bool :=
  commentsInRange wide pos stop text (fun _ _ => (true, false)) false

end Tsgolint.Comments
