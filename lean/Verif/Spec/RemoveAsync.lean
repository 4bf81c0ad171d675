import Verif.Model.RemoveAsync

/-! # What removing `async` has to look out for -/

namespace Tsgolint.RemoveAsync

open Tsgolint.Fixer (Bytes ascii)

/-- methods, accessors and constructors -/
def Self (k : Kind) : Prop := k = .method ∨ k = .getter ∨ k = .setter ∨ k = .constructor

/-- the node is a member, and the member before it delimits itself -/
def FollowsMethod (p : Place) : Prop :=
  ∃ ms i k, (p.parent = .classLike (some ms) (i + 1) ∨ p.parent = .objectLiteral (some ms) (i + 1)) ∧ ms[i]? = some k ∧ i + 1 < ms.length ∧ Self k

/-- the node begins an expression statement: that is one of its ancestors, and everything between begins where the node does -/
def BeginsStatement (p : Place) : Prop :=
  ∃ inner s outer, p.ancestors = inner ++ s :: outer ∧ s.isStatement = true ∧ ∀ a ∈ inner ++ [s], a.pos = p.start

/-- `(`, `[` and templates go on with an expression before them -/
def Joins (p : Place) : Prop := p.next ≠ .other

/-- blank characters -/
def Blank (c : UInt8) : Prop := c ∈ ascii " \t\n\r"

/-- the last character that is not blank -/
def LastChar (text : Bytes) (c : UInt8) : Prop := ∃ pre spaces, text = pre ++ [c] ++ spaces ∧ (∀ s ∈ spaces, Blank s) ∧ ¬ Blank c

/-- there has to be a semicolon: the next token could go on with an expression, the function begins an expression statement or is a method or accessor, and before the function
there is something that is neither an opening or separating character, nor the end of `=>`, `++` or `--`, nor the closing brace of the method before it -/
def NeedsSemicolon (p : Place) : Prop :=
  Joins p ∧ (BeginsStatement p ∨ Self p.kind) ∧ ¬ ((∀ c ∈ p.before, Blank c) ∨
    ∃ pre c spaces, p.before = pre ++ [c] ++ spaces ∧ (∀ s ∈ spaces, Blank s) ∧ ¬ Blank c ∧
      (c ∈ (ascii ";:{,([") ∨ (∃ pre', pre ++ [c] = pre' ++ (ascii "=>")) ∨ (∃ pre', pre ++ [c] = pre' ++ (ascii "++")) ∨
        (∃ pre', pre ++ [c] = pre' ++ (ascii "--")) ∨ ([c] = (ascii "}") ∧ FollowsMethod p)))

/-- characters an expression can end with: of names and numbers, closing brackets, quotes, the slash of a regular expression, anything that is not ASCII -/
def EndsExpression (c : UInt8) : Prop :=
  (48 ≤ c ∧ c ≤ 57) ∨ (65 ≤ c ∧ c ≤ 90) ∨ (97 ≤ c ∧ c ≤ 122) ∨ 128 ≤ c ∨ c ∈ ascii ")]}_$'\"`/"

end Tsgolint.RemoveAsync
