import Verif.Model.Fixer
/-!
# Model of the ranges diagnostics point to, where they are no nodes

A position is an offset into the text.  The parser gives nodes with the offset behind the token before them (`full`, `Pos()`), that of their first token and
their end; the scanner gives the range of the first token at or behind an offset.
-/
namespace Tsgolint.Highlights
open Fixer (Bytes)

structure Range where
  pos : Nat
  stop : Nat
deriving DecidableEq, Repr

/-- `text[pos:stop]` -/
def Range.text (code : Bytes) (r : Range) : Bytes := (code.drop r.pos).take (r.stop - r.pos)

structure Place where
  full : Nat
  start : Nat
  stop : Nat
deriving DecidableEq, Repr

/-- The scanner, started at an offset: the range of its first token. -/
abbrev Scanner := Nat → Range

/-- /repo/internal/utils/utils.go:15-17 `TrimNodeTextRange` -/
def trim (token : Scanner) (node : Place) : Range := ⟨(token node.full).pos, node.stop⟩

/-- /repo/internal/utils/ts_eslint.go:162-173 `GetForStatementHeadLoc` -/
def forHead (token : Scanner) (node statement : Place) : Range := ⟨(trim token node).pos, statement.full⟩

/-- A decorator, or another modifier -/
structure Modifier where
  decorator : Bool
  place : Place
deriving DecidableEq, Repr

/-- What the parser gives of a function: the token `=>` of an arrow function, the offset behind the `(` of the parameters, and the modifiers. -/
structure Function where
  arrow : Option Place
  params : Option Nat
  node : Place
  modifiers : List Modifier

/-- ts_eslint.go:208-216: where the head begins -/
def headStart (f : Function) : Nat :=
  match f.modifiers.find? (!·.decorator) with
  | some m => m.place.start
  | none => f.node.start

/-- /repo/internal/utils/ts_eslint.go:193-223 `GetFunctionHeadLoc` (an offset behind a `(` is positive) -/
def functionHead (token : Scanner) (f : Function) : Range :=
  match f.arrow with
  | some arrow => ⟨arrow.full, arrow.stop⟩
  | none => match f.params with
    | none => trim token f.node
    | some params => if params - 1 < headStart f then trim token f.node else ⟨headStart f, params - 1⟩

/-- /repo/internal/rules/no_misused_promises/no_misused_promises.go:177-189 `promiseRange`, without parentheses around; `type`: the return type. -/
def promiseRange (token : Scanner) (functionLike : Bool) (type : Option Place) (f : Function) : Range :=
  if functionLike then
    match type with
    | some t => trim token t
    | none => match f.arrow with
      | some arrow => trim token arrow
      | none => functionHead token f
  else trim token f.node

/-- /repo/internal/rules/no_unsafe_type_assertion/no_unsafe_type_assertion.go:58-70 `getAssertionRange`, and
/repo/internal/rules/no_unnecessary_type_assertion/no_unnecessary_type_assertion.go:605-608, 621-627: the range of an assertion without its operand.
(`ResetPos` and `Scan` start the scanner anew.) -/
def assertion (token : Scanner) (as : Bool) (node expression type : Place) : Range :=
  if as then ⟨(token expression.stop).pos, type.stop⟩ else ⟨(token node.full).pos, (token type.stop).stop⟩

/-- no_unnecessary_type_assertion.go:1151-1154 `getExclamationTokenRange` -/
def exclamation (token : Scanner) (expression : Place) : Range := token expression.stop

/-- /repo/internal/rules/prefer_readonly/prefer_readonly.go:379-386 `getCustomReportNode`: the node reported -/
def readonlyNode (token : Scanner) (declaration name : Place) : Place :=
  ⟨(trim token declaration).pos, (trim token declaration).pos, (trim token name).stop⟩

/-- /repo/internal/rules/prefer_readonly_parameter_types/prefer_readonly_parameter_types.go:402-412: the range reported for a parameter; `property`: it is a
parameter property, and `name?` its name. -/
def parameterRange (token : Scanner) (property : Bool) (name? : Option Place) (parameter : Place) : Range :=
  if property then
    match name? with
    | some name => ⟨(trim token name).pos, parameter.stop⟩
    | none => trim token parameter
  else trim token parameter

/-- /repo/internal/utils/ts_eslint.go:602-610 `IsParenlessArrowFunction`: the end of the list of parameters and the offset behind the token before `=>` -/
def parenless (isArrow : Bool) (parametersEnd : Nat) (arrow : Place) : Bool :=
  if !isArrow then false else parametersEnd == arrow.full

end Tsgolint.Highlights
