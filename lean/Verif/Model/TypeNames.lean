/-!
# Model of the type names in the diagnostics of no-unnecessary-condition
(/repo/internal/rules/no_unnecessary_condition/no_unnecessary_condition.go, lines 93-212)

Names are sequences of code points (Go's `[]rune` of valid UTF-8); ranges are opaque.
-/
namespace Tsgolint.TypeNames

abbrev Text := List Char

/-- `truncateTypeNameForDiagnostic`, lines 176-183. -/
def truncate (name : Text) : Text := if name.length > 120 then name.take (120 - 3) ++ ['.', '.', '.'] else name

/-- Expressions, as far as lines 193-204 tell them apart: parentheses, the literals, and the rest. -/
inductive Expr
  | parens (e : Expr)
  | true_ | false_ | null | number | bigint | string | template
  | other
deriving DecidableEq, Repr

/-- `ast.SkipParentheses`. -/
def Expr.skip : Expr → Expr
  | .parens e => e.skip
  | e => e

/-- `isSelfExplanatoryLiteral`, lines 189-205; `none`: there is no node. -/
def isSelfExplanatory : Option Expr → Bool
  | none => false
  | some e => match e.skip with
    | .true_ | .false_ | .null | .number | .bigint | .string | .template => true
    | _ => false

/-- `typeNameForNodeDiagnostic`, lines 207-212; `name`: `TypeToString` of the type. -/
def nameForNode (name : Text) (node : Option Expr) : Text := if isSelfExplanatory node then [] else truncate name

/-- A diagnostic: message, range, and the labels with their ranges. -/
structure Diagnostic (R M : Type) where
  message : M
  range : R
  labels : List (Text × R)
deriving DecidableEq, Repr

/-- `buildTypedValueDiagnostic`, lines 93-107. -/
def typedValue (m : M) (primary typeRange : R) (name : Text) : Diagnostic R M :=
  ⟨m, primary, if name ≠ [] then [("Type: ".toList ++ name, typeRange)] else []⟩

/-- `buildTypedReturnDiagnostic`, lines 109-123. -/
def typedReturn (m : M) (primary typeRange : R) (name : Text) : Diagnostic R M :=
  ⟨m, primary, if name ≠ [] then [("Return type: ".toList ++ name, typeRange)] else []⟩

/-- `buildTypeGuardDiagnostic`, lines 125-136, given the names. -/
def typeGuard (m : M) (primary typeRange : R) (value predicate : Text) : Diagnostic R M :=
  ⟨m, primary, [("Type ".toList ++ value ++ " already satisfies predicate type ".toList ++ predicate, typeRange)]⟩

/-- `buildComparisonDiagnostic`, lines 138-153. -/
def comparison (m : M) (primary : R) (left : Text) (leftRange : R) (right : Text) (rightRange : R) : Diagnostic R M :=
  ⟨m, primary, [("Type: ".toList ++ left, leftRange), ("Type: ".toList ++ right, rightRange)]⟩

/-- A report about the value of an expression, lines 1484-1575 (`typedValue` of `nameForNode`). -/
def valueReport (m : M) (primary : R) (typeRange : R) (name : Text) (node : Option Expr) : Diagnostic R M :=
  typedValue m primary typeRange (nameForNode name node)

/-- A report about what a callback returns, lines 2187-2203. -/
def returnReport (m : M) (primary : R) (typeRange : R) (name : Text) (node : Option Expr) : Diagnostic R M :=
  typedReturn m primary typeRange (nameForNode name node)

/-- A report about a comparison, lines 1592-1600 and 1666-1673. -/
def comparisonReport (m : M) (primary : R) (left : Text) (leftRange : R) (right : Text) (rightRange : R) : Diagnostic R M :=
  comparison m primary (truncate left) leftRange (truncate right) rightRange

/-- A report about a type guard that is not needed, lines 1762-1780 and 2142-2148. -/
def guardReport (m : M) (primary typeRange : R) (value predicate : Text) : Diagnostic R M :=
  typeGuard m primary typeRange (truncate value) (truncate predicate)

end Tsgolint.TypeNames
