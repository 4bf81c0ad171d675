import Verif.Model.OptionalExpr

/-!
# prefer-optional-chain: the operands of `&&` and `||`

Models `parseOperand`, `collectOperands`, the tests on types and those on comparisons of `internal/rules/prefer_optional_chain/prefer_optional_chain.go`
(lines 77-171, 284-302, 642-714, 747-806, 867-886, 888-926, 1074-1201, 1434-1642, 2319-2390).

Simplifications: a type is the list of the parts of its union, each with one of the flags the rule asks for; the checker gives every expression its parts. The
name of a private member is a name like any other here (it matters for the fix, where it is told by its `#`).
-/

namespace Tsgolint.OptionalChain

/-! ### Types -/

/-- a part of a union, by its flags; an enum's member is a `numLit` or `strLit`; `param` is a type parameter (without a constraint) -/
inductive Part | null | undef | void | any | unknown | boolean | boolLit | num | numLit | str | strLit | big | bigLit | param | object
  deriving DecidableEq, Repr

/-- the options of the rule (options.go 7-41) -/
structure Options where
  allowUnsafe : Bool := false
  checkAny : Bool := true
  checkBigInt : Bool := true
  checkBoolean : Bool := true
  checkNumber : Bool := true
  checkString : Bool := true
  checkUnknown : Bool := true
  requireNullish : Bool := false

/-- the parts of the type of every expression: `UnionTypeParts(GetTypeAtLocation(node))` -/
abbrev Types := Expr → List Part

namespace Info

/-- the fields of `TypeInfo` (prefer_optional_chain.go 642-657, set by `getTypeInfo`, 747-806) -/
def hasNull (t : List Part) : Bool := t.contains .null
def hasUndef (t : List Part) : Bool := t.contains .undef
def hasVoid (t : List Part) : Bool := t.contains .void
def hasAny (t : List Part) : Bool := t.contains .any
def hasUnknown (t : List Part) : Bool := t.contains .unknown
/-- `IsNullish` (659-661) -/
def nullish (t : List Part) : Bool := hasNull t || hasUndef t || hasAny t || hasUnknown t
/-- `HasExplicitNullish` (664-666) -/
def explicitNullish (t : List Part) : Bool := hasNull t || hasUndef t
/-- `IsAnyOrUnknown` (668-670) -/
def anyOrUnknown (t : List Part) : Bool := hasAny t || hasUnknown t
/-- `HasBothNullAndUndefined` (672-674) -/
def both (t : List Part) : Bool := hasNull t && hasUndef t
/-- `HasNoNullableTypes` (676-678) -/
def noNullable (t : List Part) : Bool := !hasNull t && !hasUndef t && !hasAny t && !hasUnknown t
/-- `CanBeUndefinedLike` (680-682) -/
def canBeUndef (t : List Part) : Bool := t.isEmpty || hasUndef t || hasVoid t || hasAny t || hasUnknown t
/-- `CanBeNullishLike` (684-686) -/
def canBeNullish (t : List Part) : Bool := t.isEmpty || hasNull t || hasUndef t || hasVoid t || hasAny t || hasUnknown t
/-- `IsAlwaysUndefinedLike` (688-700) -/
def alwaysUndef (t : List Part) : Bool := !(t.isEmpty || anyOrUnknown t) && t.all fun p => p == .undef || p == .void
/-- `IsAlwaysNullishLike` (702-714) -/
def alwaysNullish (t : List Part) : Bool := !(t.isEmpty || anyOrUnknown t) && t.all fun p => p == .null || p == .undef || p == .void
/-- `typeIsAnyOrUnknown` (1084-1095): all parts are -/
def onlyAnyOrUnknown (t : List Part) : Bool := !t.isEmpty && t.all fun p => p == .any || p == .unknown
/-- `wouldChangeReturnType` (1097-1101) -/
def changesReturn (t : List Part) : Bool :=
  (t.contains .boolLit || t.contains .numLit || t.contains .strLit || t.contains .bigLit) && !explicitNullish t
/-- the `…Like` flags (781-792) -/
def bigLike (t : List Part) : Bool := t.contains .big || t.contains .bigLit
def boolLike (t : List Part) : Bool := t.contains .boolean || t.contains .boolLit
def numLike (t : List Part) : Bool := t.contains .num || t.contains .numLit
def strLike (t : List Part) : Bool := t.contains .str || t.contains .strLit
end Info

/-- `shouldSkipByType` (prefer_optional_chain.go 1173-1201) -/
def skipByType (O : Options) (T : Types) (e : Expr) : Bool :=
  if O.requireNullish && Info.explicitNullish (T e.base) then false
  else if Info.hasAny (T e.base) && !O.checkAny then true
  else if Info.bigLike (T e.base) && !O.checkBigInt then true
  else if Info.boolLike (T e.base) && !O.checkBoolean then true
  else if Info.numLike (T e.base) && !O.checkNumber then true
  else if Info.strLike (T e.base) && !O.checkString then true
  else Info.hasUnknown (T e.base) && !O.checkUnknown

/-! ### Literals -/

namespace Expr

/-- `utils.IsNullLiteral` (utils/ts_api_utils.go 211-213) -/
def isNullLit : Expr → Bool
  | keyword _ .null => true
  | _ => false
/-- `utils.IsUndefinedIdentifier` (utils/ts_api_utils.go 215-217) -/
def isUndefName : Expr → Bool
  | ident _ n => n == "undefined".toList
  | _ => false
/-- `utils.IsUndefinedLiteral` (utils/ts_api_utils.go 223-225): `void` anything counts -/
def isUndefLit : Expr → Bool
  | other _ .void _ => true
  | e => isUndefName e
/-- `utils.IsNullishLiteral` (utils/ts_api_utils.go 227-229) -/
def isNullishLit (e : Expr) : Bool := isNullLit e || isUndefLit e
/-- `ast.IsStringLiteral` -/
def isStringLit : Expr → Bool
  | literal _ .string _ => true
  | _ => false
def isThis : Expr → Bool
  | keyword _ .this => true
  | _ => false
/-- literals in `isOrChainComparisonSafe` (prefer_optional_chain.go 1134-1139) -/
def isLiteralNode : Expr → Bool
  | literal _ .number _ => true
  | literal _ .string _ => true
  | keyword _ .true => true
  | keyword _ .false => true
  | other _ .object _ => true
  | other _ .emptyObject _ => true
  | other _ .array _ => true
  | _ => false

/-- the innermost expression (prefer_optional_chain.go 1444-1465): unlike `base` through type assertions too -/
def innermost : Expr → Expr
  | prop e _ _ => innermost e
  | elem e _ _ => innermost e
  | call e _ _ _ => innermost e
  | nonNull e => innermost e
  | paren e => innermost e
  | asType e _ => innermost e
  | assertion _ e => innermost e
  | e => e

/-- a logical expression (prefer_optional_chain.go 1467-1472) -/
def isLogical : Expr → Bool
  | binary _ .and _ _ => true
  | binary _ .or _ _ => true
  | _ => false

end Expr

/-! ### Operands -/

/-- `OperandType` (prefer_optional_chain.go 27-47), without `NotEqualNull`, which nothing makes -/
inductive Kind
  | invalid | plain | notNull | notUndef | notBoth | not | negated | typeof | comparison | isBoth | isNull | isUndef
  deriving DecidableEq, Repr

/-- `IsNullishCheck` (prefer_optional_chain.go 49-57) -/
def Kind.nullishCheck : Kind → Bool
  | .notNull | .notUndef | .notBoth | .isNull | .isBoth | .isUndef | .typeof => true
  | _ => false
/-- `IsStrictNullishCheck` (59-61) -/
def Kind.strictCheck : Kind → Bool
  | .notNull | .notUndef => true
  | _ => false
/-- `IsLooseNullishCheck` (65-67) -/
def Kind.looseCheck : Kind → Bool
  | .notBoth | .isBoth => true
  | _ => false
/-- `IsTrailingComparison` (69-76) -/
def Kind.trailing : Kind → Bool
  | .notNull | .notUndef | .notBoth | .comparison => true
  | _ => false
/-- `IsComparisonOrNullCheck` (78-80) -/
def Kind.comparisonOrCheck (k : Kind) : Bool := k == .comparison || k.nullishCheck

/-- `Operand` (prefer_optional_chain.go 260-264); an invalid operand has no `comparedExpr`, here it is the node -/
structure Operand where
  kind : Kind
  node : Expr
  expr : Expr
  deriving Repr

open Expr

/-- the side that is checked and the value it is compared with (prefer_optional_chain.go 1478-1486) -/
def sides (l r : Expr) : Option (Expr × Expr) :=
  if isNullishLit r || isStringLit r then some (skip l, r)
  else if isNullishLit l || isStringLit l then some (skip r, l)
  else none

/-- `typeof x` compared with `'undefined'` (prefer_optional_chain.go 1491-1501) -/
def typeofCheck (isAnd : Bool) (o : Op) (expr value : Expr) : Option Expr :=
  match expr, value with
  | .typeof e, literal _ .string t =>
    if t == "undefined".toList then
      if (o == .sne || o == .ne) && isAnd then some e
      else if (o == .seq || o == .eq) && !isAnd then some e
      else none
    else none
  | _, _ => none

/-- names and `this` (prefer_optional_chain.go 1522) -/
def simple (e : Expr) : Bool := isIdent e || isThis e

/-- comparisons with null and undefined in an AND chain (prefer_optional_chain.go 1506-1537) -/
def andCheck (o : Op) (expr value : Expr) : Option Kind :=
  match o with
  | .sne => if isNullLit value then some .notNull else if isUndefLit value then some .notUndef else none
  | .ne => if isNullLit value || isUndefLit value then some .notBoth else none
  | .seq =>
    if isNullLit value && simple expr then some .isNull
    else if isUndefLit value && simple expr then some .isUndef else none
  | .eq => if (isNullLit value || isUndefLit value) && simple expr then some .isBoth else none
  | _ => none

/-- comparisons with null and undefined in an OR chain (prefer_optional_chain.go 1538-1560) -/
def orCheck (o : Op) (expr value : Expr) : Option Kind :=
  if isAccess expr && (isNullLit value || isUndefLit value) then some .comparison
  else if isAccess expr then none
  else match o with
    | .seq => if isNullLit value then some .notNull else if isUndefLit value then some .notUndef else none
    | .eq => if isNullLit value || isUndefLit value then some .notBoth else none
    | _ => none

/-- the first look at a comparison (prefer_optional_chain.go 1474-1563) -/
def nullishOperand (isAnd : Bool) (l : Expr) (o : Op) (r : Expr) : Option (Kind × Expr) :=
  match sides l r with
  | none => none
  | some (expr, value) =>
    match typeofCheck isAnd o expr value with
    | some e => some (.typeof, e)
    | none =>
      match (if isAnd then andCheck o expr value else orCheck o expr value) with
      | some k => some (k, expr)
      | none => none

/-- operators that end a chain (prefer_optional_chain.go 1584-1592) -/
def relational : Op → Bool
  | .lt | .gt | .le | .ge | .in | .instanceof => true
  | _ => false

/-- other comparisons (prefer_optional_chain.go 1580-1615) -/
def otherComparison (l : Expr) (o : Op) (r : Expr) : Option Expr :=
  if relational o then none
  else if isAccess (skip l) && isAccess (skip r) then none
  else if isAccess (skip r) then some (skip r)
  else if isAccess (skip l) then some (skip l)
  else none

/-- the binary expressions (prefer_optional_chain.go 1474-1563 and 1580-1615) -/
def parseBinary (isAnd : Bool) (node l : Expr) (o : Op) (r : Expr) : Operand :=
  match nullishOperand isAnd l o r with
  | some (k, e) => ⟨k, node, e⟩
  | none =>
    match otherComparison l o r with
    | some e => ⟨.comparison, node, e⟩
    | none => ⟨.invalid, node, node⟩

/-- negations (prefer_optional_chain.go 1565-1578) -/
def parseNot (isAnd : Bool) (node e : Expr) : Operand :=
  if isThis e then ⟨.invalid, node, node⟩ else if isAnd then ⟨.negated, node, e⟩ else ⟨.not, node, e⟩

/-- `parseOperand` (prefer_optional_chain.go 1434-1618) -/
def parse (isAnd : Bool) (node : Expr) : Operand :=
  if isThis (unwrap node) then ⟨.invalid, node, node⟩
  else if isLogical (innermost (unwrap node)) then ⟨.invalid, node, node⟩
  else match unwrap node with
    | binary l o _ r => parseBinary isAnd node l o r
    | unary .not e => parseNot isAnd node e
    | e => ⟨.plain, node, e⟩

/-- `collectOperands` (prefer_optional_chain.go 1620-1642), the operands from left to right, through parentheses -/
def operands (isAnd : Bool) : Expr → List Expr
  | paren e => match operands isAnd e with
    | [_] => [paren e]
    | es => es
  | binary l .and t r => if isAnd then operands isAnd l ++ operands isAnd r else [binary l .and t r]
  | binary l .or t r => if isAnd then [binary l .or t r] else operands isAnd l ++ operands isAnd r
  | e => [e]

/-! ### Comparisons -/

/-- `unwrapBinary` (prefer_optional_chain.go 287-302): the sides without their parentheses -/
def binaryParts (e : Expr) : Option (Expr × Op × Expr) :=
  match skip e with
  | binary l o _ r => some (skip l, o, skip r)
  | _ => none

/-- `isNullishComparison` (prefer_optional_chain.go 82-100) -/
def nullishComparison (x : Operand) : Bool :=
  x.kind == .comparison &&
  match binaryParts x.node with
  | some (l, o, r) => (o == .eq || o == .seq) && (isNullishLit l || isNullishLit r)
  | none => false

/-- the value on the other side in `isOrChainComparisonSafe` (prefer_optional_chain.go 1123-1131) -/
def otherSide (l r : Expr) : Option Expr :=
  if isAccess l then some r else if isAccess r then some l else none

/-- `isOrChainComparisonSafe`, by operator and value (prefer_optional_chain.go 1141-1170) -/
def orSafeOp (o : Op) (v : Expr) : Bool :=
  match o with
  | .sne => isLiteralNode v || isNullLit v
  | .seq => isUndefLit v
  | .ne => if isNullLit v || isUndefLit v then false else if isIdent v && !isLiteralNode v then false else isLiteralNode v
  | .eq => isNullLit v || isUndefLit v
  | .lt | .gt | .le | .ge => false
  | _ => true

/-- `isOrChainComparisonSafe` (prefer_optional_chain.go 1110-1171) -/
def orSafe (x : Operand) : Bool :=
  if x.kind ≠ .comparison then true
  else match binaryParts x.node with
    | none => true
    | some (l, o, r) => match otherSide l r with
      | none => true
      | some v => orSafeOp o v

/-- `isSafeTrailingComparisonValue` (prefer_optional_chain.go 2366-2390), with the parts of the value's type -/
def trailingSafe (o : Op) (t : List Part) : Bool :=
  match o with
  | .eq => !Info.canBeNullish t
  | .seq => !Info.canBeUndef t
  | .ne => Info.alwaysNullish t
  | .sne => Info.alwaysUndef t
  | .lt | .gt | .le | .ge => false
  | _ => true

/-- `isInvalidOrChainStartingOperand` (prefer_optional_chain.go 888-926) -/
def badStart (x : Operand) : Bool :=
  if x.kind ≠ .comparison then false
  else match binaryParts x.node with
    | none => false
    | some (l, o, r) =>
      if o == .seq && !isNullishLit l && !isNullishLit r then true
      else if !(o == .ne || o == .sne) then false
      else if !isNullishLit l && !isNullishLit r then false
      else simple (if isNullishLit r then l else r)

end Tsgolint.OptionalChain
