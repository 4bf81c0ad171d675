/-!
# Model of no-unnecessary-condition, first part: truthiness, nullishness, comparisons
(/repo/internal/rules/no_unnecessary_condition/no_unnecessary_condition.go)

Optional chains (lines 526-1358) are in `Model/ConditionChain.lean`.
-/
namespace Tsgolint.Condition

/-- A type, as far as the rule distinguishes them.  Numbers tell apart types of the same sort. -/
inductive Ty
  | never
  | null
  | undefined
  | void
  /-- flags `Object` -/
  | object (n : Nat)
  /-- `object` (flags `NonPrimitive`) -/
  | nonPrimitive
  /-- `symbol`, `unique symbol` -/
  | symbol
  /-- `true`, `false`; with `none`, something else with the flag `BooleanLiteral` -/
  | boolLit (b : Option Bool)
  | stringLit (s : String)
  /-- with what `LiteralType.String()` gives -/
  | numberLit (text : String)
  | bigintLit (text : String)
  /-- `string`, `number`, `bigint`, templates, …: neither literal nor any of the others -/
  | primitive (n : Nat)
  | any
  | unknown
  | typeParameter (n : Nat)
  | indexedAccess (n : Nat)
  /-- `keyof T` -/
  | index (n : Nat)
  /-- flags `Conditional`, `Substitution` or `IncludesConstrainedTypeVariable` -/
  | deferred (n : Nat)
  | union (parts : List Ty)
  | intersection (parts : List Ty)

mutual
/-- Lines 1874-2004 `checkTypeCondition`: always truthy, always falsy -/
def condition : Ty → Bool × Bool
  | .never => (false, true)
  | .indexedAccess _ => (false, false)
  | .union ts => (allTruthy ts, allFalsy ts)
  | .intersection ts => conditionAll true ts
  | .null | .undefined | .void => (false, true)
  | .object _ | .nonPrimitive => (true, false)
  | .symbol => (true, false)
  | .boolLit (some true) => (true, false)
  | .boolLit (some false) => (false, true)
  | .boolLit none => (false, false)
  | .stringLit s => if s = "" then (false, true) else (true, false)
  | .numberLit t => if t = "0" ∨ t = "NaN" then (false, true) else (true, false)
  | .bigintLit t => if t = "0" ∨ t = "0n" then (false, true) else (true, false)
  | .primitive _ | .any | .unknown | .typeParameter _ | .index _ | .deferred _ => (false, false)
/-- Lines 1894-1908, what becomes of `allTruthy` -/
def allTruthy : List Ty → Bool
  | [] => true
  | t :: ts => (condition t).1 && allTruthy ts
/-- Lines 1894-1908, what becomes of `allFalsy` -/
def allFalsy : List Ty → Bool
  | [] => true
  | t :: ts => (condition t).2 && allFalsy ts
/-- Lines 1914-1929: the parts of an intersection; `all` is `allTruthy` so far -/
def conditionAll (all : Bool) : List Ty → Bool × Bool
  | [] => (all, false)
  | t :: ts => if (condition t).2 then (false, true) else conditionAll (all && (condition t).1) ts
end

/-- `utils.UnionTypeParts` -/
def parts : Ty → List Ty
  | .union ts => ts
  | t => [t]

/-- Flags `Any`, `Unknown`, `TypeVariable` (line 456) -/
def Ty.open : Ty → Bool
  | .any | .unknown | .typeParameter _ | .indexedAccess _ => true
  | _ => false

/-- Lines 453-462 `isConditionalAlwaysNecessary` -/
def alwaysNecessary (t : Ty) : Bool := (parts t).any Ty.open

/-- Flags `Null`, `Undefined`, `Void`: lines 246-249 `isAlwaysNullishType` -/
def Ty.nullishLeaf : Ty → Bool
  | .null | .undefined | .void => true
  | _ => false

mutual
/-- Lines 2011-2018 `isNullishType` -/
def nullish : Ty → Bool
  | .union ts => anyNullish ts
  | t => t.nullishLeaf
/-- Line 2013: `slices.ContainsFunc` -/
def anyNullish : List Ty → Bool
  | [] => false
  | t :: ts => nullish t || anyNullish ts
end

/-! ### Types of expressions -/

/-- What the checker says about `T[K]` -/
structure Access where
  /-- the index is a literal: its text -/
  literal : Option String
  property : String → Option Ty
  /-- a part of the index is like a string, a number -/
  stringLike : Bool
  numberLike : Bool
  stringIndex : Option Ty
  numberIndex : Option Ty

/-- Lines 343-385: the type of the property, or of an index signature -/
def Access.type (a : Access) : Option Ty :=
  match a.literal.bind a.property with
  | some t => some t
  | none =>
    match (if a.stringLike then a.stringIndex else none) with
    | some t => some t
    | none => if a.numberLike then a.numberIndex else none

/-- The checker: constraints of type parameters, and what is known of `T[K]` (`none`: lines 338-340) -/
structure Checker where
  constraint : Nat → Option Ty
  access : Nat → Option Access

/-- Lines 330-385 `resolveIndexedAccessType` -/
def Checker.resolve (C : Checker) : Ty → Ty
  | .indexedAccess n => ((C.access n).bind Access.type).getD (.indexedAccess n)
  | t => t

/-- Lines 387-401 `getResolvedType`, from the type at the node -/
def Checker.resolved (C : Checker) : Option Ty → Option Ty
  | some (.typeParameter n) => (C.constraint n).map C.resolve
  | some t => some (C.resolve t)
  | none => none

/-! ### Conditions -/

/-- An expression.  All but `(…)`, `!`, `&&` and `||` are leaves. -/
inductive Expr
  | leaf (n : Nat)
  | paren (e : Expr)
  | not (e : Expr)
  | and (l r : Expr)
  | or (l r : Expr)
  deriving DecidableEq

inductive Message
  | never
  | alwaysTruthy
  | alwaysFalsy
  deriving DecidableEq

/-- What is known about leaves -/
structure Leaves where
  /-- `getResolvedType` -/
  type : Nat → Option Ty
  /-- `isArrayIndexExpression` (lines 433-451) -/
  arrayIndex : Nat → Bool
  /-- it is `a[b]`; the string index type of the resolved type of `a` (lines 1478-1486) -/
  element : Nat → Option (Option Ty)

/-- Flags `IndexedAccess` -/
def Ty.isAccess : Ty → Bool
  | .indexedAccess _ => true
  | _ => false

/-- Lines 1478-1486 -/
def throughIndex (element : Option (Option Ty)) (t : Ty) : Ty :=
  match element with
  | some (some s) => if t.isAccess then s else t
  | _ => t

/-- Lines 1488-1525: the message about a type, under an odd number of `!` or not -/
def verdict (negated : Bool) (t : Ty) : Option Message :=
  match t with
  | .never => some .never
  | t =>
    if (condition t).2 then some (if negated then .alwaysTruthy else .alwaysFalsy)
    else if (condition t).1 then some (if negated then .alwaysFalsy else .alwaysTruthy)
    else none

/-- Lines 1472-1525 -/
def checkLeaf (L : Leaves) (n : Nat) (negated : Bool) : Option Message :=
  match L.type n with
  | none => none
  | some t => if alwaysNecessary t then none else verdict negated (throughIndex (L.element n) t)

/-- Lines 1442-1525 `checkNode`: where the report is, and what it says; `report` is `reportNode` -/
def check (L : Leaves) (noUnchecked : Bool) : Expr → Bool → Expr → Option (Expr × Message)
  | .paren e, negated, report => check L noUnchecked e negated report
  | .not e, negated, report => check L noUnchecked e (!negated) report
  | .and _ r, _, _ => check L noUnchecked r false r
  | .or _ r, _, _ => check L noUnchecked r false r
  | .leaf n, negated, report =>
    if !noUnchecked && L.arrayIndex n then none
    else (checkLeaf L n negated).map fun m => (report, m)

/-- What is checked of a condition (lines 1797-1811, 1682) -/
def checkCondition (L : Leaves) (noUnchecked : Bool) (e : Expr) : Option (Expr × Message) := check L noUnchecked e false e

/-! ### Loops -/

/-- The option `allowConstantLoopConditions` -/
inductive LoopOption
  | string (s : String)
  | stringPointer (s : Option String)
  | bool (b : Bool)
  | boolPointer (b : Option Bool)
  | other

/-- Lines 2071-2090 `normalizeAllowConstantLoopConditions` -/
def LoopOption.mode : LoopOption → String
  | .string s => s
  | .stringPointer (some s) => s
  | .bool true => "always"
  | .boolPointer (some true) => "always"
  | _ => "never"

/-- What a condition is, inside parentheses -/
inductive Literal
  | true
  | false
  | number (text : String)
  | other
  deriving DecidableEq

/-- Lines 2056-2069 `isAllowedConstantLiteral` -/
def Literal.allowed : Literal → Bool
  | .true | .false => Bool.true
  | .number t => t = "0" ∨ t = "1"
  | .other => Bool.false

/-- Lines 470-473 `isTrueLiteralType` -/
def Ty.isTrue : Ty → Bool
  | .boolLit (some b) => b
  | _ => false

/-- Lines 1685-1704 `checkIfLoopIsNecessaryConditional`; `type`: the resolved type of the condition -/
def checkLoop (L : Leaves) (noUnchecked : Bool) (mode : String) (literal : Literal) (type : Option Ty) (e : Expr) : Option (Expr × Message) :=
  if mode = "only-allowed-literals" ∧ literal.allowed then none
  else if mode = "always" ∧ (literal = .true ∨ type.any Ty.isTrue) then none
  else checkCondition L noUnchecked e

/-! ### `??` -/

inductive NullishMessage
  | never
  | alwaysNullish
  | neverNullish
  deriving DecidableEq

/-- The left side of `??` or `??=` -/
structure Operand where
  /-- its resolved type -/
  type : Option Ty
  /-- `isNullableMemberExpression` -/
  nullableMember : Bool
  /-- `isArrayIndexExpression` -/
  arrayIndex : Bool
  /-- `hasOptionalChain` and `optionChainContainsOptionArrayIndex` -/
  chainIndex : Bool

/-- Lines 526-535 `constrainIndexedAccessType`; `none`: skip -/
def Checker.constrain (C : Checker) (t : Ty) : Option Ty :=
  if !t.isAccess then some t
  else if (C.resolve t).isAccess then none else some (C.resolve t)

/-- Lines 1543-1577 -/
def nullishVerdict (noUnchecked : Bool) (o : Operand) (t : Ty) : Option NullishMessage :=
  match t with
  | .never => some .never
  | t =>
    if t.nullishLeaf then some .alwaysNullish
    else if !nullish t && !o.nullableMember then
      if noUnchecked || (!o.arrayIndex && !o.chainIndex) then some .neverNullish else none
    else none

/-- Lines 1527-1577 `checkNodeForNullish` -/
def checkNullish (C : Checker) (noUnchecked : Bool) (o : Operand) : Option NullishMessage :=
  match o.type with
  | none => none
  | some t => if alwaysNecessary t then none else (C.constrain t).bind (nullishVerdict noUnchecked o)

/-! ### Chains -/

/-- Something like `a.b?.c[d]()`.  `root` is anything else. -/
inductive Chain
  | root
  | paren (c : Chain)
  | property (c : Chain) (optional : Bool)
  /-- `isArrayIndexExpression` -/
  | element (c : Chain) (optional arrayIndex : Bool)
  | call (c : Chain) (optional : Bool)

/-- Lines 493-519 `hasOptionalChain` -/
def Chain.hasOptional : Chain → Bool
  | .root => false
  | .paren c => c.hasOptional
  | .property c o => if o then true else c.hasOptional
  | .element c o _ => if o then true else c.hasOptional
  | .call c o => if o then true else c.hasOptional

/-- `isArrayIndexExpression` (lines 433-451) -/
def Chain.isArrayIndex : Chain → Bool
  | .paren c => c.isArrayIndex
  | .element _ _ a => a
  | _ => false

/-- Line 1432: without parentheses -/
def Chain.isLink : Chain → Bool
  | .property _ _ | .element _ _ _ | .call _ _ => true
  | _ => false

/-- Lines 1402-1439 `optionChainContainsOptionArrayIndex` -/
def Chain.optionalIndex : Chain → Bool
  | .root => false
  | .paren c => c.optionalIndex
  | .property c o | .element c o _ | .call c o =>
    if o && c.isArrayIndex then true else if c.isLink then c.optionalIndex else false

/-! ### Comparisons -/

/-- Lines 251-284 `toStaticValue` -/
def Ty.static : Ty → Bool
  | .boolLit (some _) => true
  | .undefined | .null => true
  | .stringLit _ | .numberLit _ | .bigintLit _ => true
  | _ => false

inductive Operator
  | looseEqual
  | looseNotEqual
  | strictEqual
  | strictNotEqual
  | less
  | greater
  | lessEqual
  | greaterEqual
  deriving DecidableEq

def Operator.loose : Operator → Bool
  | .looseEqual | .looseNotEqual => true
  | _ => false

/-- Flags asked for in line 1655-1658 -/
inductive Wanted
  | undefinedOrVoid
  | null
  deriving DecidableEq

/-- Lines 1617-1629: comparable by its flags -/
def Ty.fits (op : Operator) (w : Wanted) : Ty → Bool
  | .any | .unknown | .typeParameter _ | .indexedAccess _ | .deferred _ => true
  | .null => op.loose || decide (w = .null)
  | .undefined | .void => op.loose || decide (w = .undefinedOrVoid)
  | _ => false

mutual
/-- Lines 1611-1653 `isComparable` -/
def comparable (op : Operator) (w : Wanted) : Ty → Bool
  | .union ts => someComparable op w ts
  | .intersection ts => !ts.isEmpty && everyComparable op w ts
  | t => t.fits op w
def someComparable (op : Operator) (w : Wanted) : List Ty → Bool
  | [] => false
  | t :: ts => comparable op w t || someComparable op w ts
def everyComparable (op : Operator) (w : Wanted) : List Ty → Bool
  | [] => true
  | t :: ts => comparable op w t && everyComparable op w ts
end

/-- Flags are exactly `Undefined` -/
def Ty.isUndefined : Ty → Bool
  | .undefined => true
  | _ => false

/-- Flags are exactly `Null` -/
def Ty.isNull : Ty → Bool
  | .null => true
  | _ => false

inductive CompareMessage
  | literals
  | noOverlap
  deriving DecidableEq

/-- Lines 1655-1658 -/
def noOverlap (op : Operator) (l r : Ty) : Bool :=
  (l.isUndefined && !comparable op .undefinedOrVoid r) || (r.isUndefined && !comparable op .undefinedOrVoid l) ||
  (l.isNull && !comparable op .null r) || (r.isNull && !comparable op .null l)

/-- Lines 1579-1674 `checkIfBoolExpressionIsNecessaryConditional` -/
def compare (strict : Bool) (op : Operator) : Option Ty → Option Ty → Option CompareMessage
  | some l, some r =>
    if l.static && r.static then some .literals
    else if !strict then none
    else if noOverlap op l r then some .noOverlap else none
  | _, _ => none

/-! ### Predicates -/

/-- A type predicate of a signature -/
structure Guard where
  /-- the index of the parameter, and whether there is such a parameter with a type -/
  applies : Bool
  /-- `x is T` or `this is T`, with a type -/
  isIdentifier : Bool
  /-- the parameter's type is assignable to `T` -/
  assignable : Bool

/-- A signature of the predicate -/
structure Signature where
  guard : Option Guard
  /-- the return type, or its constraint (lines 2158-2169) -/
  returns : Ty

inductive PredicateMessage
  | guard
  | alwaysTruthy
  | alwaysFalsy
  deriving DecidableEq

/-- Lines 2114-2153: the guard is unnecessary -/
def Signature.guarded (s : Signature) : Bool := s.guard.any fun g => g.applies && g.isIdentifier && g.assignable

/-- Lines 2106-2207 `checkPredicateFunction` -/
def predicate (checkGuards : Bool) : List Signature → List PredicateMessage
  | [] => []
  | s :: ss =>
    if checkGuards && s.guarded then [.guard]
    else
      (if (condition s.returns).1 then [.alwaysTruthy] else if (condition s.returns).2 then [.alwaysFalsy] else [])
        ++ predicate checkGuards ss

end Tsgolint.Condition
