import Verif.Model.OptionalCode

/-!
# prefer-optional-chain: which chains are reported, and how (AND chains)

Models `validateChain`, `validateAndChainForReporting` with what they call, and the choice between fix and suggestion in `generateAndChainFixAndReport`
(`internal/rules/prefer_optional_chain/prefer_optional_chain.go` lines 167-227, 1425-1432, 1644-1712, 2098-2364, 2803-2876, 3286-3386). The operands of a chain always have an expression.
-/

namespace Tsgolint.OptionalChain

open Expr

/-! ### What both kinds of chains have in common -/

/-- `hasPropertyAccessInChain` (prefer_optional_chain.go 1644-1654) -/
def anyAccess (chain : List Operand) : Bool := chain.any fun x => isAccess (skip x.expr)

/-- `hasSameBaseIdentifier` (prefer_optional_chain.go 1656-1670) -/
def sameBase (chain : List Operand) : Bool :=
  match chain with
  | [] => true
  | first :: rest => rest.all fun x => eq (base first.expr) (base x.expr)

/-- `shouldSkipForRequireNullish` (prefer_optional_chain.go 1692-1712) -/
def skipForRequire (O : Options) (T : Types) (isAnd : Bool) (chain : List Operand) : Bool :=
  if !O.requireNullish then false
  else if !isAnd && (match chain with | x :: _ => x.kind == .not | [] => false) then true
  else chain.all (fun x => x.kind == .plain) && !(isAnd && chain.dropLast.any fun x => Info.explicitNullish (T x.expr))

/-- `validateChain` (prefer_optional_chain.go 1672-1690) -/
def validChain (O : Options) (T : Types) (isAnd : Bool) (chain : List Operand) : Bool :=
  decide (2 ≤ chain.length) && sameBase chain && anyAccess chain && !skipForRequire O T isAnd chain

/-- `NullishCheckAnalysis` (prefer_optional_chain.go 169-173) -/
structure Analysis where
  null : Bool := false
  undef : Bool := false
  both : Bool := false

/-- `HasOnlyNullCheck` (175-177) -/
def Analysis.onlyNull (a : Analysis) : Bool := a.null && !a.undef && !a.both
/-- `HasOnlyUndefinedCheck` (179-181) -/
def Analysis.onlyUndef (a : Analysis) : Bool := !a.null && a.undef && !a.both
/-- `HasIncompleteCheck` (183-185) -/
def Analysis.incomplete (a : Analysis) : Bool := a.onlyNull || a.onlyUndef

/-- a comparison in `analyzeNullishChecks` (prefer_optional_chain.go 209-224) -/
def analyzeComparison (x : Operand) : Analysis :=
  match binaryParts x.node with
  | none => {}
  | some (l, o, r) =>
    let isNull := isNullLit l || isNullLit r
    let isUndef := isUndefLit l || isUndefLit r
    if o == .eq && (isNull || isUndef) then { both := true }
    else if o == .seq then { null := isNull, undef := isUndef }
    else {}

/-- an operand in `analyzeNullishChecks` (prefer_optional_chain.go 191-225); `isOr` is `orChainMode` -/
def analyzeOne (isOr : Bool) (x : Operand) : Analysis :=
  match x.kind with
  | .notNull | .isNull => { null := true }
  | .notUndef | .isUndef | .typeof => { undef := true }
  | .notBoth | .isBoth => { both := true }
  | .not => { both := isOr }
  | .plain => { both := !isOr }
  | .comparison => analyzeComparison x
  | _ => {}

/-- `analyzeNullishChecks` (prefer_optional_chain.go 188-229) -/
def analyze (isOr : Bool) (chain : List Operand) : Analysis :=
  { null := chain.any fun x => (analyzeOne isOr x).null
    undef := chain.any fun x => (analyzeOne isOr x).undef
    both := chain.any fun x => (analyzeOne isOr x).both }

/-- `allSubsequentHaveOptionalChaining` (prefer_optional_chain.go 1425-1432) -/
def laterOptional (chain : List Operand) : Bool := chain.tail.all fun x => hasOptional x.expr

/-- the parts' texts are the same -/
def sameTexts (a b : List Link) : Bool := a.map Link.text == b.map Link.text

/-- `allOperandsCheckSameExpression` (prefer_optional_chain.go 2803-2820) -/
def allSame (chain : List Operand) : Bool :=
  match chain with
  | first :: second :: rest => (second :: rest).all fun x => sameTexts (flat false first.expr) (flat false x.expr)
  | _ => false

/-! ### AND chains -/

/-- `isSplitStrictEqualsPattern` (prefer_optional_chain.go 2822-2833) -/
def splitStrict (chain : List Operand) : Bool :=
  match chain with
  | [a, b] => (undefCheck a.kind && b.kind == .notNull) || (a.kind == .notNull && undefCheck b.kind)
  | _ => false

/-- `shouldSkipOptimalStrictChecks` (prefer_optional_chain.go 2835-2876) -/
def optimalStrict (T : Types) (chain : List Operand) : Bool :=
  match chain with
  | first :: _ :: _ =>
    laterOptional chain && chain.any (fun x => x.kind.strictCheck) &&
    !chain.any (fun x => x.kind == .not || x.kind == .negated || x.kind.looseCheck) && Info.both (T first.expr)
  | _ => false

/-- the texts of the first parts and, if asked for, their question marks agree (prefer_optional_chain.go 2138-2143, 2152-2157) -/
def partsAgree (marks : Bool) : List Link → List Link → Bool
  | [], _ => true
  | _ :: _, [] => false
  | p :: ps, q :: qs => p.text == q.text && (!marks || p.optional == q.optional) && partsAgree marks ps qs

/-- `x && x?.y`: the second operand has just one link more, with a question mark (prefer_optional_chain.go 2135-2147) -/
def redundant (a b : List Link) : Bool :=
  b.length == a.length + 1 && partsAgree true a b && (match b.getLast? with | some p => p.optional | none => false)

/-- two operands of which the second has question marks (prefer_optional_chain.go 2122-2185) -/
def alreadyOptional (chain : List Operand) : Bool :=
  match chain with
  | [x, y] =>
    hasOptional y.expr &&
    (let a := flat false x.expr
     let b := flat false y.expr
     if redundant a b then y.kind == .comparison
     else decide (a.length < b.length) && !a.isEmpty && partsAgree false a b && (b.drop a.length).any Link.optional)
  | _ => false

/-- the operands that guard (prefer_optional_chain.go 2244-2260) -/
def guardOperands (chain : List Operand) : List Operand :=
  match chain.reverse with
  | last :: prev :: _ =>
    if last.kind.trailing then chain.dropLast
    else if last.kind == .plain && decide ((flat false prev.expr).length < (flat false last.expr).length) then chain.dropLast
    else chain
  | _ => chain

/-- the last operand, if it does not guard (prefer_optional_chain.go 2272-2286) -/
def apart (chain : List Operand) : Option Operand :=
  if decide (2 ≤ chain.length) && decide ((guardOperands chain).length < chain.length) then chain.getLast? else none

/-- `strictCheckIsComplete` (prefer_optional_chain.go 2295-2310) -/
def strictComplete (a : Analysis) (t : List Part) : Bool :=
  !Info.anyOrUnknown t &&
  ((a.null && !a.undef && Info.hasNull t && !Info.hasUndef t) || (!a.null && a.undef && Info.hasUndef t && !Info.hasNull t))

/-- `hasIncompleteNullishCheck` (prefer_optional_chain.go 2241-2321) -/
def incompleteCheck (T : Types) (chain : List Operand) : Bool :=
  let guards := guardOperands chain
  let a := analyze false guards
  let hasTypeof := guards.any fun x => x.kind == .typeof
  let trailingBoth := match apart chain with | some x => x.kind == .notBoth | none => false
  let trailingOptional := match apart chain with | some x => hasOptional x.expr | none => false
  let notNullish := match guards with | x :: _ => !Info.nullish (T x.expr) | [] => false
  let complete := match guards with | x :: _ => strictComplete a (T x.expr) | [] => false
  !a.both && !hasTypeof && !trailingBoth && !trailingOptional && !notNullish && !complete && a.incomplete

/-- is the last operand a comparison to be looked at? (prefer_optional_chain.go 2320-2334) -/
def isTrailing (chain : List Operand) : Bool :=
  match chain.reverse with
  | last :: prev :: _ =>
    last.kind == .comparison ||
    ((last.kind == .notNull || last.kind == .notUndef || last.kind == .notBoth) && decide ((flat false prev.expr).length < (flat false last.expr).length))
  | [last] => last.kind == .comparison
  | [] => false

/-- the other side (prefer_optional_chain.go 2344-2354) -/
def trailingValue (e l r : Expr) : Option Expr :=
  if eq e l then some r
  else if eq e r then some l
  else if isAccess l then some r
  else if isAccess r then some l
  else none

/-- `isUnsafeTrailingComparison` (prefer_optional_chain.go 2319-2364), of the last operand -/
def unsafeTrailing (O : Options) (T : Types) (chain : List Operand) : Bool :=
  match chain.getLast? with
  | none => false
  | some last =>
    isTrailing chain &&
    match binaryParts last.node with
    | none => false
    | some (l, o, r) => match trailingValue last.expr l r with
      | none => false
      | some v => !trailingSafe o (T v) && !O.allowUnsafe

/-- `x!` as an operand (prefer_optional_chain.go 2195) -/
def isNonNull : Expr → Bool
  | .nonNull _ => true
  | _ => false

/-- the type of a first truth test (prefer_optional_chain.go 2187-2191, 2204-2216) -/
def badFirstTest (O : Options) (T : Types) (first : Operand) : Bool :=
  first.kind == .plain && (Info.hasVoid (T first.expr) || skipByType O T first.expr || (Info.changesReturn (T first.expr) && !O.allowUnsafe))

/-- a first operand with question marks (prefer_optional_chain.go 2102-2111) -/
def firstOptional (chain : List Operand) (first : Operand) : Bool :=
  hasOptional first.expr && (first.kind == .plain || (first.kind.strictCheck && !splitStrict chain))

/-- `typeof` of what cannot be null or undefined, before a call (prefer_optional_chain.go 2217-2227) -/
def typeofCall (T : Types) (chain : List Operand) : Bool :=
  chain.length == 2 && chain.any (fun x => x.kind == .typeof && !Info.nullish (T x.expr)) &&
  (match chain.getLast? with | some last => isCall (skip last.expr) | none => false)

/-- `validateAndChainForReporting` (prefer_optional_chain.go 2098-2237) -/
def andReported (O : Options) (T : Types) (chain : List Operand) : Bool :=
  match chain with
  | [] => false
  | first :: _ =>
    !firstOptional chain first && !allSame chain && !optimalStrict T chain && !alreadyOptional chain && !badFirstTest O T first &&
    !(!O.allowUnsafe && (chain.any (fun x => isNonNull x.node) || incompleteCheck T chain)) &&
    !typeofCall T chain && !unsafeTrailing O T chain

/-- `validateChainForReporting` for AND chains (prefer_optional_chain.go 2087-2096) -/
def reportsAnd (O : Options) (T : Types) (chain : List Operand) : Bool := validChain O T true chain && andReported O T chain

/-! ### Fix or suggestion -/

/-- was there a comparison at the end? (`hasTrailingComparison`, prefer_optional_chain.go 2919-3028) -/
def Ending.compares : Ending → Bool
  | .plain => false
  | _ => true

/-- the first reasons for a fix (prefer_optional_chain.go 3331-3359) -/
def fixAtFirst (T : Types) (chain : List Operand) (last : Operand) (e : Ending) : Bool :=
  (match last.kind with | .isBoth | .notBoth | .isUndef | .notUndef | .typeof => true | _ => false) || e.compares ||
  chain.any fun x => Info.hasUndef (T x.expr) || Info.anyOrUnknown (T x.expr)

/-- an explicit check at the beginning, an access at the end (prefer_optional_chain.go 3361-3378) -/
def explicitThenPlain (T : Types) (first last : Operand) : Bool :=
  (first.kind == .notBoth || first.kind == .notNull || first.kind == .notUndef) && last.kind == .plain && !Info.anyOrUnknown (T first.expr)

/-- a complementary pair at the end (prefer_optional_chain.go 3380-3389) -/
def pairSuggests (e : Ending) (second last : Operand) : Bool :=
  match e with
  | .pair _ => last.kind == .typeof || second.kind == .notNull
  | _ => false

/-- is the replacement only suggested? (`useSuggestion`, prefer_optional_chain.go 3324-3390) -/
def andSuggests (O : Options) (T : Types) (chain : List Operand) : Bool :=
  match chain, chain.reverse with
  | first :: _, last :: second :: rest =>
    let e := ending (last :: second :: rest)
    if O.allowUnsafe then false
    else (!fixAtFirst T chain last e) || explicitThenPlain T first last || pairSuggests e second last
  | _, _ => !O.allowUnsafe

end Tsgolint.OptionalChain
