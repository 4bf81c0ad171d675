import Verif.Model.OptionalReport

/-!
# prefer-optional-chain: which OR chains are reported, and how

Models `validateOrChainForReporting`, `validateOrChainNullishChecks`, `hasUnsafeStrictNullishGuardWithNegatedAccess` and the choice between fix and suggestion in
`generateOrChainFixAndReport` (`internal/rules/prefer_optional_chain/prefer_optional_chain.go` lines 82-130, 231-258, 2392-2801, 2878-2899, 3388-3394, 3533-3612).
-/

namespace Tsgolint.OptionalChain

open Expr

/-- `isStrictNullComparison` (prefer_optional_chain.go 82-104): with `==` too -/
def nullComparison (x : Operand) : Bool :=
  x.kind == .comparison &&
  match binaryParts x.node with
  | some (l, o, r) => (o == .eq || o == .seq) && (isNullLit l || isNullLit r)
  | none => false

/-- a comparison by `===` with what the test says (prefer_optional_chain.go 110-113, 123-126) -/
def strictlyWith (p : Expr → Bool) (x : Operand) : Bool :=
  match binaryParts x.node with
  | some (l, o, r) => o == .seq && (p l || p r)
  | none => false

/-- `isStrictNullCheckForOrChain` (prefer_optional_chain.go 106-117) -/
def strictNullCheck (x : Operand) : Bool :=
  match x.kind with
  | .isNull | .notNull => true
  | .comparison => strictlyWith isNullLit x
  | _ => false

/-- `isStrictUndefinedCheckForOrChain` (prefer_optional_chain.go 119-130) -/
def strictUndefCheck (x : Operand) : Bool :=
  match x.kind with
  | .isUndef | .notUndef | .typeof => true
  | .comparison => strictlyWith isUndefLit x
  | _ => false

/-- `hasShorterUndefinedCheckBeforeStrictNullComparison` (prefer_optional_chain.go 231-258) -/
def shorterUndefCheck (chain : List Operand) : Bool :=
  match chain.getLast? with
  | none => false
  | some last => decide (2 ≤ chain.length) && strictNullCheck last &&
    chain.dropLast.any fun x => strictUndefCheck x && decide ((flat false x.expr).length < (flat false last.expr).length)

/-- `shouldSkipOrChainOptimalChecks` (prefer_optional_chain.go 2878-2899); no operand of an OR chain has this kind -/
def optimalOr (T : Types) (chain : List Operand) : Bool :=
  match chain with
  | first :: _ :: _ => laterOptional chain && first.kind == .isNull && !Info.hasUndef (T first.expr) && !Info.hasAny (T first.expr) && !Info.hasUnknown (T first.expr)
  | _ => false

/-- an explicit check for null, then `?.`, of what is never null or undefined (prefer_optional_chain.go 2610-2632) -/
def needlessNull (T : Types) (chain : List Operand) : Bool :=
  match chain with
  | first :: _ => laterOptional chain && (first.kind == .isNull || first.kind == .isBoth || nullComparison first) &&
    !chain.any fun x => Info.hasNull (T x.expr) || Info.hasUndef (T x.expr)
  | [] => false

/-- a comparison by `==` with null or undefined, without parentheses around it (prefer_optional_chain.go 2641-2656) -/
def looseComparison (x : Operand) : Bool :=
  x.kind == .comparison &&
  match x.node with
  | .binary l o _ r => o == .eq && (isNullLit (skip l) || isNullLit (skip r) || isUndefName (skip l) || isUndefName (skip r))
  | _ => false

/-- `allStrictChecks` (prefer_optional_chain.go 2634-2658) -/
def allStrict (chain : List Operand) : Bool :=
  !chain.any fun x => x.kind.looseCheck || x.kind == .plain || x.kind == .not || looseComparison x

/-- strict checks, then `?.` (prefer_optional_chain.go 2660-2682) -/
def strictThenOptional (T : Types) (chain : List Operand) : Bool :=
  laterOptional chain && allStrict chain &&
  (let n := chain.any fun x => Info.hasNull (T x.expr)
   let u := chain.any fun x => Info.hasUndef (T x.expr)
   (!n && !u) || (n && u))

/-- the operands after the negation of a simple expression (prefer_optional_chain.go 2692-2711); `seen` is `hasIntermediateNullishComp` -/
def afterNegation : Bool → List Operand → Bool
  | _, [] => true
  | seen, x :: rest =>
    let middle := x.kind == .comparison && nullishComparison x && !rest.isEmpty
    (x.kind == .not || (x.kind == .comparison && orSafe x) || middle || x.kind.nullishCheck || (x.kind == .plain && rest.isEmpty && (seen || middle))) &&
    afterNegation (seen || middle) rest

/-- chains that begin with a negation (prefer_optional_chain.go 2684-2721) -/
def negationOk (O : Options) (chain : List Operand) : Bool :=
  match chain with
  | first :: rest =>
    if first.kind == .not && !O.allowUnsafe then
      if !isAccess (skip first.expr) then afterNegation false rest else !rest.any fun x => x.kind == .comparison && !orSafe x
    else true
  | [] => true

/-- an operand after an equality with null or undefined (prefer_optional_chain.go 2727-2741) -/
def afterEqualityOk (t : List Part) (x : Operand) (isLast : Bool) : Bool :=
  if x.kind == .comparison && !orSafe x then
    if isLast && nullishComparison x then !(Info.hasNull t && Info.hasUndef t) && !(Info.hasAny t || Info.hasUnknown t)
    else nullishComparison x
  else true

/-- all of them -/
def afterEquality (t : List Part) : List Operand → Bool
  | [] => true
  | x :: rest => afterEqualityOk t x rest.isEmpty && afterEquality t rest

/-- chains that begin with an equality with null or undefined (prefer_optional_chain.go 2723-2744) -/
def equalityOk (O : Options) (T : Types) (chain : List Operand) : Bool :=
  match chain with
  | first :: rest =>
    if !O.allowUnsafe && (first.kind == .notBoth || first.kind == .notNull || first.kind == .notUndef) then afterEquality (T first.expr) rest else true
  | [] => true

/-- `import.meta` and `new.target` (prefer_optional_chain.go 2750) -/
def isMeta : Expr → Bool
  | .metaProp _ _ _ => true
  | _ => false

/-- chains that begin with a truth test (prefer_optional_chain.go 2746-2770) -/
def plainOk (O : Options) (chain : List Operand) : Bool :=
  match chain with
  | first :: rest =>
    if first.kind == .plain then
      !isMeta (skip first.expr) && !(!O.allowUnsafe && !isAccess (skip first.expr) && rest.any fun x => x.kind == .comparison)
    else true
  | [] => true

/-! ### `validateOrChainNullishChecks` -/

/-- does an operand's type fit what is checked? (prefer_optional_chain.go 2416-2442) -/
def typeFits (a : Analysis) (t : List Part) : Bool :=
  Info.noNullable t ||
  (!Info.anyOrUnknown t && !Info.both t && !(a.onlyNull && !Info.hasNull t && Info.hasUndef t) && !(a.onlyUndef && Info.hasNull t && !Info.hasUndef t))

/-- `strictCheckIsComplete` (prefer_optional_chain.go 2414-2445) -/
def strictFits (a : Analysis) (T : Types) (chain : List Operand) : Bool :=
  chain.all (fun x => typeFits a (T x.expr)) && chain.any fun x => !Info.noNullable (T x.expr)

/-- a strict comparison with one of null and undefined, of a type that has both (prefer_optional_chain.go 2463-2490) -/
def stopsHere (T : Types) (x : Operand) : Bool :=
  !hasOptional x.expr && Info.hasNull (T x.expr) && Info.hasUndef (T x.expr) &&
  match x.kind with
  | .notNull | .notUndef | .isNull | .isUndef => true
  | .comparison => match skip x.node with
    | .binary l o _ r => o == .seq && ((isNullLit r || isNullLit l) != (isUndefLit r || isUndefLit l))
    | _ => false
  | _ => false

/-- the chain up to the first operand but the last that stops (prefer_optional_chain.go 2453-2496) -/
def truncate (T : Types) : List Operand → List Operand
  | x :: y :: rest => if stopsHere T x then [x] else x :: truncate T (y :: rest)
  | xs => xs

/-- kinds that make what follows be looked at (prefer_optional_chain.go 2508-2511); of those an OR chain has only `typeof` -/
def Kind.guardStart : Kind → Bool
  | .typeof | .isNull | .isUndef | .isBoth => true
  | _ => false

/-- after `typeof` (prefer_optional_chain.go 2512-2522) -/
def afterTypeof (rest : List Operand) : Bool := !rest.any fun x => (x.kind == .comparison && !orSafe x) || x.kind == .plain || x.kind == .not

/-- the last two tests (prefer_optional_chain.go 2524-2540) -/
def lastTests (a : Analysis) (complete : Bool) (first : Operand) (rest : List Operand) : Bool :=
  !(a.null && !a.undef && !a.both && !complete) &&
  !(first.kind == .comparison && nullishComparison first && rest.any fun x => x.kind == .comparison && !orSafe x && !nullishComparison x)

/-- the first operand is never null or undefined (prefer_optional_chain.go 2400-2404) -/
def neverNullish (T : Types) : List Operand → Bool
  | x :: _ => !Info.nullish (T x.expr)
  | [] => false

/-- the last of at least two operands has `?.` (prefer_optional_chain.go 2406-2410) -/
def trailingOptional (chain : List Operand) : Bool :=
  match chain.getLast? with
  | some x => decide (2 ≤ chain.length) && hasOptional x.expr
  | none => false

/-- are strict checks for only one of null and undefined not enough? (prefer_optional_chain.go 2447-2451) -/
def notEnough (T : Types) (chain : List Operand) : Bool :=
  !(analyze true chain).both && !neverNullish T chain && !trailingOptional chain && !strictFits (analyze true chain) T chain && (analyze true chain).incomplete

/-- the tests of what is left of the chain (prefer_optional_chain.go 2498-2541) -/
def checkedOr (a : Analysis) (complete : Bool) : List Operand → Option (List Operand)
  | first :: second :: rest =>
    if (first.kind.guardStart && !afterTypeof (second :: rest)) || !lastTests a complete first (second :: rest) then none else some (first :: second :: rest)
  | _ => none

/-- `validateOrChainNullishChecks` (prefer_optional_chain.go 2392-2542) -/
def orChecks (O : Options) (T : Types) (chain : List Operand) : Option (List Operand) :=
  if O.allowUnsafe then some chain
  else if notEnough T chain then none
  else checkedOr (analyze true chain) (strictFits (analyze true chain) T chain) (truncate T chain)

/-- `hasUnsafeStrictNullishGuardWithNegatedAccess` (prefer_optional_chain.go 2544-2579) -/
def strictThenNegated (T : Types) : List Operand → Bool
  | [] => false
  | g :: rest =>
    (g.kind.strictCheck && (Info.anyOrUnknown (T g.expr) || Info.both (T g.expr)) &&
      rest.any fun x => x.kind == .not && (compare g.expr x.expr == .equal || compare g.expr x.expr == .subset) && isAccess (skip x.expr)) ||
    strictThenNegated T rest

/-- a negation, then a call of the same (prefer_optional_chain.go 2781-2799) -/
def negatedThenCalled : List Operand → Bool
  | [] => false
  | g :: rest =>
    (g.kind == .not && rest.any fun x => x.kind != .not && match skip x.expr with | .call c _ _ _ => compare g.expr c == .equal | _ => false) ||
    negatedThenCalled rest

/-- `validateOrChainForReporting` (prefer_optional_chain.go 2581-2801): what is reported of the chain -/
def orReported (O : Options) (T : Types) (chain : List Operand) : Option (List Operand) :=
  if chain.all (fun x => x.kind == .plain) || optimalOr T chain || allSame chain || needlessNull T chain || strictThenOptional T chain ||
      !negationOk O chain || !equalityOk O T chain || !plainOk O chain then none
  else match orChecks O T chain with
    | none => none
    | some chain =>
      if decide (chain.length < 2) || (!O.allowUnsafe && strictThenNegated T chain) ||
          (!O.allowUnsafe && chain.any fun x => (x.kind == .plain || x.kind == .not) && Info.changesReturn (T x.expr)) || negatedThenCalled chain then none
      else some chain

/-- `validateChainForReporting` for OR chains (prefer_optional_chain.go 2087-2096) -/
def reportsOr (O : Options) (T : Types) (chain : List Operand) : Option (List Operand) := if validChain O T false chain then orReported O T chain else none

/-! ### Fix or suggestion -/

/-- does an operand's type match what is checked? (prefer_optional_chain.go 3563-3590) -/
def typeMatches (a : Analysis) (t : List Part) : Bool :=
  Info.noNullable t ||
  (!Info.anyOrUnknown t && !Info.both t && !(a.onlyNull && (!Info.hasNull t || Info.hasUndef t)) && !(a.onlyUndef && (Info.hasNull t || !Info.hasUndef t)))

/-- `strictCheckRequiresSuggestion` (prefer_optional_chain.go 3554-3597) -/
def strictSuggests (T : Types) (chain : List Operand) : Bool :=
  let a := analyze true chain
  (a.incomplete && chain.all (fun x => typeMatches a (T x.expr)) && chain.any fun x => !Info.noNullable (T x.expr)) || shorterUndefCheck chain

/-- kinds at the end that are rewritten (prefer_optional_chain.go 3536-3548) -/
def Kind.fixedAtEnd : Kind → Bool
  | .not | .isBoth | .notBoth | .isUndef | .notUndef | .typeof => true
  | _ => false

/-- is the replacement only suggested? (`useSuggestion`, prefer_optional_chain.go 3533-3612) -/
def orSuggests (O : Options) (T : Types) (chain : List Operand) : Bool :=
  match chain.getLast? with
  | none => !O.allowUnsafe
  | some last =>
    !O.allowUnsafe && !last.kind.fixedAtEnd && !(last.kind.comparisonOrCheck && !strictSuggests T chain) &&
    !chain.any fun x => Info.anyOrUnknown (T x.expr) || Info.both (T x.expr)

end Tsgolint.OptionalChain
