import Verif.Model.OptionalOperand

/-!
# prefer-optional-chain: which operands make a chain

Models `buildAndChains`, `buildOrChains` and what they call (`internal/rules/prefer_optional_chain/prefer_optional_chain.go` lines 132-141, 163-165, 863-884,
938-950, 1761-2085). The variable `lastExpr` is always the expression of the chain's last operand and is not kept separately.
-/

namespace Tsgolint.OptionalChain

open Expr

/-- `isOrChainNullishCheck` (prefer_optional_chain.go 132-141) -/
def orNullishCheck (x : Operand) : Bool :=
  match x.kind with
  | .isNull | .isUndef | .isBoth => true
  | .comparison => nullishComparison x
  | _ => false

/-- `isNonNullishTrailingComparison` (prefer_optional_chain.go 163-165) -/
def otherTrailing (x : Operand) : Bool := x.kind == .comparison && !nullishComparison x

/-- `isValidOperandForChainType` for OR chains (prefer_optional_chain.go 868-883) -/
def validInOr : Kind → Bool
  | .not | .comparison | .plain | .typeof | .notNull | .notUndef | .notBoth | .isNull | .isUndef | .isBoth => true
  | _ => false

/-- `shouldAllowCallChainExtension` (prefer_optional_chain.go 938-950) -/
def allowExtension (O : Options) (isAnd : Bool) (prev op : Operand) : Bool :=
  if O.allowUnsafe then true
  else if isAnd then prev.kind == .plain && op.kind == .plain
  else (prev.kind == .not && op.kind == .not) || (orNullishCheck prev && orNullishCheck op)

/-- how an operand relates to the one before (prefer_optional_chain.go 1812, 1825-1833 and 1934-1943) -/
def relate (O : Options) (isAnd : Bool) (first : Option Expr) (prev op : Operand) : Rel :=
  match compare prev.expr op.expr with
  | .invalid => if allowExtension O isAnd prev op && extend prev.expr op.expr first == .subset then .subset else .invalid
  | c => c

/-- `shouldStopAtStrictNullishCheck` (prefer_optional_chain.go 1988-2032) -/
def stopsAt (O : Options) (T : Types) (prev : Operand) : Bool :=
  let e := skip prev.expr
  let callOrNew := isCall e || isNew e
  let isElem := match e with
    | elem _ _ _ => true
    | _ => false
  let open_ := Info.onlyAnyOrUnknown (T prev.expr)
  let hasNull := Info.hasNull (T prev.expr) || Info.hasAny (T prev.expr) || Info.hasUnknown (T prev.expr)
  let hasUndef := Info.hasUndef (T prev.expr) || Info.hasAny (T prev.expr) || Info.hasUnknown (T prev.expr)
  let incomplete := !open_ && hasNull && hasUndef
  let mismatched := !open_ && !hasNull && !hasUndef
  if !prev.kind.strictCheck then false
  else if !callOrNew && !isElem then false
  else if callOrNew then incomplete || mismatched
  else mismatched || (incomplete && !O.allowUnsafe)

/-- `tryMergeComplementaryPair` in an AND chain (prefer_optional_chain.go 2034-2053); in OR chains it is never called -/
def isPair (x y : Operand) : Bool :=
  compare x.expr y.expr == .equal &&
  ((x.kind == .notNull && (y.kind == .notUndef || y.kind == .typeof)) || ((x.kind == .notUndef || x.kind == .typeof) && y.kind == .notNull))

/-- kinds about null (prefer_optional_chain.go 2075, 2077) -/
def Kind.aboutNull : Kind → Bool
  | .notNull | .isNull => true
  | _ => false
/-- kinds about undefined (prefer_optional_chain.go 2076, 2078) -/
def Kind.aboutUndef : Kind → Bool
  | .notUndef | .isUndef | .typeof => true
  | _ => false

/-- `areNullishChecksConsistent` (prefer_optional_chain.go 2067-2085) -/
def consistent (a b : Kind) : Bool :=
  a.looseCheck || b.looseCheck || (a.aboutNull && b.aboutUndef) || (a.aboutUndef && b.aboutNull) || (a.aboutNull && b.aboutNull) || (a.aboutUndef && b.aboutUndef)

/-- the variables of `buildAndChains` (prefer_optional_chain.go 1762-1766) -/
structure Build where
  all : List (List Operand)
  current : List Operand
  lastCheck : Kind
  complete : Bool

/-- a finished chain is kept if it has two operands (prefer_optional_chain.go 1777-1779 and elsewhere) -/
def Build.flush (s : Build) : List (List Operand) := if s.current.length ≥ 2 then s.all ++ [s.current] else s.all

/-- operands that end a chain (prefer_optional_chain.go 1772-1776) -/
def endsChain : Kind → Bool
  | .invalid | .negated | .isBoth | .isNull | .isUndef => true
  | _ => false

/-- a new chain begins with an operand (prefer_optional_chain.go 1803-1809, 1866-1873) -/
def Build.restart (s : Build) (x : Operand) : Build :=
  ⟨s.flush, [x], if x.kind ≠ .plain then x.kind else .invalid, false⟩

/-- the operand goes on the chain (prefer_optional_chain.go 1852-1861) -/
def Build.extend (s : Build) (x : Operand) : Build :=
  ⟨s.all, s.current ++ [x], if x.kind ≠ .plain && x.kind.nullishCheck then x.kind else s.lastCheck, otherTrailing x⟩

/-- the loop of `buildAndChains` (prefer_optional_chain.go 1768-1878) -/
def andLoop (O : Options) (T : Types) : Build → List Operand → Build
  | s, [] => s
  | s, x :: rest =>
    if endsChain x.kind then andLoop O T ⟨s.flush, [], .invalid, false⟩ rest
    else match s.current.getLast? with
      | none =>
        if otherTrailing x then andLoop O T s rest
        else andLoop O T ⟨s.all, [x], if x.kind ≠ .plain then x.kind else s.lastCheck, false⟩ rest
      | some prev =>
        if s.complete then andLoop O T (s.restart x) rest
        else if stopsAt O T prev then ⟨s.flush, [], s.lastCheck, s.complete⟩
        else
          let c := relate O true (s.current.head?.map Operand.expr) prev x
          match rest with
          | y :: rest' =>
            if c == .equal && isPair x y then andLoop O T ⟨s.all, s.current ++ [x, y], s.lastCheck, s.complete⟩ rest'
            else if x.kind.nullishCheck && s.lastCheck ≠ .invalid && !consistent s.lastCheck x.kind then ⟨s.flush, [], s.lastCheck, s.complete⟩
            else if c == .subset || c == .equal then andLoop O T (s.extend x) (y :: rest')
            else andLoop O T (s.restart x) (y :: rest')
          | [] =>
            if x.kind.nullishCheck && s.lastCheck ≠ .invalid && !consistent s.lastCheck x.kind then ⟨s.flush, [], s.lastCheck, s.complete⟩
            else if c == .subset || c == .equal then s.extend x
            else s.restart x

/-- truth tests of the same expression at the end are dropped but for the first (prefer_optional_chain.go 1884-1905), from the end -/
def trimRev : List Operand → List Operand
  | x :: y :: rest => if x.kind == .plain && y.kind == .plain && compare y.expr x.expr == .equal then trimRev (y :: rest) else x :: y :: rest
  | xs => xs

/-- the same, from the front -/
def trim (c : List Operand) : List Operand := (trimRev c.reverse).reverse

/-- `buildAndChains` (prefer_optional_chain.go 1761-1908) -/
def buildAnd (O : Options) (T : Types) (xs : List Operand) : List (List Operand) :=
  (andLoop O T ⟨[], [], .invalid, false⟩ xs).flush.map trim

/-- the operands that a comparison of the same expression does not extend (prefer_optional_chain.go 1951-1954) -/
def Kind.closed : Kind → Bool
  | .not | .notNull | .notUndef | .notBoth | .plain => true
  | _ => false

/-- the loop of `buildOrChains` (prefer_optional_chain.go 1914-1979) -/
def orLoop (O : Options) : List Operand → List Operand → List Operand
  | c, [] => c
  | c, x :: rest =>
    if !validInOr x.kind then if c.length ≥ 2 then c else orLoop O [] rest
    else match c.getLast? with
      | none => if badStart x then orLoop O [] rest else orLoop O [x] rest
      | some prev =>
        let r := relate O false none prev x
        if r == .subset || r == .equal then
          if r == .equal && otherTrailing x && (prev.kind.closed || otherTrailing prev) then
            if c.length ≥ 2 then c
            else if otherTrailing prev then orLoop O [] rest
            else orLoop O (c ++ [x]) rest
          else orLoop O (c ++ [x]) rest
        else if c.length ≥ 2 then c
        else orLoop O [x] rest

/-- `buildOrChains` (prefer_optional_chain.go 1910-1986): at most one chain -/
def buildOr (O : Options) (xs : List Operand) : List (List Operand) :=
  let c := orLoop O [] xs
  if c.length < 2 then [] else [c]

end Tsgolint.OptionalChain
