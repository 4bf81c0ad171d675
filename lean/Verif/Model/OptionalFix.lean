import Verif.Model.OptionalOperand

/-!
# prefer-optional-chain: taking an expression apart and putting it together

Models `ChainPart`, `flattenForFix` and `buildOptionalChain` (`internal/rules/prefer_optional_chain/prefer_optional_chain.go` lines 626-640, 1203-1372). Texts are without
trivia. The cache of `flattenForFix` does not change what it returns, but its slices are changed in place by `generateAndChainFixAndReport`
(see `Model/OptionalCode.lean`).
-/

namespace Tsgolint.OptionalChain

open Expr

/-- `ChainPart` (prefer_optional_chain.go 626-633) -/
structure Link where
  text : Text
  optional : Bool := false
  dot : Bool := false
  priv : Bool := false
  isCall : Bool := false
  bang : Bool := false
  deriving DecidableEq, Repr

/-- `baseText` (prefer_optional_chain.go 635-640) -/
def Link.baseText (p : Link) : Text := if p.bang && p.text.getLast? == some '!' then p.text.dropLast else p.text

/-- `await` and `yield` keep their parentheses (prefer_optional_chain.go 1215) -/
def awaitOrYield : Expr → Bool
  | await _ => true
  | other _ .yield _ => true
  | _ => false

/-- the name of a private member -/
def isPrivateName (n : Text) : Bool := n.head? == some '#'

/-- the text of the first part (prefer_optional_chain.go 1291-1299) -/
def rootText (b : Bool) : Expr → Text
  | ident p n => text (ident p n) ++ (if b then "!".toList else [])
  | asType e ty => "(".toList ++ text (asType e ty) ++ ")".toList
  | assertion ty e => "(".toList ++ text (assertion ty e) ++ ")".toList
  | e => text e

/-- `flattenForFix` (prefer_optional_chain.go 1203-1319): `b` is `parentIsNonNull` -/
def flat : Bool → Expr → List Link
  | b, paren e => if awaitOrYield e then [{ text := text (paren e) }] else flat b e
  | _, nonNull e => flat true e
  | b, prop e o n => flat false e ++ [{ text := n ++ (if b then "!".toList else []), optional := o, dot := true, priv := isPrivateName n, bang := b }]
  | b, elem e o x => flat false e ++ [{ text := "[".toList ++ text x ++ "]".toList ++ (if b then "!".toList else []), optional := o, bang := b }]
  | _, call e o ts xs => flat false e ++ [{ text := tysText ts ++ "(".toList ++ commas (texts xs) ++ ")".toList, optional := o, isCall := true }]
  | b, e => [{ text := rootText b e, bang := b }]

/-- the longest checked length (prefer_optional_chain.go 1322-1327) -/
def longest (L : List Nat) : Nat := L.foldl max 0

/-- `optionalParts[i]` (prefer_optional_chain.go 1329-1344) of `n` parts -/
def optionalAt (L : List Nat) (callOpt : Bool) (n i : Nat) (p : Link) : Bool :=
  i != 0 && (L.contains i || p.optional || (p.isCall && i + 1 == n && callOpt))

/-- does a private name become optional? (prefer_optional_chain.go 1346-1348) -/
def privateOptional (L : List Nat) (callOpt : Bool) (n : Nat) : Nat → List Link → Bool
  | _, [] => false
  | i, p :: ps => (optionalAt L callOpt n i p && p.priv) || privateOptional L callOpt n (i + 1) ps

/-- `optionalParts[i+1]` (prefer_optional_chain.go 1355) -/
def nextOptional (L : List Nat) (callOpt : Bool) (n i : Nat) : List Link → Bool
  | [] => false
  | q :: _ => optionalAt L callOpt n (i + 1) q

/-- the loop that writes the parts (prefer_optional_chain.go 1352-1370) -/
def render (L : List Nat) (callOpt strip : Bool) (n : Nat) : Nat → List Link → Text
  | _, [] => []
  | i, p :: ps =>
    let t := if strip && nextOptional L callOpt n i ps && p.bang && decide (i < longest L) then p.text.dropLast else p.text
    let sep : Text :=
      if i != 0 && optionalAt L callOpt n i p then "?.".toList
      else if i != 0 then
        if p.optional && decide (i > longest L) then "?.".toList
        else if p.dot then ".".toList else []
      else []
    sep ++ t ++ render L callOpt strip n (i + 1) ps

/-- `buildOptionalChain` (prefer_optional_chain.go 1321-1372); no fix is `none` instead of the empty text -/
def build (parts : List Link) (L : List Nat) (callOpt strip : Bool) : Option Text :=
  if privateOptional L callOpt parts.length 0 parts then none else some (render L callOpt strip parts.length 0 parts)

end Tsgolint.OptionalChain
