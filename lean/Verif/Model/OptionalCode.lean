import Verif.Model.OptionalChains
import Verif.Model.OptionalFix

/-!
# prefer-optional-chain: the text of the fix

Models how `generateAndChainFixAndReport` and `generateOrChainFixAndReport` make the new text (`internal/rules/prefer_optional_chain/prefer_optional_chain.go` lines
2910-3284 and 3388-3517).

Simplifications: texts are without trivia (so that comments in front of operands, which are moved to the front, lines 3214-3232, do not occur) and their lengths are
counted in characters; the text between the last two operands is a parameter. A slice that is changed in place is the one of the expression the code is made from;
it is seen again when that operand is looked at as a check, which is kept here; it is not seen by another chain. Operands without an expression (invalid ones, which no chain has)
are not skipped.
-/

namespace Tsgolint.OptionalChain

open Expr

/-- what the new code is made from and what is put after it (prefer_optional_chain.go 2911-2917) -/
inductive Ending
  | plain
  | comparison
  | typeof
  /-- `x !== null && x !== undefined` at the end: the second is kept -/
  | pair (typeofCheck : Bool)
  /-- `x != null && x.y !== undefined && x.y.z` at the end: the last one is kept -/
  | strictPlain
  deriving DecidableEq, Repr

/-- kinds about undefined in an AND chain (prefer_optional_chain.go 2928, 2930) -/
def undefCheck (k : Kind) : Bool := k == .notUndef || k == .typeof

/-- the last two operands are a complementary pair (prefer_optional_chain.go 2921-2942) -/
def endsInPair (second last : Operand) : Bool :=
  compare last.expr second.expr == .equal &&
  ((undefCheck last.kind && second.kind == .notNull) || (last.kind == .notNull && undefCheck second.kind))

/-- an earlier operand completes the strict check (prefer_optional_chain.go 2956-2973) -/
def completes (second x : Operand) : Bool :=
  compare x.expr second.expr == .equal && ((second.kind == .notNull && undefCheck x.kind) || (second.kind == .notUndef && x.kind == .notNull))

/-- the closest loose check is of the beginning of the strictly checked expression (prefer_optional_chain.go 2975-2991); the operands are from the end -/
def looseBefore (second : Operand) (rest : List Operand) : Bool :=
  match rest.find? (fun x => x.kind.looseCheck) with
  | some x => compare x.expr second.expr == .subset
  | none => false

/-- the last operand alone (prefer_optional_chain.go 2998-3027) -/
def endingOf (last : Operand) : Ending :=
  match last.kind with
  | .comparison | .notNull | .notUndef | .notBoth => .comparison
  | .typeof => .typeof
  | _ => .plain

/-- the ending of an AND chain (prefer_optional_chain.go 2919-3028), of the operands from the end -/
def ending : List Operand → Ending
  | last :: second :: rest =>
    if endsInPair second last then .pair (second.kind == .typeof)
    else if !rest.isEmpty && last.kind == .plain && second.kind.strictCheck && !rest.any (completes second) && looseBefore second rest then .strictPlain
    else endingOf last
  | [last] => endingOf last
  | [] => .plain

/-- is the operand before the last one the one the code is made from? -/
def Ending.keepsLast : Ending → Bool
  | .pair _ | .strictPlain => true
  | _ => false

/-- the expression of an operand: a truth test's is the operand itself, with its parentheses and `!` (prefer_optional_chain.go 3003, 3146-3149, 3431-3435) -/
def Operand.target (x : Operand) : Expr := if x.kind == .plain then x.node else x.expr

/-- the first operand's text if it is longer (prefer_optional_chain.go 3035-3042) -/
def withFirst (first : Operand) (parts : List Link) : List Link :=
  match first.kind == .plain, flat false first.node, parts with
  | true, [f], p :: ps => if f.text.length > p.text.length then f :: ps else p :: ps
  | _, _, _ => parts

/-- `checksToConsider` (prefer_optional_chain.go 3046-3057) -/
def checks (chain : List Operand) : List Operand :=
  match chain.getLast? with
  | some last => if last.kind == .plain || (last.kind == .not && isCall last.expr) then chain.dropLast else chain
  | none => []

/-- the lengths of the checked expressions (prefer_optional_chain.go 3059-3078): `typeof` checks only count if there are no others -/
def checkedLengths (cs : List Operand) : List Nat :=
  let other := cs.any fun x => x.kind != .typeof
  ((cs.filter fun x => !(x.kind == .typeof && other)).map fun x => (flat false x.expr).length).eraseDups

/-- how far the gaps are filled if only a root is checked (prefer_optional_chain.go 3095-3110) -/
def fillUpTo (last : Operand) : Nat :=
  if last.kind == .plain then
    let ps := flat false last.node
    let n := ps.length - 1
    if n > 0 && (match ps.getLast? with | some p => p.isCall | none => false) then n - 1 else n
  else 1

/-- `checkedLengths` with the gaps filled (prefer_optional_chain.go 3080-3118) -/
def filledLengths (cs : List Operand) (last : Operand) : List Nat :=
  if checkedLengths cs == [1] then [1] ++ (List.range (fillUpTo last + 1)).filter (fun i => i ≥ 1) else checkedLengths cs

/-- the part without its `!` (prefer_optional_chain.go 3131-3136) -/
def Link.unbang (p : Link) : Link := if p.bang then { p with text := p.baseText, bang := false } else p

/-- the first parts lose their `!` (prefer_optional_chain.go 3131-3136) -/
def unbangFirst : Nat → List Link → List Link
  | 0, ps => ps
  | _, [] => []
  | m + 1, p :: ps => p.unbang :: unbangFirst m ps

/-- are the texts of the first list the beginning of those of the second? (prefer_optional_chain.go 3151-3157) -/
def textsBegin : List Link → List Link → Bool
  | [], _ => true
  | _ :: _, [] => false
  | p :: ps, q :: qs => p.baseText == q.baseText && textsBegin ps qs

/-- `shortestCoveringOp` (prefer_optional_chain.go 3166-3174) -/
def shortest (i : Nat) : List (List Link) → Option (List Link) → Option (List Link)
  | [], best => best
  | op :: ops, best => shortest i ops (if i < op.length && (match best with | none => true | some b => op.length < b.length) then some op else best)

/-- a part takes over its `?.` and `!` from the shortest check that has it (prefer_optional_chain.go 3176-3187) -/
def takeOver (ops : List (List Link)) (i : Nat) (p : Link) : Link :=
  match shortest i ops none with
  | none => p
  | some op =>
    match op[i]? with
    | none => p
    | some q =>
      let p := { p with optional := q.optional }
      if q.bang then { p with text := if p.bang then p.text else p.text ++ "!".toList, bang := true } else p

/-- every part, with its number -/
def takeOverAll (ops : List (List Link)) : Nat → List Link → List Link
  | _, [] => []
  | i, p :: ps => takeOver ops i p :: takeOverAll ops (i + 1) ps

/-- the parts of a check; `k` is the operand that the code is made from, and `parts` are its changed parts -/
def checkParts (k : Nat) (parts : List Link) : Nat → List Operand → List (List Link)
  | _, [] => []
  | j, x :: xs => (if j == k then parts else flat false x.target) :: checkParts k parts (j + 1) xs

/-- the `!`s and `?.`s of the parts are those of the checks (prefer_optional_chain.go 3120-3190) -/
def adjust (cs : List Operand) (k : Nat) (parts : List Link) : List Link :=
  if !cs.isEmpty && parts.length > 1 then
    let m := longest (cs.map fun x => (flat false x.expr).length)
    let parts := unbangFirst m parts
    let ops := (checkParts k parts 0 cs).filter fun op => decide (op.length ≤ parts.length) && textsBegin op parts
    takeOverAll ops 0 parts
  else parts

/-- shall the call at the end be optional? (prefer_optional_chain.go 3192-3206) -/
def callOptional (chain : List Operand) (parts : List Link) : Bool :=
  match parts.getLast? with
  | some p => p.isCall && chain.dropLast.any fun x => (flat false x.expr).length == parts.length - 1
  | none => false

/-- the optional chain of an AND chain (prefer_optional_chain.go 3033-3208), made from the operand number `k` -/
def andChain (chain : List Operand) (first last made : Operand) (k : Nat) : Option Text :=
  let parts := withFirst first (flat false made.target)
  let cs := checks chain
  let parts := adjust cs k parts
  build parts (filledLengths cs last) (callOptional chain parts) false

/-! ### What is put after it -/

/-- the parentheses in front of an expression -/
def opening : Expr → Text
  | paren e => "(".toList ++ opening e
  | _ => []
/-- the parentheses behind an expression -/
def closing : Expr → Text
  | paren e => closing e ++ ")".toList
  | _ => []

/-- is the compared expression on the right? (`sides` and `otherComparison`) -/
def onRight (isAnd : Bool) (l : Expr) (o : Op) (r : Expr) : Bool :=
  match nullishOperand isAnd l o r with
  | some _ => !(isNullishLit r || isStringLit r)
  | none => isAccess (skip r)

def isParen : Expr → Bool
  | paren _ => true
  | _ => false

/-- the comparison of an AND chain is put around the code (prefer_optional_chain.go 3242-3269). It is taken for one the other way round ("Yoda") if the compared
expression begins later than the left side does, which is so also if the left side is in parentheses. -/
def withComparison (isTypeof : Bool) (node : Expr) (code : Text) : Text :=
  match node with
  | binary l o t r =>
    if isTypeof then
      if onRight true l o r then text l ++ t ++ opening r ++ "typeof ".toList ++ code ++ closing r
      else opening l ++ "typeof ".toList ++ code ++ closing l ++ t ++ text r
    else if onRight true l o r then text l ++ t ++ opening r ++ code
    else if isParen l then opening l ++ code
    else code ++ t ++ text r
  | _ => code

/-- the new text of an AND chain (`generateAndChainFixAndReport`, prefer_optional_chain.go 2910-3284); `between` is the text between the last two operands -/
def andCode (between : Text) (chain : List Operand) : Option Text :=
  match chain, chain.reverse with
  | first :: _, last :: second :: rest =>
    let e := ending (last :: second :: rest)
    let made := if e.keepsLast then second else last
    let k := if e.keepsLast then chain.length - 2 else chain.length - 1
    (andChain chain first last made k).map fun code =>
      match e with
      | .plain => code
      | .comparison => withComparison false last.node code
      | .typeof => withComparison true last.node code
      | .pair ty => withComparison ty second.node code ++ between ++ text last.node
      | .strictPlain => withComparison false second.node code ++ between ++ text last.node
  | _, _ => none

/-! ### OR chains -/

/-- `isNullishCheckOperand` (prefer_optional_chain.go 143-161) -/
def nullishCheckOperand (x : Operand) : Bool :=
  match x.kind with
  | .notNull | .notUndef | .notBoth | .isNull | .isUndef | .isBoth => true
  | .comparison => match binaryParts x.node with
    | some (l, _, r) => isNullLit r || isUndefName r || isNullLit l || isUndefName l
    | none => false
  | _ => false

/-- is a truth test at the end kept as it is? (prefer_optional_chain.go 3395-3408), of the operands from the end -/
def keepsPlain (O : Options) : List Operand → Bool
  | last :: second :: _ :: _ =>
    last.kind == .plain && !O.allowUnsafe && nullishCheckOperand second && decide ((flat false last.expr).length > (flat false second.expr).length)
  | _ => false

/-- the operator without the white space around it -/
def trimOp (t : Text) : Text := t.filter fun c => c != ' '

/-- the comparison of an OR chain is put behind the code (prefer_optional_chain.go 3477-3498); the compared expression is taken to be the right side if it begins later
than the left side does -/
def withOrComparison (kind : Kind) (node : Expr) (code : Text) : Text :=
  match node with
  | binary l o t r =>
    if onRight false l o r || isParen l || kind == .typeof then code ++ " ".toList ++ trimOp t ++ " ".toList ++ text l
    else code ++ t ++ text r
  | _ => code

/-- the new text of an OR chain (`generateOrChainFixAndReport`, prefer_optional_chain.go 3388-3517); a chain of one operand with a kept one (3410-3417) does not occur -/
def orCode (O : Options) (between : Text) (chain : List Operand) : Option Text :=
  let keeps := keepsPlain O chain.reverse
  let used := if keeps then chain.dropLast else chain
  match chain, chain.getLast?, used.getLast? with
  | first :: _, some end_, some last =>
    if chain.length == 2 && !keeps && (hasOptional first.expr || hasOptional first.node) then none
    else
      let parts := flat false last.target
      let cs := if last.kind == .plain then used.dropLast else used
      let L := cs.map fun x => (flat false x.expr).length
      let callOpt := match parts.getLast? with
        | some p => p.isCall && used.dropLast.any fun x => (flat false x.node).length == parts.length - 1
        | none => false
      (build parts L callOpt true).map fun code =>
        let code := if last.kind.comparisonOrCheck then withOrComparison last.kind last.node code
          else if last.kind == .not then "!".toList ++ code else code
        if keeps then code ++ between ++ text end_.node else code
  | _, _, _ => none

end Tsgolint.OptionalChain
