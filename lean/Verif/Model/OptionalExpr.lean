/-!
# prefer-optional-chain: expressions and their comparison

Models the part of `internal/rules/prefer_optional_chain/prefer_optional_chain.go` that compares expressions (lines 266-618, 808-841, 952-1072, 1374-1423).

Simplifications: an expression is a tree without trivia (white space and comments between its tokens), except that the text of a binary operator includes
the white space around it. Every leaf has its position, so that the same expression at two places are two nodes (types belong to places), but the code never
compares positions. Nodes that the comparison treats as different from everything (`new`, functions, literals of arrays and objects, ...) are leaves of the
kind `other` with their text. Missing (nil) parts of nodes do not occur.
-/

namespace Tsgolint.OptionalChain

abbrev Text := List Char

/-- keywords that are expressions (line 334 and 390) -/
inductive Keyword | this | null | super | true | false
  deriving DecidableEq, Repr

/-- literals compared by their text (line 386) -/
inductive Lit | string | number | bigint | template
  deriving DecidableEq, Repr

/-- the nodes that are never equal to another node (line 497) and are told apart elsewhere in the rule -/
inductive Other | new | array | object | emptyObject | function | arrow | class | jsx | postfix | yield | conditional | delete | void | satisfies | regex
  deriving DecidableEq, Repr

/-- binary operators (the token's kind) -/
inductive Op
  | and | or | nullish | eq | ne | seq | sne | lt | gt | le | ge | in | instanceof | plus | minus | times | divide | comma
  | assign | plusAssign | minusAssign | timesAssign | divideAssign | andAssign | orAssign | nullishAssign
  deriving DecidableEq, Repr

/-- prefix operators -/
inductive Pre | not | plus | minus | tilde | inc | dec
  deriving DecidableEq, Repr

/-- type arguments: keywords (line 393), references by name with arguments of their own (line 400) and other types -/
inductive TyNode
  | keyword (text : Text)
  | named (names : List Text) (args : Text)
  | other (text : Text)
  deriving DecidableEq, Repr

/-- an expression -/
inductive Expr
  | ident («at» : Nat) (name : Text)
  | keyword («at» : Nat) (k : Keyword)
  | literal («at» : Nat) (k : Lit) (text : Text)
  | prop (e : Expr) (opt : Bool) (name : Text)
  | elem (e : Expr) (opt : Bool) (arg : Expr)
  | call (e : Expr) (opt : Bool) (tys : List TyNode) (args : List Expr)
  | paren (e : Expr)
  | nonNull (e : Expr)
  | asType (e : Expr) (ty : Text)
  | assertion (ty : Text) (e : Expr)
  | binary (l : Expr) (op : Op) (opText : Text) (r : Expr)
  | unary (op : Pre) (e : Expr)
  | typeof (e : Expr)
  | template (head : Text) (spans : List Expr) (tails : List Text)
  | await (e : Expr)
  | metaProp («at» : Nat) (new : Bool) (name : Text)
  | other («at» : Nat) (k : Other) (text : Text)
  deriving Repr

namespace Expr

/-- `ast.SkipParentheses` (typescript-go) -/
def skip : Expr → Expr
  | paren e => skip e
  | e => e

/-- `unwrapForComparison` (prefer_optional_chain.go 304-315) -/
def unwrap : Expr → Expr
  | paren e => unwrap e
  | nonNull e => unwrap e
  | e => e

/-- type arguments in `areNodesStructurallyEqual` (prefer_optional_chain.go 377-381, 393-409): a reference's own arguments are not compared -/
def eqTy : TyNode → TyNode → Bool
  | .keyword s, .keyword t => s == t
  | .named m _, .named n _ => m == n
  | _, _ => false

def eqTys : List TyNode → List TyNode → Bool
  | [], [] => true
  | s :: ss, t :: ts => eqTy s t && eqTys ss ts
  | _, _ => false

mutual
/-- `areNodesStructurallyEqual` (prefer_optional_chain.go 318-498), with the left node's wrappers skipped by recursion and the right one's by `unwrap` -/
def eq : Expr → Expr → Bool
  | paren a, b => eq a b
  | nonNull a, b => eq a b
  | ident _ m, b => match unwrap b with
    | ident _ n => m == n
    | _ => false
  | keyword _ k, b => match unwrap b with
    | keyword _ k' => k == k'
    | _ => false
  | literal _ k t, b => match unwrap b with
    | literal _ k' t' => k == k' && t == t'
    | _ => false
  | prop a _ m, b => match unwrap b with
    | prop b' _ n => m == n && eq a b'
    | _ => false
  | elem a _ x, b => match unwrap b with
    | elem b' _ y => eq x y && eq a b'
    | _ => false
  | call a _ ss xs, b => match unwrap b with
    | call b' _ ts ys => eq a b' && eqs xs ys && eqTys ss ts
    | _ => false
  | asType a _, b => match unwrap b with
    | asType b' _ => eq a b'
    | _ => false
  | assertion _ a, b => match unwrap b with
    | assertion _ b' => eq a b'
    | _ => false
  | binary l o _ r, b => match unwrap b with
    | binary l' o' _ r' => o == o' && eq l l' && eq r r'
    | _ => false
  | unary o a, b => match unwrap b with
    | unary o' b' => o == o' && eq a b'
    | _ => false
  | typeof a, b => match unwrap b with
    | typeof b' => eq a b'
    | _ => false
  | template h xs ts, b => match unwrap b with
    | template h' ys ts' => h == h' && eqs xs ys && ts == ts'
    | _ => false
  | await a, b => match unwrap b with
    | await b' => eq a b'
    | _ => false
  | metaProp _ k m, b => match unwrap b with
    | metaProp _ k' n => k == k' && m == n
    | _ => false
  | other _ _ _, _ => false
/-- lists of nodes: the same number of equal nodes -/
def eqs : List Expr → List Expr → Bool
  | [], [] => true
  | a :: as, b :: bs => eq a b && eqs as bs
  | _, _ => false
end

/-- `isNodePrefixOf` (prefer_optional_chain.go 501-524): is the first expression the beginning of the second? -/
def isPrefix (s : Expr) : Expr → Bool
  | paren e => isPrefix s e
  | nonNull e => isPrefix s e
  | prop e o n => eq s (prop e o n) || isPrefix s e
  | elem e o x => eq s (elem e o x) || isPrefix s e
  | call e o ts xs => eq s (call e o ts xs) || isPrefix s e
  | e => eq s e

/-- `getBaseIdentifier` (prefer_optional_chain.go 546-566) -/
def base : Expr → Expr
  | prop e _ _ => base e
  | elem e _ _ => base e
  | call e _ _ _ => base e
  | nonNull e => base e
  | paren e => base e
  | asType e _ => base e
  | e => e

/-- the assignments `hasSideEffects` knows (prefer_optional_chain.go 595-599) -/
def opAssigns : Op → Bool
  | .assign | .plusAssign | .minusAssign | .timesAssign | .divideAssign => true
  | _ => false

/-- `hasSideEffects` (prefer_optional_chain.go 568-619) -/
def sideEffects : Expr → Bool
  | unary .inc _ => true
  | unary .dec _ => true
  | other _ .postfix _ => true
  | other _ .yield _ => true
  | binary _ o _ _ => opAssigns o
  | prop e _ _ => sideEffects e
  | elem e _ x => sideEffects e || sideEffects x
  | call e _ _ _ => sideEffects e
  | paren e => sideEffects e
  | _ => false

/-- `containsOptionalChain` (prefer_optional_chain.go 1374-1423; the cache does not change the result) -/
def hasOptional : Expr → Bool
  | paren e => hasOptional e
  | prop e o _ => o || hasOptional e
  | elem e o _ => o || hasOptional e
  | call e o _ _ => o || hasOptional e
  | binary l _ _ r => hasOptional l || hasOptional r
  | _ => false

/-- the root of a chain of accesses (prefer_optional_chain.go 1007-1022 and, for `tryExtendThroughCallExpression`, 965-980): parentheses are skipped, `!` is not -/
def root : Expr → Expr
  | paren e => root e
  | prop e _ _ => root e
  | elem e _ _ => root e
  | call e _ _ _ => root e
  | e => e

def isIdent : Expr → Bool
  | ident _ _ => true
  | _ => false
def isNew : Expr → Bool
  | other _ .new _ => true
  | _ => false
def isCall : Expr → Bool
  | call _ _ _ _ => true
  | _ => false
/-- `utils.IsAccessExpression` (utils/ts_api_utils.go 255-257) -/
def isAccess : Expr → Bool
  | prop _ _ _ => true
  | elem _ _ _ => true
  | call _ _ _ _ => true
  | _ => false

/-- nodes that make a new value each time (prefer_optional_chain.go 1037-1047) -/
def isFresh : Expr → Bool
  | other _ .array _ => true
  | other _ .object _ => true
  | other _ .emptyObject _ => true
  | other _ .function _ => true
  | other _ .arrow _ => true
  | other _ .class _ => true
  | other _ .jsx _ => true
  | template _ _ _ => true
  | await _ => true
  | _ => false

/-- the test in front of the comparison (prefer_optional_chain.go 1006-1050): calls of a function by its name, `new` at the root, fresh values -/
def standalone (e : Expr) : Bool :=
  match skip e with
  | call c _ _ _ => isIdent (skip c)
  | x => isNew x

def blocked (left : Expr) : Bool :=
  !hasOptional left && (standalone left || isNew (root left) || isFresh (skip left))

/-! ### The text -/

def preText : Pre → Text
  | .not => "!".toList | .plus => "+".toList | .minus => "-".toList | .tilde => "~".toList | .inc => "++".toList | .dec => "--".toList
def keywordText : Keyword → Text
  | .this => "this".toList | .null => "null".toList | .super => "super".toList | .true => "true".toList | .false => "false".toList
def litText : Lit → Text → Text
  | .string, t => "'".toList ++ t ++ "'".toList
  | .template, t => "`".toList ++ t ++ "`".toList
  | _, t => t
def joinDots : List Text → Text
  | [] => []
  | [n] => n
  | n :: ns => n ++ ".".toList ++ joinDots ns
def tyText : TyNode → Text
  | .keyword t => t
  | .named ns args => joinDots ns ++ args
  | .other t => t
def commas : List Text → Text
  | [] => []
  | [t] => t
  | t :: ts => t ++ ", ".toList ++ commas ts
/-- type arguments with their brackets, nothing if there are none (prefer_optional_chain.go 1264-1269) -/
def tysText (tys : List TyNode) : Text :=
  match tys with
  | [] => []
  | _ => "<".toList ++ commas (tys.map tyText) ++ ">".toList

mutual
/-- the source text of a node without trivia (`getNodeText`, prefer_optional_chain.go 742-745) -/
def text : Expr → Text
  | ident _ n => n
  | keyword _ k => keywordText k
  | literal _ k t => litText k t
  | prop e o n => text e ++ (if o then "?.".toList else ".".toList) ++ n
  | elem e o x => text e ++ (if o then "?.[".toList else "[".toList) ++ text x ++ "]".toList
  | call e o ts xs => text e ++ (if o then "?.".toList else []) ++ tysText ts ++ "(".toList ++ commas (texts xs) ++ ")".toList
  | paren e => "(".toList ++ text e ++ ")".toList
  | nonNull e => text e ++ "!".toList
  | asType e ty => text e ++ " as ".toList ++ ty
  | assertion ty e => "<".toList ++ ty ++ ">".toList ++ text e
  | binary l _ o r => text l ++ o ++ text r
  | unary o e => preText o ++ text e
  | typeof e => "typeof ".toList ++ text e
  | template h xs ts => "`".toList ++ h ++ spanText (texts xs) ts
  | await e => "await ".toList ++ text e
  | metaProp _ new n => (if new then "new.".toList else "import.".toList) ++ n
  | other _ _ t => t
def texts : List Expr → List Text
  | [] => []
  | e :: es => text e :: texts es
/-- the spans of a template: `${`, expression, `}`, literal -/
def spanText : List Text → List Text → Text
  | [], _ => "`".toList
  | x :: xs, [] => "${".toList ++ x ++ "}".toList ++ spanText xs []
  | x :: xs, t :: ts => "${".toList ++ x ++ "}".toList ++ t ++ spanText xs ts
end

/-- `extractCallSignatures` (prefer_optional_chain.go 808-841): the texts of callees with those of their calls. The map is a list here: callees get shorter on the
way in, so that no key is written twice. Parentheses are not looked through. -/
def signatures : Expr → List (Text × Text)
  | call e o ts xs => (text e, text (call e o ts xs)) :: signatures e
  | prop e _ _ => signatures e
  | elem e _ _ => signatures e
  | nonNull e => signatures e
  | _ => []

/-- is a callee of the left expression called differently in the right one? (prefer_optional_chain.go 1052-1059) -/
def clash (left right : Expr) : Bool :=
  (signatures left).any fun p => (signatures right).any fun q => p.1 == q.1 && !(p.2 == q.2)

end Expr

/-- `NodeComparisonResult` (prefer_optional_chain.go 266-273) -/
inductive Rel | equal | subset | superset | invalid
  deriving DecidableEq, Repr

open Expr in
/-- `compareNodes` (prefer_optional_chain.go 993-1072) -/
def compare (left right : Expr) : Rel :=
  if sideEffects left || sideEffects right then .invalid
  else if blocked left then .invalid
  else if clash left right then .invalid
  else if eq left right then .equal
  else if isPrefix left right then .subset
  else if isPrefix right left then .superset
  else .invalid

open Expr in
/-- `tryExtendThroughCallExpression` (prefer_optional_chain.go 952-991); `first` is the first operand's expression in an AND chain -/
def extend (last current : Expr) (first : Option Expr) : Rel :=
  if !(isCall (skip last) || isNew (skip last)) then .invalid
  else if (first.map (fun f => isNew (root f))).getD false then .invalid
  else if isPrefix last current then .subset else .invalid

end Tsgolint.OptionalChain
