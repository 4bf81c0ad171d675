/-!
# Expressions of JavaScript and TypeScript, as texts are read

A separate specification: trees of expressions, the tokens they are written with, and a parser by precedence that says what tree a text stands for.

Simplifications: calls have one argument (lists of arguments do not change how strong a call binds), `satisfies` with its type is one token, prefix and postfix operators and
binary operators are told apart by their token; `**`, the ban on mixing `??` with `||` and `&&`, optional chains, `yield` and the comma of argument lists are left out.
-/

namespace Tsgolint.Expression

/-- expressions that begin and end by themselves -/
inductive Atom | identifier | literal | boolean | nullKeyword | thisKeyword | array | object | template | function | classExpression
  deriving DecidableEq, Repr

/-- prefix operators: `!`, `-`, `+`, `~`, `++`, `--`; words -/
inductive Prefix | sign | typeOf | voidOp | deleteOp | await
  deriving DecidableEq, Repr

inductive Expr
  | atom (a : Atom) (name : Nat)
  | paren (e : Expr)
  /-- `e.name` -/
  | dot (e : Expr) (name : Nat)
  /-- `e[i]` -/
  | index (e i : Expr)
  /-- `e(a)` -/
  | call (e a : Expr)
  /-- a template with a tag -/
  | tag (e : Expr)
  /-- `e!` -/
  | nonNull (e : Expr)
  /-- `new c(a)` -/
  | newArgs (c a : Expr)
  /-- `new c` -/
  | newBare (c : Expr)
  | pre (op : Prefix) (e : Expr)
  | post (e : Expr)
  /-- a binary operator, by how strong it binds: `*` `+` `<<` `<` `==` `&` `^` `|` `&&` `||` and their like -/
  | bin (op : Fin 10) (l r : Expr)
  /-- `e satisfies T`, `e as T` -/
  | sat (e : Expr)
  | cond (a b c : Expr)
  | assign (l r : Expr)
  /-- `x => e` -/
  | arrow (e : Expr)
  | comma (l r : Expr)
  deriving DecidableEq, Repr

inductive Tok
  | atom (a : Atom) (name : Nat) | lp | rp | dot (name : Nat) | lb | rb | tpl | bang | new | pre (op : Prefix) | post | op (op : Fin 10) | sat | quest | colon | asg
  | arrow | com
  deriving DecidableEq, Repr

/-- how strong a binary operator binds: 4 to 13 -/
def prec (op : Fin 10) : Nat := op.val + 4

/-- how strong an expression binds: 18 member expressions, 17 with calls, 16 `new` without arguments, 15 postfix, 14 prefix, 4 to 13 binary operators (`satisfies` as `<`: 10),
1 conditional expressions, assignments and arrow functions, 0 commas -/
def lvl : Expr → Nat
  | .atom .. | .paren _ | .newArgs _ _ => 18
  | .dot e _ | .index e _ | .tag e | .nonNull e => lvl e
  | .call _ _ => 17
  | .newBare _ => 16
  | .post _ => 15
  | .pre _ _ => 14
  | .bin op _ _ => prec op
  | .sat _ => 10
  | .cond .. | .assign .. | .arrow _ => 1
  | .comma _ _ => 0

/-- the grammar: which expressions may be operands of which -/
def WF : Expr → Prop
  | .atom .. => True
  | .paren e => WF e
  | .dot e _ => WF e ∧ 17 ≤ lvl e
  | .index e i => WF e ∧ WF i ∧ 17 ≤ lvl e
  | .call e a => WF e ∧ WF a ∧ 17 ≤ lvl e ∧ 1 ≤ lvl a
  | .tag e => WF e ∧ 17 ≤ lvl e
  | .nonNull e => WF e ∧ 17 ≤ lvl e
  | .newArgs c a => WF c ∧ WF a ∧ 18 ≤ lvl c ∧ 1 ≤ lvl a
  | .newBare c => WF c ∧ 18 ≤ lvl c
  | .pre _ e => WF e ∧ 14 ≤ lvl e
  | .post e => WF e ∧ 16 ≤ lvl e
  | .bin op l r => WF l ∧ WF r ∧ prec op ≤ lvl l ∧ prec op + 1 ≤ lvl r
  | .sat e => WF e ∧ 10 ≤ lvl e
  | .cond a b c => WF a ∧ WF b ∧ WF c ∧ 3 ≤ lvl a ∧ 1 ≤ lvl b ∧ 1 ≤ lvl c
  | .assign l r => WF l ∧ WF r ∧ 16 ≤ lvl l ∧ 1 ≤ lvl r
  | .arrow e => WF e ∧ 1 ≤ lvl e
  | .comma l r => WF l ∧ WF r ∧ 1 ≤ lvl r

/-- how it is written -/
def toks : Expr → List Tok
  | .atom a n => [.atom a n]
  | .paren e => .lp :: toks e ++ [.rp]
  | .dot e n => toks e ++ [.dot n]
  | .index e i => toks e ++ .lb :: toks i ++ [.rb]
  | .call e a => toks e ++ .lp :: toks a ++ [.rp]
  | .tag e => toks e ++ [.tpl]
  | .nonNull e => toks e ++ [.bang]
  | .newArgs c a => .new :: toks c ++ .lp :: toks a ++ [.rp]
  | .newBare c => .new :: toks c
  | .pre op e => .pre op :: toks e
  | .post e => toks e ++ [.post]
  | .bin op l r => toks l ++ .op op :: toks r
  | .sat e => toks e ++ [.sat]
  | .cond a b c => toks a ++ .quest :: toks b ++ .colon :: toks c
  | .assign l r => toks l ++ .asg :: toks r
  | .arrow e => .arrow :: toks e
  | .comma l r => toks l ++ .com :: toks r

/-! ## The parser -/

/-- how strong a token binds to what is before it -/
def lbp : Tok → Option Nat
  | .dot _ | .lb | .tpl | .bang => some 18
  | .lp => some 17
  | .post => some 15
  | .op op => some (prec op)
  | .sat => some 10
  | .quest => some 2
  | .asg => some 1
  | .com => some 0
  | _ => none

/-- whether the token goes on with what is before it, where only operators that bind at least as strong as `min` do -/
def goesOn (min : Nat) (t : Tok) : Bool := match lbp t with
  | some k => decide (min ≤ k)
  | none => false

/-- an expression, or what goes on with the expression `left` -/
inductive Mode
  | expr (min : Nat)
  | loop (min : Nat) (left : Expr)

/-- the parser: the first expression of the tokens with what is left; `none` for a syntax error, or if the number of steps is too small -/
def parse : Nat → Mode → List Tok → Option (Expr × List Tok)
  | 0, _, _ => none
  | n + 1, .expr min, .atom a k :: r => parse n (.loop min (.atom a k)) r
  | n + 1, .expr min, .lp :: r => match parse n (.expr 0) r with
    | some (e, .rp :: r') => parse n (.loop min (.paren e)) r'
    | _ => none
  | n + 1, .expr min, .pre op :: r => if min ≤ 14 then match parse n (.expr 14) r with
      | some (e, r') => parse n (.loop min (.pre op e)) r'
      | none => none
    else none
  | n + 1, .expr min, .new :: r => match parse n (.expr 18) r with
    | some (c, .lp :: r') => match parse n (.expr 1) r' with
      | some (a, .rp :: r'') => parse n (.loop min (.newArgs c a)) r''
      | _ => none
    | some (c, r') => parse n (.loop min (.newBare c)) r'
    | none => none
  | n + 1, .expr min, .arrow :: r => if min ≤ 1 then match parse n (.expr 1) r with
      | some (e, r') => parse n (.loop min (.arrow e)) r'
      | none => none
    else none
  | _ + 1, .expr _, _ => none
  | _ + 1, .loop _ l, [] => some (l, [])
  | n + 1, .loop min l, t :: r =>
    if goesOn min t = false then some (l, t :: r)
    else match t with
    | .dot k => if 17 ≤ lvl l then parse n (.loop min (.dot l k)) r else none
    | .tpl => if 17 ≤ lvl l then parse n (.loop min (.tag l)) r else none
    | .bang => if 17 ≤ lvl l then parse n (.loop min (.nonNull l)) r else none
    | .lb => if 17 ≤ lvl l then match parse n (.expr 0) r with
        | some (i, .rb :: r') => parse n (.loop min (.index l i)) r'
        | _ => none
      else none
    | .lp => if 17 ≤ lvl l then match parse n (.expr 1) r with
        | some (a, .rp :: r') => parse n (.loop min (.call l a)) r'
        | _ => none
      else none
    | .post => if 16 ≤ lvl l then parse n (.loop min (.post l)) r else none
    | .op op => match parse n (.expr (prec op + 1)) r with
      | some (e, r') => parse n (.loop min (.bin op l e)) r'
      | none => none
    | .sat => parse n (.loop min (.sat l)) r
    | .quest => match parse n (.expr 1) r with
      | some (b, .colon :: r') => match parse n (.expr 1) r' with
        | some (c, r'') => parse n (.loop min (.cond l b c)) r''
        | none => none
      | _ => none
    | .asg => if 16 ≤ lvl l then match parse n (.expr 1) r with
        | some (e, r') => parse n (.loop min (.assign l e)) r'
        | none => none
      else none
    | .com => match parse n (.expr 1) r with
      | some (e, r') => parse n (.loop min (.comma l e)) r'
      | none => none
    | _ => none

/-- the whole text is the expression -/
def ReadsAs (text : List Tok) (e : Expr) : Prop := ∃ n, ∀ m, n ≤ m → parse m (.expr 0) text = some (e, [])

/-- the expression without its parentheses -/
def strip : Expr → Expr
  | .atom a n => .atom a n
  | .paren e => strip e
  | .dot e n => .dot (strip e) n
  | .index e i => .index (strip e) (strip i)
  | .call e a => .call (strip e) (strip a)
  | .tag e => .tag (strip e)
  | .nonNull e => .nonNull (strip e)
  | .newArgs c a => .newArgs (strip c) (strip a)
  | .newBare c => .newBare (strip c)
  | .pre op e => .pre op (strip e)
  | .post e => .post (strip e)
  | .bin op l r => .bin op (strip l) (strip r)
  | .sat e => .sat (strip e)
  | .cond a b c => .cond (strip a) (strip b) (strip c)
  | .assign l r => .assign (strip l) (strip r)
  | .arrow e => .arrow (strip e)
  | .comma l r => .comma (strip l) (strip r)

/-! ## An expression in its surroundings -/

/-- what an expression may be directly in -/
inductive Frame
  | paren | dot (name : Nat) | indexObject (i : Expr) | indexArg (e : Expr) | callee (a : Expr) | arg (e : Expr) | tag | nonNull | newCallee (a : Expr) | newArg (c : Expr)
  | newBare | pre (op : Prefix) | post | binLeft (op : Fin 10) (r : Expr) | binRight (op : Fin 10) (l : Expr) | sat | condTest (b c : Expr) | condThen (a c : Expr)
  | condElse (a b : Expr) | assignLeft (r : Expr) | assignRight (l : Expr) | arrow | commaLeft (r : Expr) | commaRight (l : Expr)
  deriving DecidableEq, Repr

def Frame.fill : Frame → Expr → Expr
  | .paren, x => .paren x
  | .dot n, x => .dot x n
  | .indexObject i, x => .index x i
  | .indexArg e, x => .index e x
  | .callee a, x => .call x a
  | .arg e, x => .call e x
  | .tag, x => .tag x
  | .nonNull, x => .nonNull x
  | .newCallee a, x => .newArgs x a
  | .newArg c, x => .newArgs c x
  | .newBare, x => .newBare x
  | .pre op, x => .pre op x
  | .post, x => .post x
  | .binLeft op r, x => .bin op x r
  | .binRight op l, x => .bin op l x
  | .sat, x => .sat x
  | .condTest b c, x => .cond x b c
  | .condThen a c, x => .cond a x c
  | .condElse a b, x => .cond a b x
  | .assignLeft r, x => .assign x r
  | .assignRight l, x => .assign l x
  | .arrow, x => .arrow x
  | .commaLeft r, x => .comma x r
  | .commaRight l, x => .comma l x

/-- the surroundings from the inside outwards -/
def plug : List Frame → Expr → Expr
  | [], x => x
  | f :: fs, x => plug fs (f.fill x)

/-- what is written before the expression -/
def Frame.before : Frame → List Tok
  | .paren => [.lp]
  | .indexArg e => toks e ++ [.lb]
  | .arg e => toks e ++ [.lp]
  | .newCallee _ | .newBare => [.new]
  | .newArg c => .new :: toks c ++ [.lp]
  | .pre op => [.pre op]
  | .binRight op l => toks l ++ [.op op]
  | .condThen a _ => toks a ++ [.quest]
  | .condElse a b => toks a ++ .quest :: toks b ++ [.colon]
  | .assignRight l => toks l ++ [.asg]
  | .arrow => [.arrow]
  | .commaRight l => toks l ++ [.com]
  | _ => []

/-- what is written after the expression -/
def Frame.after : Frame → List Tok
  | .paren | .arg _ | .newArg _ => [.rp]
  | .dot n => [.dot n]
  | .indexObject i => .lb :: toks i ++ [.rb]
  | .indexArg _ => [.rb]
  | .callee a | .newCallee a => .lp :: toks a ++ [.rp]
  | .tag => [.tpl]
  | .nonNull => [.bang]
  | .post => [.post]
  | .binLeft op r => .op op :: toks r
  | .sat => [.sat]
  | .condTest b c => .quest :: toks b ++ .colon :: toks c
  | .condThen _ c => .colon :: toks c
  | .assignLeft r => .asg :: toks r
  | .commaLeft r => .com :: toks r
  | _ => []

/-- the source with something in the place of the expression -/
def around : List Frame → List Tok → List Tok
  | [], text => text
  | f :: fs, text => around fs (f.before ++ text ++ f.after)

end Tsgolint.Expression
