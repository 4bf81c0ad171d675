import Verif.Model.PreferFind
import Verif.Spec.TypeGraph
/-! # What prefer-find promises -/
namespace Tsgolint.PreferFind
open Tsgolint.TypeGraph (Shape)
variable {T : Type}

/-! ## Values (ECMAScript).  The names `undefined`, `NaN`, `Infinity` and `Symbol` are taken to be the global ones. -/

/-- The language's own conversions. -/
structure Js where
  /-- `Number(s)` -/
  number : String → Num
  /-- `String(n)` -/
  text : Num → String

/-- ECMAScript `ToNumber`; bigints (for a unary plus and as an index) and symbols are errors. -/
inductive ToNumber (J : Js) : Value → Num → Prop
  | num {n} : ToNumber J (.num n) n
  | str {s} : ToNumber J (.str s) (J.number s)
  | true : ToNumber J (.bool true) (.fin 1)
  | false : ToNumber J (.bool false) (.fin 0)
  | null : ToNumber J .null (.fin 0)
  | undefined : ToNumber J .undefined .nan

/-- ECMAScript `ToPropertyKey`, for keys that are strings. -/
inductive PropertyKey (J : Js) : Value → String → Prop
  | str {s} : PropertyKey J (.str s) s
  | num {n} : PropertyKey J (.num n) (J.text n)
  | true : PropertyKey J (.bool true) "true"
  | false : PropertyKey J (.bool false) "false"
  | null : PropertyKey J .null "null"
  | undefined : PropertyKey J .undefined "undefined"
  | bigint {i : Int} : PropertyKey J (.bigint i) (toString i)

/-- `Symbol` -/
inductive SymbolObject : Expr → Prop
  | symbol {s} : SymbolObject (.ident "Symbol" s)
  | paren {e} : SymbolObject e → SymbolObject (.paren e)

/-- `Symbol` and `Symbol.for`. -/
inductive SymbolFunction : Expr → Prop
  | symbol {s} : SymbolFunction (.ident "Symbol" s)
  | symbolFor {id q o} : SymbolObject o → SymbolFunction (.prop id q o "for")
  | paren {e} : SymbolFunction e → SymbolFunction (.paren e)

/-- The value of a constant expression. -/
inductive Evaluates (E : Env T) (J : Js) : Expr → Value → Prop
  | str {s} : Evaluates E J (.str s) (.str s)
  | num {n} : Evaluates E J (.num (some n)) (.num n)
  | bool {b} : Evaluates E J (.bool b) (.bool b)
  | null : Evaluates E J .null .null
  | bigint {i} : Evaluates E J (.bigint (some i)) (.bigint i)
  | undefined {s} : Evaluates E J (.ident "undefined" s) .undefined
  | nan {s} : Evaluates E J (.ident "NaN" s) (.num .nan)
  | infinity {s} : Evaluates E J (.ident "Infinity" s) (.num (.inf false))
  | const {name s e v} : name ≠ "undefined" → name ≠ "NaN" → name ≠ "Infinity" → E.init s = some e → Evaluates E J e v →
      Evaluates E J (.ident name (some s)) v
  | minus {e v n} : Evaluates E J e v → ToNumber J v n → Evaluates E J (.unary .minus e) (.num n.neg)
  | minusBig {e i} : Evaluates E J e (.bigint i) → Evaluates E J (.unary .minus e) (.bigint (-i))
  | plus {e v n} : Evaluates E J e v → ToNumber J v n → Evaluates E J (.unary .plus e) (.num n)
  | wrap {e v} : Evaluates E J e v → Evaluates E J (.wrap e) v
  | paren {e v} : Evaluates E J e v → Evaluates E J (.paren e) v
  | symbol1 {callee arg} : SymbolFunction callee → Evaluates E J (.call1 false callee arg) .symbol
  | symbolN {callee} : SymbolFunction callee → Evaluates E J (.callN false callee) .symbol

/-- Every string literal in the expression has the property. -/
def Literals (P : String → Prop) : Expr → Prop
  | .str s => P s
  | .unary _ e => Literals P e
  | .wrap e => Literals P e
  | .paren e => Literals P e
  | .comma l r => Literals P l ∧ Literals P r
  | .cond c t f => Literals P c ∧ Literals P t ∧ Literals P f
  | .prop _ _ e _ => Literals P e
  | .elem _ _ e i => Literals P e ∧ Literals P i
  | .call1 _ c a => Literals P c ∧ Literals P a
  | .callN _ c => Literals P c
  | _ => True

/-- The strings involved are read as the same numbers by the rule and by the language (`C79_hazard_range` shows one that is not). -/
structure Plain (E : Env T) (J : Js) (e : Expr) : Prop where
  here : Literals (fun s => numberOfString E s = J.number s) e
  constants : ∀ s i, E.init s = some i → Literals (fun s => numberOfString E s = J.number s) i

/-- Numbers are written with digits. -/
structure Digits (E : Env T) (J : Js) : Prop where
  rule : ∀ q, E.format q ≠ "filter" ∧ E.format q ≠ "at"
  language : ∀ n, J.text n ≠ "filter" ∧ J.text n ≠ "at"
  zero : ∀ n, J.text n = "0" ↔ n = .fin 0

/-- ECMAScript `ToIntegerOrInfinity`: not a number counts as 0, finite numbers are truncated toward zero. -/
inductive ToInteger : Num → Int → Prop
  | nan : ToInteger .nan 0
  | down {q : Rat} {i : Int} : 0 ≤ q → (i : Rat) ≤ q → q < (i : Rat) + 1 → ToInteger (.fin q) i
  | up {q : Rat} {i : Int} : q ≤ 0 → q ≤ (i : Rat) → (i : Rat) - 1 < q → ToInteger (.fin q) i

/-- An access of the property `name`: `e.name`, or `e[k]` where `k` evaluates to a value whose property key is `name`. -/
inductive Accesses (E : Env T) (J : Js) (name : String) : Expr → Nat → Bool → Expr → Prop
  | prop {id q e} : Accesses E J name (.prop id q e name) id false e
  | elem {id q e k v} : Evaluates E J k v → PropertyKey J v name → Accesses E J name (.elem id q e k) id true e
  | paren {e id b o} : Accesses E J name e id b o → Accesses E J name (.paren e) id b o

/-- A part of a union that is an array or tuple, or an intersection of such. -/
def IsArrayPart (E : Env T) (p : T) : Prop :=
  match E.shape p with
  | .intersection qs => ∀ q ∈ qs, E.isArray q = true ∨ E.isTuple q = true
  | _ => E.isArray p = true ∨ E.isTuple p = true

/-- Values of the type are arrays or nullish, and not all of them are nullish. -/
def Arrayish (E : Env T) (t : T) : Prop :=
  (∀ p, TypeGraph.UnionPart E.shape t p → E.isNull p = true ∨ E.isUndefined p = true ∨ IsArrayPart E p) ∧
  ∃ p, TypeGraph.UnionPart E.shape t p ∧ E.isNull p = false ∧ E.isUndefined p = false

/-- A call of `filter` on an array: not written `x.filter?.(…)`. -/
inductive FilterCall (E : Env T) (J : Js) : Expr → Site → Prop
  | call1 {callee arg id b o} : Accesses E J "filter" callee id b o → Arrayish E (E.typeOf id) → FilterCall E J (.call1 false callee arg) ⟨id, b⟩
  | callN {callee id b o} : Accesses E J "filter" callee id b o → Arrayish E (E.typeOf id) → FilterCall E J (.callN false callee) ⟨id, b⟩

/-- The expressions whose value an expression may have: look through parentheses, at the right of commas and at both branches of conditions. -/
inductive Source : Expr → Expr → Prop
  | paren {e x} : Source e x → Source (.paren e) x
  | comma {l r x} : Source r x → Source (.comma l r) x
  | whenTrue {c t f x} : Source t x → Source (.cond c t f) x
  | whenFalse {c t f x} : Source f x → Source (.cond c t f) x
  | self {e} : (∀ i, e ≠ .paren i) → (∀ l r, e ≠ .comma l r) → (∀ c t f, e ≠ .cond c t f) → Source e e

/-- An expression that takes the first element of `object`: `object[0]`, `object.at(0)`. -/
inductive TakesFirst (E : Env T) (J : Js) : Expr → Expr → Prop
  | member {id e k v} : Evaluates E J k v → PropertyKey J v "0" → TakesFirst E J (.elem id false e k) e
  | at {callee arg id b object v n} : Accesses E J "at" callee id b object → Evaluates E J arg v → ToNumber J v n → ToInteger n 0 →
      TakesFirst E J (.call1 false callee arg) object

/-! ## Arrays: elements, with holes -/

/-- `array.filter(f)`: holes are skipped. -/
def jsFilter {V : Type} (f : V → Bool) : List (Option V) → List (Option V)
  | [] => []
  | none :: l => jsFilter f l
  | some x :: l => if f x then some x :: jsFilter f l else jsFilter f l

/-- `array[0]`, `array.at(0)`: a hole and a missing element read as undefined. -/
def jsFirst {V : Type} (undefined : V) : List (Option V) → V
  | some x :: _ => x
  | _ => undefined

/-- `array.find(f)`: holes are visited as undefined. -/
def jsFind {V : Type} (undefined : V) (f : V → Bool) : List (Option V) → V
  | [] => undefined
  | x :: l => if f (x.getD undefined) then x.getD undefined else jsFind undefined f l

/-! ## Text between an array and the access to its element -/

inductive Gap (space : Char → Bool) : List Char → Prop
  | nil : Gap space []
  | space {c l} : space c = true → Gap space l → Gap space (c :: l)
  | paren {l} : Gap space l → Gap space (')' :: l)
  | line {body l} {c : Char} : (∀ d ∈ body, d ≠ '\n' ∧ d ≠ '\r') → (c = '\n' ∨ c = '\r') → Gap space l → Gap space ('/' :: '/' :: body ++ c :: l)
  | block {body l} : (∀ a b, body ≠ a ++ '*' :: '/' :: b) → Gap space l →
      Gap space ('/' :: '*' :: body ++ '*' :: '/' :: l)

end Tsgolint.PreferFind
