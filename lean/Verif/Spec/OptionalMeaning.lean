import Verif.Model.OptionalExpr

/-!
# What expressions evaluate to

JavaScript's evaluation of the expressions in `Model/OptionalExpr.lean`, in a world where evaluating has no effects, so that the same expression gives the same
value each time. Everything that optional chains are not about (operators, calls, properties, ...) is given by the world.
-/

namespace Tsgolint.OptionalChain

/-- A state of the program -/
structure World (V : Type) where
  undef : V
  null : V
  truthy : V → Bool
  /-- `none` if there is no such variable -/
  var : Text → Option V
  keyword : Keyword → V
  literal : Lit → Text → V
  /-- a property (also of private name) or element; `none` if an error is thrown -/
  get : V → Text → Option V
  getElem : V → V → Option V
  /-- a call: the value of `this`, the function, the arguments -/
  call : V → V → List V → Option V
  op : Op → V → V → Option V
  unary : Pre → V → Option V
  typeof : V → V
  /-- the text `"undefined"` -/
  undefText : V
  template : Text → List V → List Text → Option V
  await : V → Option V
  metaProp : Bool → Text → V
  other : Other → Nat → Option V
  undef_falsy : truthy undef = false
  null_falsy : truthy null = false
  get_undef : ∀ n, get undef n = none
  get_null : ∀ n, get null n = none
  elem_undef : ∀ n, getElem undef n = none
  elem_null : ∀ n, getElem null n = none
  call_undef : ∀ t xs, call t undef xs = none
  call_null : ∀ t xs, call t null xs = none
  keyword_null : keyword .null = null

variable {V : Type}

/-- null or undefined -/
def World.Nullish (W : World V) (v : V) : Prop := v = W.undef ∨ v = W.null

/-- What a part of a chain evaluates to: an error, the chain being left at a `?.`, or a value (with the value of `this` in case it is called) -/
inductive Res (V : Type) | fail | short | val (this v : V)

/-- where a chain ends: leaving it early means undefined -/
def Res.close (W : World V) : Res V → Res V
  | .short => .val W.undef W.undef
  | r => r

/-- the value, if there is one -/
def Res.value (W : World V) : Res V → Option V
  | .fail => none
  | .short => some W.undef
  | .val _ v => some v

/-- an error unless there is a value to go on with -/
def Res.after (o : Option V) (f : V → Res V) : Res V :=
  match o with
  | none => .fail
  | some v => f v

open Classical in
/-- a link of a chain: with `?.` the chain is left if the value so far is null or undefined -/
noncomputable def Res.link (W : World V) (o : Bool) (r : Res V) (f : V → V → Res V) : Res V :=
  match r with
  | .fail => .fail
  | .short => .short
  | .val t v => if o = true ∧ W.Nullish v then .short else f t v

/-- does the left operand's value decide? -/
def World.Decides (W : World V) (o : Op) (a : V) : Prop :=
  (o = .and ∧ W.truthy a = false) ∨ (o = .or ∧ W.truthy a = true) ∨ (o = .nullish ∧ ¬ W.Nullish a)

/-- a variable that need not exist under `typeof` -/
def Expr.unresolvable (W : World V) (e : Expr) : Prop := ∃ p n, e.unwrap = .ident p n ∧ W.var n = none

open Classical in
mutual
/-- evaluation of a part of a chain -/
noncomputable def World.eval (W : World V) : Expr → Res V
  | .ident _ n => .after (W.var n) (.val W.undef)
  | .keyword _ k => .val W.undef (W.keyword k)
  | .literal _ k t => .val W.undef (W.literal k t)
  | .prop e o n => .link W o (W.eval e) fun _ v => .after (W.get v n) (.val v)
  | .elem e o x => .link W o (W.eval e) fun _ v => .after ((W.eval x).value W) fun k => .after (W.getElem v k) (.val v)
  | .call e o _ xs => .link W o (W.eval e) fun t v =>
    match W.evals xs with
    | none => .fail
    | some ys => .after (W.call t v ys) (.val W.undef)
  | .paren e => (W.eval e).close W
  | .nonNull e => W.eval e
  | .asType e _ => (W.eval e).close W
  | .assertion _ e => (W.eval e).close W
  | .binary l o _ r => .after ((W.eval l).value W) fun a =>
    if W.Decides o a then .val W.undef a
    else .after ((W.eval r).value W) fun b =>
      if o = .and ∨ o = .or ∨ o = .nullish then .val W.undef b else .after (W.op o a b) (.val W.undef)
  | .unary o e => .after ((W.eval e).value W) fun a => .after (W.unary o a) (.val W.undef)
  | .typeof e => if Expr.unresolvable W e then .val W.undef W.undefText
    else .after ((W.eval e).value W) fun a => .val W.undef (W.typeof a)
  | .template h xs ts =>
    match W.evals xs with
    | none => .fail
    | some ys => .after (W.template h ys ts) (.val W.undef)
  | .await e => .after ((W.eval e).value W) fun a => .after (W.await a) (.val W.undef)
  | .metaProp _ k n => .val W.undef (W.metaProp k n)
  | .other p k _ => .after (W.other k p) (.val W.undef)
/-- evaluation of arguments, one after the other -/
noncomputable def World.evals (W : World V) : List Expr → Option (List V)
  | [] => some []
  | e :: es => match (W.eval e).value W with
    | none => none
    | some v => match W.evals es with
      | none => none
      | some vs => some (v :: vs)
end

/-- the value of an expression; `none` if it throws -/
noncomputable def World.value (W : World V) (e : Expr) : Option V := (W.eval e).value W

/-! ### The same expression, up to what does not matter -/

/-- a type argument without arguments of its own -/
def TyNode.bare : TyNode → TyNode
  | .named ns _ => .named ns []
  | t => t

mutual
/-- an expression without positions, parentheses, non-null assertions, question marks, asserted types and white space -/
def Expr.bare : Expr → Expr
  | .ident _ n => .ident 0 n
  | .keyword _ k => .keyword 0 k
  | .literal _ k t => .literal 0 k t
  | .prop e _ n => .prop (Expr.bare e) false n
  | .elem e _ x => .elem (Expr.bare e) false (Expr.bare x)
  | .call e _ ts xs => .call (Expr.bare e) false (ts.map TyNode.bare) (Expr.bares xs)
  | .paren e => Expr.bare e
  | .nonNull e => Expr.bare e
  | .asType e _ => .asType (Expr.bare e) []
  | .assertion _ e => .assertion [] (Expr.bare e)
  | .binary l o _ r => .binary (Expr.bare l) o [] (Expr.bare r)
  | .unary o e => .unary o (Expr.bare e)
  | .typeof e => .typeof (Expr.bare e)
  | .template h xs ts => .template h (Expr.bares xs) ts
  | .await e => .await (Expr.bare e)
  | .metaProp _ k n => .metaProp 0 k n
  | .other p k t => .other p k t
def Expr.bares : List Expr → List Expr
  | [] => []
  | e :: es => Expr.bare e :: Expr.bares es
end

/-- keywords and names can be compared, other types cannot -/
def TyNode.Plain : TyNode → Prop
  | .other _ => False
  | _ => True

mutual
/-- an expression none of whose parts is a new value each time or otherwise not compared: `new`, functions, literals of arrays, ... -/
def Expr.Comparable : Expr → Prop
  | .ident _ _ => True
  | .keyword _ _ => True
  | .literal _ _ _ => True
  | .prop e _ _ => Expr.Comparable e
  | .elem e _ x => Expr.Comparable e ∧ Expr.Comparable x
  | .call e _ ts xs => Expr.Comparable e ∧ (∀ t ∈ ts, t.Plain) ∧ Expr.Comparables xs
  | .paren e => Expr.Comparable e
  | .nonNull e => Expr.Comparable e
  | .asType e _ => Expr.Comparable e
  | .assertion _ e => Expr.Comparable e
  | .binary l _ _ r => Expr.Comparable l ∧ Expr.Comparable r
  | .unary _ e => Expr.Comparable e
  | .typeof e => Expr.Comparable e
  | .template _ xs _ => Expr.Comparables xs
  | .await e => Expr.Comparable e
  | .metaProp _ _ _ => True
  | .other _ _ _ => False
def Expr.Comparables : List Expr → Prop
  | [] => True
  | e :: es => Expr.Comparable e ∧ Expr.Comparables es
end

/-- the first is where the second begins: its object, or its object's object, ... -/
inductive Begins : Expr → Expr → Prop
  | refl (e : Expr) : Begins e e
  | prop {m e : Expr} (o : Bool) (n : Text) : Begins m e → Begins m (.prop e o n)
  | elem {m e : Expr} (o : Bool) (x : Expr) : Begins m e → Begins m (.elem e o x)
  | call {m e : Expr} (o : Bool) (ts : List TyNode) (xs : List Expr) : Begins m e → Begins m (.call e o ts xs)
  | paren {m e : Expr} : Begins m e → Begins m (.paren e)
  | nonNull {m e : Expr} : Begins m e → Begins m (.nonNull e)

/-- an increment, decrement, assignment or `yield` is made where the rule looks for one: the expression itself, its objects, callees and computed keys -/
inductive Effect : Expr → Prop
  | inc (e : Expr) : Effect (.unary .inc e)
  | dec (e : Expr) : Effect (.unary .dec e)
  | postfixed (p : Nat) (t : Text) : Effect (.other p .postfix t)
  | yielded (p : Nat) (t : Text) : Effect (.other p .yield t)
  | assigned (l : Expr) (o : Op) (t : Text) (r : Expr) (h : o ∈ [.assign, .plusAssign, .minusAssign, .timesAssign, .divideAssign]) : Effect (.binary l o t r)
  | prop {e : Expr} (o : Bool) (n : Text) : Effect e → Effect (.prop e o n)
  | object {e : Expr} (o : Bool) (x : Expr) : Effect e → Effect (.elem e o x)
  | key {x : Expr} (e : Expr) (o : Bool) : Effect x → Effect (.elem e o x)
  | callee {e : Expr} (o : Bool) (ts : List TyNode) (xs : List Expr) : Effect e → Effect (.call e o ts xs)
  | paren {e : Expr} : Effect e → Effect (.paren e)

end Tsgolint.OptionalChain
