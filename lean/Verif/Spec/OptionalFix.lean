import Verif.Spec.OptionalOperand
import Verif.Model.OptionalFix

/-!
# Expressions as a root with links
-/

namespace Tsgolint.OptionalChain

/-- a link of a chain -/
inductive Step
  | prop (name : Text)
  | elem (key : Expr)
  | call (types : List TyNode) (args : List Expr)

/-- a link with its `?.` and with a `!` after it -/
structure Piece where
  step : Step
  opt : Bool
  bang : Bool

/-- the expression with a link more -/
def Step.apply (s : Step) (o : Bool) (e : Expr) : Expr :=
  match s with
  | .prop n => .prop e o n
  | .elem x => .elem e o x
  | .call ts xs => .call e o ts xs

/-- the expression with a link more, and its `!` -/
def Piece.apply (e : Expr) (p : Piece) : Expr := if p.bang then .nonNull (p.step.apply p.opt e) else p.step.apply p.opt e

/-- a root with links -/
def assemble (root : Expr) (ps : List Piece) : Expr := ps.foldl Piece.apply root

/-- the links of an expression, through parentheses (but not those of `await` and `yield`); a `!` after a call is left out -/
def links : Bool → Expr → List Piece
  | b, .paren e => if awaitOrYield e then [] else links b e
  | _, .nonNull e => links true e
  | b, .prop e o n => links false e ++ [⟨.prop n, o, b⟩]
  | b, .elem e o x => links false e ++ [⟨.elem x, o, b⟩]
  | _, .call e o ts xs => links false e ++ [⟨.call ts xs, o, false⟩]
  | _, _ => []

/-- where the links begin: parentheses are left out, except those of `await`, `yield` and type assertions; so is a `!` behind what is no name -/
def rootOf : Bool → Expr → Expr
  | b, .paren e => if awaitOrYield e then .paren e else rootOf b e
  | _, .nonNull e => rootOf true e
  | _, .prop e _ _ => rootOf false e
  | _, .elem e _ _ => rootOf false e
  | _, .call e _ _ _ => rootOf false e
  | b, .ident p n => if b then .nonNull (.ident p n) else .ident p n
  | _, .asType e ty => .paren (.asType e ty)
  | _, .assertion ty e => .paren (.assertion ty e)
  | _, e => e

/-- is the root followed by `!`? -/
def rootBang : Bool → Expr → Bool
  | b, .paren e => if awaitOrYield e then false else rootBang b e
  | _, .nonNull e => rootBang true e
  | _, .prop e _ _ => rootBang false e
  | _, .elem e _ _ => rootBang false e
  | _, .call e _ _ _ => rootBang false e
  | b, _ => b

/-- the number of parts: the root and the links -/
def Expr.size (e : Expr) : Nat := (links false e).length + 1

/-- a link that becomes optional because the expression before it was checked (the lengths of the checked ones are in `L`), is optional already, or is the call at the
end that shall be -/
def made (L : List Nat) (callOpt isLast : Bool) (i : Nat) (p : Piece) : Bool :=
  L.contains i || p.opt || (match p.step with | .call _ _ => isLast && callOpt | _ => false)

/-- the links with their new question marks; `i` is the length of the expression before the first of them -/
def withMarks (L : List Nat) (callOpt : Bool) : Nat → List Piece → List Piece
  | _, [] => []
  | i, p :: ps => { p with opt := made L callOpt ps.isEmpty i p } :: withMarks L callOpt (i + 1) ps

/-- a private name with a question mark -/
def Piece.badName (p : Piece) : Bool :=
  match p.step with
  | .prop n => p.opt && isPrivateName n
  | _ => false

/-- the links without the `!`s in front of a `?.` that follows a checked expression or a part of one -/
def unbang (m : Nat) : Nat → List Piece → List Piece
  | i, p :: q :: ps => { p with bang := p.bang && !(q.opt && decide (i < m)) } :: unbang m (i + 1) (q :: ps)
  | _, ps => ps

/-- what parentheses are put around again, or what needs none in front of a link -/
def Primary : Expr → Prop
  | .ident _ _ | .keyword _ _ | .literal _ _ _ | .template _ _ _ | .metaProp _ _ _ | .paren _ => True
  | .nonNull e => Primary e
  | .other _ k _ => k ∈ [.array, .object, .emptyObject, .function, .class, .jsx, .regex]
  | _ => False

/-- an expression that is only a root and links, without parentheses, but for those that are kept, and without `!` where it is lost -/
def Tidy : Bool → Expr → Prop
  | b, .paren e => b = false ∧ (awaitOrYield e = true ∨ (∃ x ty, e = .asType x ty) ∨ ∃ ty x, e = .assertion ty x)
  | b, .nonNull e => b = false ∧ Tidy true e
  | _, .prop e _ _ => Tidy false e
  | _, .elem e _ _ => Tidy false e
  | b, .call e _ _ _ => b = false ∧ Tidy false e
  | _, .asType _ _ => False
  | _, .assertion _ _ => False
  | _, .ident _ _ => True
  | b, _ => b = false

/-- the same root without its `!` -/
def Expr.unbanged : Expr → Expr
  | .nonNull e => e
  | e => e

/-- the first of the links has a question mark -/
def firstOpt : List Piece → Bool
  | p :: _ => p.opt
  | [] => false

end Tsgolint.OptionalChain
