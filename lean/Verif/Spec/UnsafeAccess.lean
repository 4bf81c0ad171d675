import Verif.Model.UnsafeAccess
/-! # What no-unsafe-member-access and no-unsafe-call promise -/
namespace Tsgolint.UnsafeAccess

mutual
/-- All nodes of a tree, with whether they stand inside a heritage clause. -/
def nodes : Bool → Node → List (Node × Bool)
  | h, .prop i q obj => (.prop i q obj, h) :: nodes h obj
  | h, .elem i q obj arg => (.elem i q obj arg, h) :: (nodes h obj ++ nodes h arg)
  | h, .paren i e => (.paren i e, h) :: nodes h e
  | h, .call i callee args => (.call i callee args, h) :: (nodes h callee ++ nodesList h args)
  | h, .this i => [(.this i, h)]
  | h, .heritage i kids => (.heritage i kids, h) :: nodesList true kids
  | h, .other i k kids => (.other i k kids, h) :: nodesList h kids

def nodesList : Bool → List Node → List (Node × Bool)
  | _, [] => []
  | h, n :: ns => nodes h n ++ nodesList h ns
end

/-- The nodes of the tree have different identities. -/
def Distinct (root : Node) : Prop := ((nodes false root).map fun x => x.1.id).Nodup

/-- The access `n` with object `obj`, written with `?.` or not. -/
inductive Access : Node → Bool → Node → Prop
  | prop (i q obj) : Access (.prop i q obj) q obj
  | elem (i q obj arg) : Access (.elem i q obj arg) q obj

/-- The optional access is allowed. -/
def Allowed (E : Env) (q : Bool) : Prop := E.allowOptionalChaining = true ∧ q = true

/-- The value of the access is tainted: it is a member of an `any` value, or of a tainted access directly before it. -/
inductive Tainted (E : Env) : Node → Prop
  | here {n q obj} : Access n q obj → ¬ Allowed E q → E.isAny obj.id = true → Tainted E n
  | before {n q obj} : Access n q obj → ¬ Allowed E q → Tainted E obj → Tainted E n

/-- `this` at the left end of accesses, calls and parentheses. -/
inductive StartsWithThis : Node → Nat → Prop
  | this (i) : StartsWithThis (.this i) i
  | paren {i e t} : StartsWithThis e t → StartsWithThis (.paren i e) t
  | call {i c as t} : StartsWithThis c t → StartsWithThis (.call i c as) t
  | prop {i q o t} : StartsWithThis o t → StartsWithThis (.prop i q o) t
  | elem {i q o a t} : StartsWithThis o t → StartsWithThis (.elem i q o a) t

/-- The message about `this` is used. -/
def BlamesThis (E : Env) (n : Node) : Prop := E.noImplicitThis = false ∧ ∃ t, StartsWithThis n t ∧ E.isAnyConstrained t = true

/-- An unsafe member access and its message: an access on an `any` value that is not allowed and does not continue a tainted access. -/
inductive UnsafeMember (E : Env) : Node → Msg → Prop
  | this {n q obj} : Access n q obj → ¬ Allowed E q → E.isAny obj.id = true → ¬ Tainted E obj → BlamesThis E n → UnsafeMember E n .this
  | value {n q obj} : Access n q obj → ¬ Allowed E q → E.isAny obj.id = true → ¬ Tainted E obj → ¬ BlamesThis E n → UnsafeMember E n (.member (E.isError obj.id))

/-- An unsafe computed name: it is `any`, but neither a literal nor a `++`/`--` expression. -/
inductive UnsafeName (E : Env) : Node → Msg → Prop
  | mk {i q obj arg} : ¬ Allowed E q → E.isAny arg.id = true → (∀ j k, arg ≠ .other j .literal k) → (∀ j k, arg ≠ .other j .update k) →
      UnsafeName E (.elem i q obj arg) (.computed (E.isError arg.id))

end Tsgolint.UnsafeAccess

namespace Tsgolint.UnsafeAccess

/-- `m` is `n`, or comes before it in a row of accesses each made directly on the one before, none of them an allowed `?.`. -/
inductive Continues (E : Env) (m : Node) : Node → Prop
  | refl : Continues E m m
  | step {n q obj} : Access n q obj → ¬ Allowed E q → Continues E m obj → Continues E m n

/-- A call, `new` or tag on a value that is not known to be callable that way: `any`, or a `Function` without a construct signature and
without a call signature (for `new`: without one that does not return `void`). -/
inductive UnsafeCallee (form : Form) (c : Callee) : What → Prop
  | any : c.isAny = true → c.isError = false → UnsafeCallee form c .any
  | error : c.isAny = true → c.isError = true → UnsafeCallee form c .error
  | call : c.isAny = false → c.functionLike = true → c.constructSignatures = 0 → form ≠ .new → c.callSignatures = [] → UnsafeCallee form c .function
  | new : c.isAny = false → c.functionLike = true → c.constructSignatures = 0 → form = .new → (∀ v ∈ c.callSignatures, v = true) → UnsafeCallee form c .function

end Tsgolint.UnsafeAccess
