import Verif.Model.Redundant
/-! # Redundant constituents: what they are, in terms of values -/
namespace Tsgolint.Redundant

/-- The constituent number `i` has the parts `ps`. -/
abbrev IsNode (nodes : List (List Part)) (i : Nat) (ps : List Part) : Prop := nodes[i]? = some ps

/-- Values: of one of the four primitive kinds, or something else. -/
structure Val where
  kind : Option Kind
  id : Nat

/-- The values of parts: any and unknown have all, never none, a primitive those of its kind, a literal some of its kind; others are given. -/
structure Meaning where
  has : Part → Val → Prop
  any : ∀ p v, p.flag = .any → has p v
  unknown : ∀ p v, p.flag = .unknown → has p v
  never : ∀ p v, p.flag = .never → ¬ has p v
  prim : ∀ p k v, p.flag = .prim k → (has p v ↔ v.kind = some k)
  boolean : ∀ p v, p.flag = .booleanUnion → (has p v ↔ v.kind = some .boolean)
  lit : ∀ p k v, p.flag = .lit k → has p v → v.kind = some k

/-- The values of a constituent (a union of parts), of a union type and of an intersection type. -/
def Meaning.node (μ : Meaning) (ps : List Part) (v : Val) : Prop := ∃ p ∈ ps, μ.has p v
def Meaning.union (μ : Meaning) (nodes : List (List Part)) (v : Val) : Prop := ∃ ps ∈ nodes, μ.node ps v
def Meaning.inter (μ : Meaning) (nodes : List (List Part)) (v : Val) : Prop := ∀ ps ∈ nodes, μ.node ps v

/-- Some constituent is a union. -/
def HasUnion (nodes : List (List Part)) : Prop := ∃ ps ∈ nodes, 2 ≤ ps.length

/-- All literals of the kind among the parts. -/
def literalsOf (k : Kind) (ps : List Part) : List Part := ps.filter fun p => decide (p.flag = .lit k)

/-- What is said about a top or bottom type in a union (`never` is allowed in the type of a function's result). -/
inductive TopUnion (inReturnType : Bool) (p : Part) : Message → Prop
  | any : p.flag = .any → p.text = "any" → TopUnion inReturnType p (.overrides "any" .union)
  | error : p.flag = .any → p.text ≠ "any" → TopUnion inReturnType p (.errorTypeOverrides p.text .union)
  | unknown : p.flag = .unknown → TopUnion inReturnType p (.overrides p.text .union)
  | never : p.flag = .never → inReturnType = false → TopUnion inReturnType p (.overridden "never" .union)

/-- What is said about a top or bottom type in an intersection. -/
inductive TopInter (p : Part) : Message → Prop
  | any : p.flag = .any → p.text = "any" → TopInter p (.overrides "any" .intersection)
  | error : p.flag = .any → p.text ≠ "any" → TopInter p (.errorTypeOverrides p.text .intersection)
  | never : p.flag = .never → TopInter p (.overrides p.text .intersection)
  | unknown : p.flag = .unknown → TopInter p (.overridden p.text .intersection)

/-- A constituent has the primitive type of the kind among its parts. -/
def Primitive (nodes : List (List Part)) (k : Kind) : Prop := ∃ qs ∈ nodes, ∃ q ∈ qs, q.flag = .prim k

/-- The same, also if `boolean` is found behind a reference. -/
def AnyPrimitive (nodes : List (List Part)) (k : Kind) : Prop :=
  ∃ qs ∈ nodes, ∃ q ∈ qs, q.flag = .prim k ∨ (k = .boolean ∧ q.flag = .booleanUnion)

end Tsgolint.Redundant
