import Verif.Model.TypeParameters
import Batteries.Data.List.Basic
/-! # Specification of no-unnecessary-type-parameters -/
namespace Tsgolint.TypeParameters
open Fixer (Bytes Fix ascii)
variable {T S N : Type}

/-! ## What a type consists of -/

/-- A place that counts for one use; that counts for several -/
def once (t : T) : Visit T := ⟨t, false, false⟩
def several (t : T) : Visit T := ⟨t, true, false⟩

/-- Type arguments count for several uses, except in arrays and tuples (readonly ones, or not in what a function returns, or not for classes). -/
def SeveralUses (g : Generic) (fromClass many returned : Bool) : Prop :=
  g = .other ∨ fromClass = true ∨ many = true ∨ (returned = true ∧ (g = .tuple false ∨ g = .array true))

/-- The types in a signature: of `this`, the parameters, the type parameters, and what it returns (what a type predicate claims comes before that) -/
inductive SignatureParts (s : Signature T) : List (Visit T) → Prop
  | with_this {t result} : s.this = some t → (s.predicate = some result ∨ (s.predicate = none ∧ result = s.returns)) →
      SignatureParts s (once t :: (s.parameters.map once ++ s.typeParameters.map once ++ [⟨result, false, true⟩]))
  | without {result} : s.this = none → (s.predicate = some result ∨ (s.predicate = none ∧ result = s.returns)) →
      SignatureParts s (s.parameters.map once ++ s.typeParameters.map once ++ [⟨result, false, true⟩])

/-- In a mapped type: its type parameter and, if it has no properties of its own, its template, or else its constraint -/
inductive MappedParts (properties : List T) (m : Mapped T) : List (Visit T) → Prop
  | mk {p q} : (m.typeParameter = none ∧ p = [] ∨ ∃ t, m.typeParameter = some t ∧ p = [once t]) →
      ((properties ≠ [] ∧ q = []) ∨ (properties = [] ∧ ((∃ t, m.template = some t ∧ q = [once t]) ∨ (m.template = none ∧ ∃ t, m.constraint = some t ∧ q = [once t]) ∨
        (m.template = none ∧ m.constraint = none ∧ q = [])))) → MappedParts properties m (p ++ q)

/-- An index signature counts for several uses. -/
def IndexPart (t : Option T) (l : List (Visit T)) : Prop := (t = none ∧ l = []) ∨ ∃ x, t = some x ∧ l = [several x]

/-- In an object type: the types of its properties, its index signatures, call and construct signatures -/
inductive ObjectParts (o : Object T) : List (Visit T) → Prop
  | mk {m n s sigs} : ((o.mapped = none ∧ m = []) ∨ ∃ x, o.mapped = some x ∧ MappedParts o.properties x m) → IndexPart o.numberIndex n → IndexPart o.stringIndex s →
      List.Forall₂ SignatureParts o.signatures sigs → ObjectParts o (o.properties.map once ++ m ++ n ++ s ++ sigs.flatten)

/-- The reference has type arguments. -/
def HasArguments (f : Facts T S N) : Prop := ∃ g a as, f.reference = some (g, a :: as)

/-- What a type (that is no type parameter) consists of: of an alias, its type arguments; otherwise by its kind -/
inductive PartsOf (E : Env T S N) (fromClass : Bool) (v : Visit T) : List (Visit T) → Prop
  | aliased : (E.facts v.type).aliasArguments ≠ [] → PartsOf E fromClass v ((E.facts v.type).aliasArguments.map several)
  | unionOrIntersection : (E.facts v.type).aliasArguments = [] → (E.facts v.type).unionOrIntersection = true → PartsOf E fromClass v ((E.facts v.type).types.map (⟨·, v.many, false⟩))
  | indexed {o i} : (E.facts v.type).aliasArguments = [] → (E.facts v.type).unionOrIntersection = false → (E.facts v.type).indexed = some (o, i) →
      PartsOf E fromClass v [⟨o, v.many, false⟩, ⟨i, v.many, false⟩]
  | reference {g a as many} : (E.facts v.type).aliasArguments = [] → (E.facts v.type).unionOrIntersection = false → (E.facts v.type).indexed = none →
      (E.facts v.type).reference = some (g, a :: as) → (many = true ↔ SeveralUses g fromClass v.many v.returned) → PartsOf E fromClass v ((a :: as).map (⟨·, many, v.returned⟩))
  | template : (E.facts v.type).aliasArguments = [] → (E.facts v.type).unionOrIntersection = false → (E.facts v.type).indexed = none → ¬ HasArguments (E.facts v.type) →
      (E.facts v.type).template = true → PartsOf E fromClass v ((E.facts v.type).types.map (⟨·, v.many, false⟩))
  | conditional {c e} : (E.facts v.type).aliasArguments = [] → (E.facts v.type).unionOrIntersection = false → (E.facts v.type).indexed = none → ¬ HasArguments (E.facts v.type) →
      (E.facts v.type).template = false → (E.facts v.type).conditional = some (c, e) → PartsOf E fromClass v [⟨c, v.many, false⟩, ⟨e, v.many, false⟩]
  | object {o l} : (E.facts v.type).aliasArguments = [] → (E.facts v.type).unionOrIntersection = false → (E.facts v.type).indexed = none → ¬ HasArguments (E.facts v.type) →
      (E.facts v.type).template = false → (E.facts v.type).conditional = none → (E.facts v.type).object = some o → ObjectParts o l → PartsOf E fromClass v l
  | operator {t} : (E.facts v.type).aliasArguments = [] → (E.facts v.type).unionOrIntersection = false → (E.facts v.type).indexed = none → ¬ HasArguments (E.facts v.type) →
      (E.facts v.type).template = false → (E.facts v.type).conditional = none → (E.facts v.type).object = none → (E.facts v.type).target = some t → PartsOf E fromClass v [⟨t, v.many, false⟩]
  | leaf : (E.facts v.type).aliasArguments = [] → (E.facts v.type).unionOrIntersection = false → (E.facts v.type).indexed = none → ¬ HasArguments (E.facts v.type) →
      (E.facts v.type).template = false → (E.facts v.type).conditional = none → (E.facts v.type).object = none → (E.facts v.type).target = none → PartsOf E fromClass v []

/-! ## The number of uses of a type parameter -/

/-- The type parameter with this symbol. -/
def IsParam (E : Env T S N) (x : S) (t : T) : Prop := ∃ d, (E.facts t).param = some (some d) ∧ d.symbol = x

/-- The one type is written inside the other (with whatever multiplicity). -/
def Inside (E : Env T S N) (fromClass : Bool) (t c : T) : Prop :=
  (E.facts t).param = none ∧ ∃ many returned, ∃ p ∈ parts E fromClass ⟨t, many, returned⟩, p.type = c

/-- The type parameter occurs in the type: it is the type, or inside a type inside it. -/
inductive Occurs (E : Env T S N) (fromClass : Bool) (x : S) : T → Prop
  | here {t} : IsParam E x t → Occurs E fromClass x t
  | inside {t c} : Inside E fromClass t c → Occurs E fromClass x c → Occurs E fromClass x t

mutual
/-- How often the type parameter occurs in a type: twice if in a place where several uses are assumed, and as often as in its parts together.  A type in which it occurs and that contains
itself has no such number. -/
inductive Total (E : Env T S N) (fromClass : Bool) (x : S) : Visit T → Nat → Prop
  | absent {v : Visit T} : ¬Occurs E fromClass x v.type → Total E fromClass x v 0
  | here {v : Visit T} : IsParam E x v.type → Total E fromClass x v (if v.many then 2 else 1)
  | inside {v : Visit T} {k : Nat} : (E.facts v.type).param = none → Totals E fromClass x (parts E fromClass v) k → Total E fromClass x v k
/-- ... in several types together. -/
inductive Totals (E : Env T S N) (fromClass : Bool) (x : S) : List (Visit T) → Nat → Prop
  | nil : Totals E fromClass x [] 0
  | cons {v : Visit T} {vs : List (Visit T)} {k l : Nat} : Total E fromClass x v k → Totals E fromClass x vs l → Totals E fromClass x (v :: vs) (k + l)
end

/-- The types reached from the visited ones: through parts, constraints of type parameters, and the one default that is looked at. -/
inductive Reached (E : Env T S N) (fromClass : Bool) (vs : List (Visit T)) (default : Option T) : T → Prop
  | root {v} : v ∈ vs → Reached E fromClass vs default v.type
  | inside {t c} : Reached E fromClass vs default t → Inside E fromClass t c → Reached E fromClass vs default c
  | constraint {t d c} : Reached E fromClass vs default t → (E.facts t).param = some (some d) → d.constraint = some c → Reached E fromClass vs default (E.constraintType c)
  | default {t d x} : Reached E fromClass vs default t → (E.facts t).param = some (some d) → d.default = some x → default = some x → Reached E fromClass vs default x

/-- A type parameter that is reached. -/
def ReachedParam (E : Env T S N) (fromClass : Bool) (vs : List (Visit T)) (default : Option T) (d : Decl T S N) : Prop :=
  ∃ t, Reached E fromClass vs default t ∧ (E.facts t).param = some (some d)

/-- The default that is looked at: that of one of the type parameters reached, if there is any. -/
def DefaultOf (E : Env T S N) (fromClass : Bool) (vs : List (Visit T)) : Option T → Prop
  | none => ∀ d, ReachedParam E fromClass vs none d → d.default = none
  | some y => ∃ d, ReachedParam E fromClass vs (some y) d ∧ d.default = some y

/-- The type parameter is used `k` times in what is visited: in the types themselves, in the constraints of the type parameters reached, each counted once, and in one of their defaults. -/
def Uses (E : Env T S N) (fromClass : Bool) (x : S) (vs : List (Visit T)) (k : Nat) : Prop :=
  ∃ (default : Option T) (cs : List N), DefaultOf E fromClass vs default ∧
    cs.Nodup ∧ (∀ c, c ∈ cs ↔ ∃ d, ReachedParam E fromClass vs default d ∧ d.constraint = some c) ∧
    Totals E fromClass x (vs ++ cs.map (fun c => ⟨E.constraintType c, false, false⟩) ++ default.toList.map (⟨·, false, false⟩)) k

/-- The uses in all the nodes together. -/
inductive UsesAll (E : Env T S N) (fromClass : Bool) (x : S) : List (Root T) → Nat → Prop
  | nil : UsesAll E fromClass x [] 0
  | cons {r rs k l} : Uses E fromClass x r.visits k → UsesAll E fromClass x rs l → UsesAll E fromClass x (r :: rs) (k + l)

/-- All type parameters with a default have the same one. -/
def OneDefault (E : Env T S N) : Prop :=
  ∀ t t' d d' x x', (E.facts t).param = some (some d) → (E.facts t').param = some (some d') → d.default = some x → d'.default = some x' → x = x'

/-! ## References -/

/-- The identifier is in the tree, below nodes of these kinds (the nearest first). -/
inductive In (id : Nat) (symbol : Option S) (pos start stop : Nat) : List Kind → Syn S → List Kind → Prop
  | here {anc} : In id symbol pos start stop anc (.ident id symbol pos start stop) anc
  | deeper {anc k kids c a} : c ∈ kids → In id symbol pos start stop (k :: anc) c a → In id symbol pos start stop anc (.node k kids) a

/-- A reference to the type parameter: an identifier with its symbol right below a type node, other than the name in its declaration. -/
def Refers (x : S) (name : Nat) (tree : Syn S) (r : Reference) : Prop :=
  r.id ≠ name ∧ ∃ parent rest, In r.id (some x) r.pos r.start r.stop [] tree (parent :: rest) ∧ parent ≠ .other ∧ (r.wrapped = true ↔ rest.head? = some .wrapping)

/-- References that count for the quick check: outside the declaration of the type parameter, and not in the body. -/
def Counts (p : Param S) (body : Option Nat) (r : Reference) : Prop :=
  (r.stop ≤ p.pos ∨ p.stop ≤ r.pos) ∧ ∀ b, body = some b → r.pos ≤ b

mutual
/-- The identifiers of a tree. -/
def ids : Syn S → List Nat
  | .node _ kids => idsIn kids
  | .ident id _ _ _ _ => [id]
def idsIn : List (Syn S) → List Nat
  | [] => []
  | c :: cs => ids c ++ idsIn cs
end

/-- Two references count: the type parameter is used repeatedly as written, and not looked at more closely. -/
def Repeated (p : Param S) (x : S) (body : Option Nat) (tree : Syn S) : Prop :=
  ∃ r r', r ≠ r' ∧ Refers x p.name tree r ∧ Refers x p.name tree r' ∧ Counts p body r ∧ Counts p body r'

/-! ## The suggestion -/

/-- A piece of text: kept, or a reference (and whether it needs parentheses). -/
inductive Piece
  | keep (text : Bytes)
  | ref (text : Bytes) (wrapped : Bool)

def Piece.text : Piece → Bytes
  | .keep t => t
  | .ref t _ => t

/-- With the references replaced. -/
def Piece.replaced (c : Constraint) : Piece → Bytes
  | .keep t => t
  | .ref _ w =>
    match c with
    | none => ascii "unknown"
    | some (text, complex) => if complex = true ∧ w = true then ascii "(" ++ text ++ ascii ")" else text

/-- The references among the pieces from a position on. -/
inductive RefsOf : Nat → List Piece → List Reference → Prop
  | nil {n} : RefsOf n [] []
  | keep {n t ps rs} : RefsOf (n + t.length) ps rs → RefsOf n (.keep t :: ps) rs
  | ref {n t w ps rs r} : r.start = n → r.stop = n + t.length → r.wrapped = w → RefsOf (n + t.length) ps rs → RefsOf n (.ref t w :: ps) (r :: rs)

def textOf (ps : List Piece) : Bytes := ps.flatMap Piece.text
def replacedOf (c : Constraint) (ps : List Piece) : Bytes := ps.flatMap (Piece.replaced c)

end Tsgolint.TypeParameters
