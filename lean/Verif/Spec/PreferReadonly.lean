import Verif.Model.PreferReadonly
/-! # Specification of prefer-readonly -/
namespace Tsgolint.PreferReadonly
variable {C T : Type}

/-! ## What counts as a modification -/

/-- The access is a target of an assignment: the literal with these ancestors is assigned by `=`, directly or inside other array literals or spreads
(but not as the value of a property of an outer literal). -/
inductive Assigned : Syn → List Anc → Prop
  | left {k rest} : k ≠ .access → Assigned k (⟨.binary .eq, 0⟩ :: rest)
  | object {k i rest} : Assigned .object rest → Assigned k (⟨.object, i⟩ :: rest)
  | array {k i rest} : Assigned .array rest → Assigned k (⟨.array, i⟩ :: rest)
  | spreadAssignment {k i rest} : Assigned .spreadAssignment rest → Assigned k (⟨.spreadAssignment, i⟩ :: rest)
  | spreadElement {k i j rest} : Assigned .spreadElement (⟨.array, j⟩ :: rest) → Assigned k (⟨.spreadElement, i⟩ :: ⟨.array, j⟩ :: rest)

/-- The rule takes the access with these ancestors for a modification. -/
inductive Noticed : List Anc → Prop
  | assign {op rest} : op ≠ .other → Noticed (⟨.binary op, 0⟩ :: rest)
  | delete {i rest} : Noticed (⟨.delete, i⟩ :: rest)
  | update {i rest} : Noticed (⟨.unary true, i⟩ :: rest)
  | destructuring {k i rest} : (∀ op, k ≠ .binary op) → Assigned k rest → Noticed (⟨k, i⟩ :: rest)

mutual
/-- Assignment targets as the language defines them: the expression with these ancestors is written. -/
inductive Target : List Anc → Prop
  | assign {op rest} : op ≠ .other → Target (⟨.binary op, 0⟩ :: rest)
  | update {i rest} : Target (⟨.unary true, i⟩ :: rest)
  | delete {i rest} : Target (⟨.delete, i⟩ :: rest)
  | forInOf {rest} : Target (⟨.forInOf, 0⟩ :: rest)
  | paren {i rest} : Target rest → Target (⟨.paren, i⟩ :: rest)
  | element {i rest} : Pattern rest → Target (⟨.array, i⟩ :: rest)
  | restElement {i j rest} : Pattern rest → Target (⟨.spreadElement, i⟩ :: ⟨.array, j⟩ :: rest)
  | value {j rest} : Pattern rest → Target (⟨.propertyAssignment, 1⟩ :: ⟨.object, j⟩ :: rest)
  | restProperty {i j rest} : Pattern rest → Target (⟨.spreadAssignment, i⟩ :: ⟨.object, j⟩ :: rest)
/-- The array or object literal with these ancestors is a destructuring pattern. -/
inductive Pattern : List Anc → Prop
  | assign {rest} : Pattern (⟨.binary .eq, 0⟩ :: rest)
  | forInOf {rest} : Pattern (⟨.forInOf, 0⟩ :: rest)
  | element {i rest} : Pattern rest → Pattern (⟨.array, i⟩ :: rest)
  | restElement {i j rest} : Pattern rest → Pattern (⟨.spreadElement, i⟩ :: ⟨.array, j⟩ :: rest)
  | value {j rest} : Pattern rest → Pattern (⟨.propertyAssignment, 1⟩ :: ⟨.object, j⟩ :: rest)
end

mutual
/-- Targets without parentheses, `for` loops and patterns as values of properties. -/
inductive PlainTarget : List Anc → Prop
  | assign {op rest} : op ≠ .other → PlainTarget (⟨.binary op, 0⟩ :: rest)
  | update {i rest} : PlainTarget (⟨.unary true, i⟩ :: rest)
  | delete {i rest} : PlainTarget (⟨.delete, i⟩ :: rest)
  | element {i rest} : PlainPattern rest → PlainTarget (⟨.array, i⟩ :: rest)
  | restElement {i j rest} : PlainPattern rest → PlainTarget (⟨.spreadElement, i⟩ :: ⟨.array, j⟩ :: rest)
  | value {j rest} : PlainPattern rest → PlainTarget (⟨.propertyAssignment, 1⟩ :: ⟨.object, j⟩ :: rest)
  | restProperty {i j rest} : PlainPattern rest → PlainTarget (⟨.spreadAssignment, i⟩ :: ⟨.object, j⟩ :: rest)
inductive PlainPattern : List Anc → Prop
  | assign {rest} : PlainPattern (⟨.binary .eq, 0⟩ :: rest)
  | element {i rest} : PlainPattern rest → PlainPattern (⟨.array, i⟩ :: rest)
  | restElement {i j rest} : PlainPattern rest → PlainPattern (⟨.spreadElement, i⟩ :: ⟨.array, j⟩ :: rest)
end

/-! ## Accesses in a class -/

/-- Where an access stands. -/
inductive Place
  | outside
  /-- in the constructor, in no function in it -/
  | direct
  /-- in a function in the constructor -/
  | inner
deriving DecidableEq, Repr

def Place.enter (k : Syn) : Place → Place
  | .outside => .outside
  | .direct => if k = .function then .inner else .direct
  | .inner => .inner

structure Access (T : Type) where
  name : String
  type : T
  anc : List Anc
  place : Place

/-- The access lies in the node, not in a class below. -/
inductive InNode : List Anc → Place → Node C T → Access T → Prop
  | here {anc p name t o} : InNode anc p (.access name t o) ⟨name, t, anc, p⟩
  | object {anc p name t o a} : InNode (⟨.access, 0⟩ :: anc) p o a → InNode anc p (.access name t o) a
  | child {anc p k cs a} (i : Nat) (n : Node C T) : cs[i]? = some n → InNode (⟨k, i⟩ :: anc) (p.enter k) n a → InNode anc p (.syn k cs) a

inductive InMember : Member C T → Access T → Prop
  | property {d cs a} (i : Nat) (n : Node C T) : cs[i]? = some n → InNode [⟨.other, i⟩] .outside n a → InMember (.property d cs) a
  | ctor {params cs a} (i : Nat) (n : Node C T) : cs[i]? = some n → InNode [⟨.other, i⟩] .direct n a → InMember (.ctor params cs) a
  | part {n a} : InNode [⟨.other, 0⟩] .outside n a → InMember (.part n) a

/-- An instance's member of this name is written elsewhere than directly in the constructor. -/
def Modified (E : Env C T) (c : C) (ms : List (Member C T)) (name : String) : Prop :=
  ∃ m ∈ ms, ∃ a, InMember m a ∧ a.name = name ∧ Noticed a.anc ∧ ((E.relation c a.type = .inst ∧ a.place ≠ .direct) ∨ E.relation c a.type = .both)

/-- … directly in the constructor. -/
def CtorModified (E : Env C T) (c : C) (ms : List (Member C T)) (name : String) : Prop :=
  ∃ m ∈ ms, ∃ a, InMember m a ∧ a.name = name ∧ Noticed a.anc ∧ E.relation c a.type = .inst ∧ a.place = .direct

/-- A static member of this name is written anywhere. -/
def StaticModified (E : Env C T) (c : C) (ms : List (Member C T)) (name : String) : Prop :=
  ∃ m ∈ ms, ∃ a, InMember m a ∧ a.name = name ∧ Noticed a.anc ∧ (E.relation c a.type = .cls ∨ E.relation c a.type = .both)

/-! ## Declarations -/

/-- The parameters of the constructors that declare private properties. -/
def parameterProperties : List (Member C T) → List Decl
  | [] => []
  | .ctor ps _ :: ms => ps.filter (·.isPrivate) ++ parameterProperties ms
  | _ :: ms => parameterProperties ms

/-- The properties a class declares. -/
def declared (ms : List (Member C T)) : List Decl := properties ms ++ parameterProperties ms

/-- A property that could be readonly: private, a plain name, not readonly, no accessor; with `onlyInlineLambdas` an arrow function. -/
def Candidate (inlineOnly : Bool) (d : Decl) : Prop :=
  (d.isPrivate = true ∨ d.hash = true) ∧ d.readonlyOrAccessor = false ∧ d.computed = false ∧ d.name ≠ "" ∧ (inlineOnly = true → d.init = .arrow)

/-- Reported for this class: a candidate (the last of its name) that is never written. -/
def Reported (E : Env C T) (c : C) (ms : List (Member C T)) (d : Decl) : Prop :=
  ∃ before after, declared ms = before ++ d :: after ∧ Candidate E.onlyInlineLambdas d ∧
    (∀ e ∈ after, Candidate E.onlyInlineLambdas e → e.isStatic = d.isStatic → e.name ≠ d.name) ∧
    (d.isStatic = false → ¬Modified E c ms d.name) ∧ (d.isStatic = true → ¬StaticModified E c ms d.name)

/-- A class somewhere in the tree, also in other classes. -/
inductive ClassIn : Node C T → C → List (Member C T) → Prop
  | here {c ms} : ClassIn (.cls c ms) c ms
  | access {name t o c ms} : ClassIn o c ms → ClassIn (.access name t o) c ms
  | child {k cs n c ms} : n ∈ cs → ClassIn n c ms → ClassIn (.syn k cs) c ms
  | property {c' ms' d cs n c ms} : .property d cs ∈ ms' → n ∈ cs → ClassIn n c ms → ClassIn (.cls c' ms') c ms
  | ctor {c' ms' ps cs n c ms} : .ctor ps cs ∈ ms' → n ∈ cs → ClassIn n c ms → ClassIn (.cls c' ms') c ms
  | part {c' ms' n c ms} : .part n ∈ ms' → ClassIn n c ms → ClassIn (.cls c' ms') c ms

/-! ## Order -/

open Classical in
/-- The reports of one class: instance members, then static ones, each in the order of declaration. -/
noncomputable def own (E : Env C T) (c : C) (ms : List (Member C T)) : List Report :=
  let maps := (declared ms).foldl (Scope.declare E) ⟨c, -1, [], [], [], [], [], []⟩
  ((maps.members.filter fun p => decide ¬Modified E c ms p.1).map fun p => ⟨p.2, decide (CtorModified E c ms p.2.name)⟩) ++
  ((maps.statics.filter fun p => decide ¬StaticModified E c ms p.1).map fun p => ⟨p.2, decide (CtorModified E c ms p.2.name)⟩)

mutual
/-- All reports: those of a class come before those of the classes in it. -/
noncomputable def expected (E : Env C T) : Node C T → List Report
  | .access _ _ o => expected E o
  | .cls c ms => own E c ms ++ expectedMembers E ms
  | .syn _ cs => expectedAll E cs
noncomputable def expectedAll (E : Env C T) : List (Node C T) → List Report
  | [] => []
  | n :: ns => expected E n ++ expectedAll E ns
noncomputable def expectedMembers (E : Env C T) : List (Member C T) → List Report
  | [] => []
  | .property _ cs :: ms => expectedAll E cs ++ expectedMembers E ms
  | .ctor _ cs :: ms => expectedAll E cs ++ expectedMembers E ms
  | .part n :: ms => expected E n ++ expectedMembers E ms
end

/-! ## Types -/

/-- A base type of a class or interface. -/
inductive Derives (E : Types T) : T → T → Prop
  | refl {t} : Derives E t t
  | step {t b u} : E.classOrInterface t = true → b ∈ E.bases t → Derives E b u → Derives E t u

/-- The type is the class's, or derives from it, by their symbols. -/
def Belongs (E : Types T) (cls t : T) : Prop := ∃ s u, E.symbol cls = some s ∧ Derives E t u ∧ E.symbol u = some s

/-- The relation of a type to a class: an intersection is related as its parts are, a union as its first part is. -/
inductive Relates (E : Types T) (cls : T) : T → Relation → Prop
  | none {t} : E.shape t = .other → ¬(E.symbol t ≠ none ∧ Belongs E cls t) → Relates E cls t .unrelated
  | cls {t} : E.shape t = .other → E.symbol t ≠ none → Belongs E cls t → E.anonymous t = true → Relates E cls t .cls
  | inst {t} : E.shape t = .other → E.symbol t ≠ none → Belongs E cls t → E.anonymous t = false → Relates E cls t .inst
  | empty {t} : E.shape t = .union [] → Relates E cls t .unrelated
  | first {t u us r} : E.shape t = .union (u :: us) → Relates E cls u r → Relates E cls t r
  | parts {t ts r} (rs : List Relation) : E.shape t = .intersection ts → rs.length = ts.length →
      (∀ (i : Nat) u q, ts[i]? = some u → rs[i]? = some q → Relates E cls u q) →
      (r = .both ↔ .cls ∈ rs ∧ .inst ∈ rs) → (r = .cls ↔ .cls ∈ rs ∧ .inst ∉ rs) → (r = .inst ↔ .inst ∈ rs ∧ .cls ∉ rs) → Relates E cls t r

end Tsgolint.PreferReadonly
