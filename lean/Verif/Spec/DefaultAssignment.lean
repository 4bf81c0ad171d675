import Verif.Model.DefaultAssignment
/-! # Specification of no-useless-default-assignment -/
namespace Tsgolint.DefaultAssignment
variable {T V : Type}

/-- A type that shows that it admits `undefined`. -/
def CanBeUndefined (E : Env T) (t : T) : Prop := E.anyOrUnknown t = true ∨ ∃ p ∈ E.parts t, E.isUndefined p = true

/-- The initialiser writes the property in each of its branches. -/
inductive WritesIn (n : String) : Expr → Prop
  | object {ms p} : some p ∈ ms → p.text = some n → WritesIn n (.object ms)
  | cond {a b} : WritesIn n a → WritesIn n b → WritesIn n (.cond a b)
  | paren {e} : WritesIn n e → WritesIn n (.paren e)

mutual
/-- The type of the value a pattern takes apart. -/
inductive Source (E : Env T) : Ctx T → T → Prop
  | init {e t} : Source E (.initialised e t) t
  /-- a parameter's type; positions do not count `this` -/
  | param {s f i q} : s.params[i]? = some q → ¬(s.thisParameter = true ∧ f = true) → Source E (.param (some s) f i) q.type
  | paramThis {s i q} : s.params[i]? = some q → s.thisParameter = true → Source E (.param (some s) true (i + 1)) q.type
  | nested {b t} : Bound E b t → Source E (.nested b) t
/-- The type of what a binding element reads. -/
inductive Bound (E : Env T) : Binding T → T → Prop
  | property {c n d t s k} : Source E c t → n.text = some k → E.property t k = some s → s.optional = false → Bound E (.inObject c n d) s.type
  /-- an optional property, that the initialiser of the declaration writes anyway -/
  | written {e t n d s k} : n.text = some k → E.property t k = some s → s.optional = true → WritesIn k e →
      Bound E (.inObject (.initialised e t) n d) s.type
  | tuple {c i d t args a} : Source E c t → E.tuple t = some args → args[i]? = some a → Bound E (.inArray c i d) a
  | beyond {c i d t args a} : Source E c t → E.tuple t = some args → args.length ≤ i → E.numberIndex t = some a → Bound E (.inArray c i d) a
  | array {c i d t a} : Source E c t → E.tuple t = none → E.numberIndex t = some a → Bound E (.inArray c i d) a
end

/-- The type of what a binding element reads, as far as it counts for a report: an element of an array only in a tuple. -/
inductive Counts (E : Env T) : Binding T → T → Prop
  | property {c n d t} : Bound E (.inObject c n d) t → Counts E (.inObject c n d) t
  | element {c i d t args a} : Source E c t → E.tuple t = some args → args[i]? = some a → Counts E (.inArray c i d) a

/-- The default value is the name `undefined`, maybe in parentheses. -/
inductive IsUndefined : Expr → Prop
  | name : IsUndefined .undefinedName
  | paren {e} : IsUndefined e → IsUndefined (.paren e)

/-- What JavaScript does, as far as destructuring is concerned. -/
structure Runtime (T V : Type) where
  undef : V
  /-- `v.n`, `v[i]` (reading the iterator) -/
  get : V → String → V
  elem : V → Nat → V
  /-- `v` has a property `n` -/
  present : V → String → Prop
  /-- the value of a variable used as key -/
  key : String → String
  /-- the value belongs to the type -/
  has : V → T → Prop
  /-- a tuple type without optional and rest elements -/
  fixed : T → Prop

/-- The property actually read or written. -/
def PropName.actual (R : Runtime T V) : PropName → String → Prop
  | .ident s, n => s = n
  | .literal s, n => s = n
  | .computedIdent s, n => R.key s = n
  | .computedLiteral s, n => s = n
  | .other, _ => True

/-- The values an expression may have: object literals have the properties they write. -/
inductive Evaluates (R : Runtime T V) : Expr → V → Prop
  | object {ms v} : (∀ p, some p ∈ ms → ∀ n, p ≠ .other → p.actual R n → R.present v n) → Evaluates R (.object ms) v
  | condTrue {a b v} : Evaluates R a v → Evaluates R (.cond a b) v
  | condFalse {a b v} : Evaluates R b v → Evaluates R (.cond a b) v
  | paren {e v} : Evaluates R e v → Evaluates R (.paren e) v
  | undef : Evaluates R .undefinedName R.undef
  | other {v} : Evaluates R .other v

mutual
/-- The values that reach a pattern. -/
inductive Receives (E : Env T) (R : Runtime T V) : Ctx T → V → Prop
  | init {e t v} : R.has v t → Evaluates R e v → Receives E R (.initialised e t) v
  | bare {v} : Receives E R .bare v
  | param {s f i t v} : Source E (.param s f i) t → R.has v t → Receives E R (.param s f i) v
  | nested {b w} : Reads E R b w → w ≠ R.undef → Receives E R (.nested b) w
  /-- the default value replaces `undefined` -/
  | default {b d w} : Reads E R b R.undef → b.default = some d → Evaluates R d w → Receives E R (.nested b) w
/-- The values that a binding element reads, before its own default value. -/
inductive Reads (E : Env T) (R : Runtime T V) : Binding T → V → Prop
  | property {c n d v k} : Receives E R c v → n.actual R k → Reads E R (.inObject c n d) (R.get v k)
  | element {c i d v} : Receives E R c v → Reads E R (.inArray c i d) (R.elem v i)
end

/-- The type system tells the truth about values. -/
structure Truthful (E : Env T) (R : Runtime T V) : Prop where
  property : ∀ {t n s v}, E.property t n = some s → R.has v t → s.optional = false ∨ R.present v n → R.has (R.get v n) s.type
  /-- `undefined` has no properties, no tuple type, no index type -/
  noProperty : ∀ {t n s}, E.property t n = some s → ¬R.has R.undef t
  noTuple : ∀ {t a}, E.tuple t = some a → ¬R.has R.undef t
  noIndex : ∀ {t a}, E.numberIndex t = some a → ¬R.has R.undef t
  tuple : ∀ {t args i a v}, E.tuple t = some args → args[i]? = some a → R.fixed t → R.has v t → R.has (R.elem v i) a
  index : ∀ {t a i v}, E.numberIndex t = some a → R.has v t → R.has (R.elem v i) a ∨ R.elem v i = R.undef

/-- The name is not computed from a variable. -/
def PropName.static : PropName → Prop
  | .computedIdent _ => False
  | _ => True

def Expr.static : Expr → Prop
  | .object ms => ∀ p, some p ∈ ms → p.static
  | .cond a b => a.static ∧ b.static
  | .paren e => e.static
  | _ => True

mutual
/-- The situations in which the reasoning of the rule is right: no keys computed from variables; an element of an array (not a
tuple of fixed length) has no default value if it is taken apart further. -/
def Ctx.plain (E : Env T) (R : Runtime T V) : Ctx T → Prop
  | .initialised e _ => e.static
  | .bare => True
  | .param .. => True
  | .nested b => b.plain E R ∧ b.certain E R
def Binding.plain (E : Env T) (R : Runtime T V) : Binding T → Prop
  | .inObject c n _ => c.plain E R ∧ n.static
  | .inArray c _ _ => c.plain E R
def Binding.certain (E : Env T) (R : Runtime T V) : Binding T → Prop
  | .inObject .. => True
  | .inArray c i d => ∀ t, Source E c t → (∃ args, E.tuple t = some args ∧ i < args.length ∧ R.fixed t) ∨ ((∀ args, E.tuple t = some args → args.length ≤ i) ∧ d = none)
end

/-- A reported element of a tuple: the tuple has fixed length. -/
def Binding.fixedTuple (E : Env T) (R : Runtime T V) : Binding T → Prop
  | .inObject .. => True
  | .inArray c _ _ => ∀ t, Source E c t → R.fixed t

end Tsgolint.DefaultAssignment
