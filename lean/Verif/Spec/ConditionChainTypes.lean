import Verif.Spec.ConditionChain
/-!
# Which types `?.` is judged by
-/
namespace Tsgolint.Condition

/-- The first part of a type that is not nullish -/
def FirstPart (b u : Ty) : Prop :=
  ∃ pre post, parts b = pre ++ u :: post ∧ (∀ p ∈ pre, nullish p = true) ∧ nullish u = false

/-- A `?.` somewhere in the chain -/
def SomeOptional (e : Node) : Prop :=
  ∃ x, Spine x e ∧ ((∃ s b name, x = .property s b name true) ∨ (∃ s b key, x = .element s b key true) ∨ ∃ s b, x = .call s b true)

/-- Neither the type nor its apparent type has the property -/
def NoProperty (T : Types) (b : Ty) (name : String) : Prop :=
  T.property b name = none ∧ ∀ a, T.apparent b = some a → T.property a name = none

/-- Neither has an index signature for strings -/
def NoStringIndex (T : Types) (b : Ty) : Prop :=
  T.stringIndex b = none ∧ ∀ a, T.apparent b = some a → T.stringIndex a = none

/-- The type of the property `name` of a value of type `b`, where `whole` is `….name` -/
inductive PropertyType (T : Types) (b : Ty) (whole : Node) (name : String) : Ty → Prop
  /-- a name without text -/
  | nameless (t : Ty) : name = "" → T.at whole = some t → PropertyType T b whole name t
  | own (t : Ty) : name ≠ "" → T.property b name = some t → PropertyType T b whole name t
  | apparent (a t : Ty) : name ≠ "" → T.property b name = none → T.apparent b = some a → T.property a name = some t → PropertyType T b whole name t
  /-- not with `noUncheckedIndexedAccess` -/
  | index (t : Ty) : name ≠ "" → NoProperty T b name → T.stringIndex b = some t → T.noUnchecked = false → PropertyType T b whole name t
  | apparentIndex (a t : Ty) : name ≠ "" → NoProperty T b name → T.stringIndex b = none → T.apparent b = some a → T.stringIndex a = some t →
      T.noUnchecked = false → PropertyType T b whole name t
  /-- a member that is not optional -/
  | mapped (t : Ty) : name ≠ "" → NoProperty T b name → NoStringIndex T b → T.mapped b = true → T.member b name = some (false, t) → PropertyType T b whole name t
  | location (t : Ty) : name ≠ "" → NoProperty T b name → NoStringIndex T b → T.mapped b = false → T.at whole = some t → PropertyType T b whole name t

/-- The type of a call, from the type of what is called: that of the first signature -/
inductive CalleeType (T : Types) (whole : Node) (f : Ty) : Ty → Prop
  | first (t : Ty) : (∀ ts, f = .union ts → ∀ p ∈ ts, ∀ r, (T.signatures p).head? = some r → nullish r = false) → (T.signatures f).head? = some t → CalleeType T whole f t
  | location (ts : List Ty) (p r t : Ty) : f = .union ts → p ∈ ts → (T.signatures p).head? = some r → nullish r = true → T.at whole = some t → CalleeType T whole f t

/-- The type of the call `whole` of `e` -/
inductive CallType (T : Types) (whole e : Node) : Ty → Prop
  /-- no `?.` in it -/
  | own (t : Ty) : ¬ SomeOptional whole → T.resolved whole = some t → CallType T whole e t
  /-- else that of the signature, without what `?.` adds -/
  | signature (t : Ty) : (SomeOptional whole ∨ T.resolved whole = none) → T.signature whole = some t → CallType T whole e t
  | callee (f g t : Ty) : (SomeOptional whole ∨ T.resolved whole = none) → T.signature whole = none → T.resolved e = some f → FirstPart f g →
      CalleeType T whole g t → CallType T whole e t

/-- The type of `e?.name` if `e` is not nullish and of type `b` -/
inductive ChainedType (T : Types) (b : Ty) (whole : Node) (name : String) : Ty → Prop
  | property (u t : Ty) : FirstPart b u → PropertyType T u whole name t → ChainedType T b whole name t
  /-- nothing known about the property: the type at the location; a mapped type without `?` adds no `undefined` -/
  | mapped (u t : Ty) : (∀ v w, FirstPart b v → ¬ PropertyType T v whole name w) → T.at whole = some u → T.noUnchecked = false → T.mapped b = true →
      T.mappedOptional b = false → FirstPart u t → ChainedType T b whole name t
  | location (t : Ty) : (∀ v w, FirstPart b v → ¬ PropertyType T v whole name w) → T.at whole = some t →
      (T.noUnchecked = true ∨ T.mapped b = false ∨ T.mappedOptional b = true) → ChainedType T b whole name t

/-- The type of a call as an operand -/
inductive CallOperand (T : Types) (whole e : Node) : Ty → Prop
  | call (t : Ty) : CallType T whole e t → CallOperand T whole e t
  | location (t : Ty) : (∀ u, ¬ CallType T whole e u) → T.resolved whole = some t → CallOperand T whole e t

/-- The type of `c().name`, `c()[k]` -/
inductive CallAccess (T : Types) (call c access : Node) : Ty → Prop
  | property (s : Nat) (name : String) (o : Bool) (r b u t : Ty) : access = .property s call name o →
      (CallType T call c r ∨ ((∀ x, ¬ CallType T call c x) ∧ T.at call = some r)) → FirstPart r b → FirstPart b u →
      PropertyType T u access name t → CallAccess T call c access t
  | element (s : Nat) (key : Option Key) (o : Bool) (r b t : Ty) : access = .element s call key o →
      (CallType T call c r ∨ ((∀ x, ¬ CallType T call c x) ∧ T.at call = some r)) → FirstPart r b →
      T.at access = some t → CallAccess T call c access t

/-- What an operand without literal keys is judged by -/
inductive OperandType (T : Types) : Node → Ty → Prop
  | other (e : Node) (t : Ty) : (∀ s b name o, e ≠ .property s b name o) → (∀ s b key o, e ≠ .element s b key o) → (∀ s b o, e ≠ .call s b o) →
      T.resolved e = some t → OperandType T e t
  | chained (s : Nat) (e : Node) (name : String) (f b t : Ty) : T.resolved e = some f → FirstPart f b → ChainedType T b (.property s e name true) name t →
      OperandType T (.property s e name true) t
  | chainedCall (s : Nat) (e : Node) (f b t : Ty) : T.resolved e = some f → FirstPart f b → CallOperand T (.call s e true) e t → OperandType T (.call s e true) t
  | call (s : Nat) (e : Node) (t : Ty) : CallOperand T (.call s e false) e t → OperandType T (.call s e false) t
  | property (s : Nat) (e : Node) (name : String) (t : Ty) : (∀ s' c o, e ≠ .call s' c o) → T.resolved (.property s e name false) = some t →
      OperandType T (.property s e name false) t
  | element (s : Nat) (e : Node) (key : Option Key) (t : Ty) : (∀ s' c o, e ≠ .call s' c o) → T.resolved (.element s e key false) = some t →
      OperandType T (.element s e key false) t
  | propertyOfCall (s s' : Nat) (c : Node) (o : Bool) (name : String) (t : Ty) :
      CallAccess T (.call s' c o) c (.property s (.call s' c o) name false) t → OperandType T (.property s (.call s' c o) name false) t
  | elementOfCall (s s' : Nat) (c : Node) (o : Bool) (key : Option Key) (t : Ty) :
      CallAccess T (.call s' c o) c (.element s (.call s' c o) key false) t → OperandType T (.element s (.call s' c o) key false) t

/-- `name` is nullish itself in the part `p` of the type of the object -/
def OwnNullish (T : Types) (name : String) (p : Ty) : Prop :=
  nullish p = false ∧ name ≠ "" ∧ ((∃ t, T.property p name = some t ∧ nullish t = true) ∨
    (T.property p name = none ∧ ∃ i ∈ T.indexInfos p, i.1 = "string" ∧ (T.noUnchecked = true ∨ nullish i.2 = true)))

/-- The chain is nullish only because what is before its last link is: the type of that is a union with a nullish part, and the link itself gives nothing nullish in any part -/
inductive FromBefore (T : Types) : Node → Prop
  | property (s : Nat) (e : Node) (name : String) (o : Bool) (ts : List Ty) : T.resolved e = some (.union ts) → (∃ t ∈ ts, nullish t = true) →
      (∀ t ∈ ts, ¬ OwnNullish T name t) → FromBefore T (.property s e name o)
  | element (s : Nat) (e : Node) (k : Key) (o : Bool) (ts : List Ty) : T.resolved e = some (.union ts) → (∃ t ∈ ts, nullish t = true) →
      (∀ t ∈ ts, nullish t = false → ∀ kt, T.checker.resolved (T.keyType k.id) = some kt → T.nullableProperty t kt = false) → FromBefore T (.element s e (some k) o)
  | call (s : Nat) (e : Node) (o : Bool) (ts : List Ty) : T.resolved e = some (.union ts) → (∃ t ∈ ts, nullish t = true) →
      (∀ t ∈ ts, ∀ r ∈ T.signatures t, nullish r = false) → FromBefore T (.call s e o)

/-- `?.` after `e` is needed, or not known not to be: the type has an open part; or it is nullish, and not only because of what is before -/
def Optionable (T : Types) (e : Node) : Prop :=
  ∃ t, T.resolved e = some t ∧ (¬ NoOpen t ∨ (nullish t = true ∧ ¬ FromBefore T e.skip))

/-- A function that may be called returns something nullish by its first signature -/
def SomeReturn (T : Types) (e : Node) : Prop :=
  ∃ s c o f, e = .call s c o ∧ T.resolved c = some f ∧ ∃ p ∈ parts f, (p ≠ .null ∧ p ≠ .undefined ∧ p ≠ .void) ∧ ∃ r, (T.signatures p).head? = some r ∧ nullish r = true

/-- The type the report is about: of a call of what may be nullish, the first part that is not nullish -/
inductive Final (T : Types) (e : Node) : Ty → Prop
  | same (t : Ty) : OperandType T e t → ¬ (FromBefore T e ∧ e.isCall = true) → Final T e t
  | call (u t : Ty) : OperandType T e u → FromBefore T e → e.isCall = true → FirstPart u t → Final T e t

/-- The strings a key may be -/
def KeysOf (kt : Ty) (keys : List String) : Prop := (∃ s, kt = .stringLit s ∧ keys = [s]) ∨ kt = .union (keys.map .stringLit)

/-- The types of the properties of `b` that a key leads to: the key is one of some strings, all of them properties that are not nullish -/
def Literals (T : Types) (b : Ty) (key : Option Key) (ps : List Ty) : Prop :=
  ∃ k kt keys, key = some k ∧ T.keyType k.id = some kt ∧ KeysOf kt keys ∧ keys.map (T.property b) = ps.map some ∧ ps ≠ [] ∧ ∀ p ∈ ps, nullish p = false

/-- The type an operand is judged by, and the names of types in the report -/
inductive JudgedBy (T : Types) : Node → Ty → List String → Prop
  | plain (e : Node) (t : Ty) : (∀ s b key, e ≠ .element s b key true) → Final T e t → JudgedBy T e t []
  | literals (s : Nat) (e : Node) (key : Option Key) (f b p : Ty) (ps : List Ty) : T.resolved e = some f → FirstPart f b → Literals T b key (p :: ps) →
      JudgedBy T (.element s e key true) p (addNames [] ((p :: ps).map T.display))
  | element (s : Nat) (e : Node) (key : Option Key) (f b t : Ty) : T.resolved e = some f → FirstPart f b → (∀ ps, ¬ Literals T b key ps) →
      T.at (.element s e key true) = some t → JudgedBy T (.element s e key true) t []

end Tsgolint.Condition
