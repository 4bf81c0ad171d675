import Verif.Model.TypeConversion
/-! # What no-unnecessary-type-conversion promises -/
namespace Tsgolint.TypeConversion
variable {T : Type}

/-- JavaScript values, as far as conversions are concerned. -/
inductive Val
  | str (s : String)
  /-- an integral number other than -0 -/
  | int (n : Int)
  /-- any other number -/
  | num (code : Nat)
  | bool (b : Bool)
  | bigint (n : Int)
  | other (code : Nat)
deriving DecidableEq, Repr

/-- What JavaScript does with the values for which we need not know. -/
structure Js where
  toStr : Val → String
  toNum : Val → Val
  toBool : Val → Bool
  toBigInt : Val → Val
  toInt32 : Val → Int

/-- `ToInt32` of an integer: the remainder modulo 2³² in [-2³¹, 2³¹). -/
def wrap (n : Int) : Int := (n + 2 ^ 31) % 2 ^ 32 - 2 ^ 31

def Js.string (J : Js) : Val → String
  | .str s => s
  | v => J.toStr v

def Js.number (J : Js) : Val → Val
  | .int n => .int n
  | .num c => .num c
  | v => J.toNum v

def Js.boolean (J : Js) : Val → Bool
  | .bool b => b
  | v => J.toBool v

def Js.bigInt (J : Js) : Val → Val
  | .bigint n => .bigint n
  | v => J.toBigInt v

def Js.int32 (J : Js) : Val → Int
  | .int n => wrap n
  | v => J.toInt32 v

/-- `~n` -/
def bitNot (n : Int) : Int := -n - 1

/-- The conversions. -/
inductive Conversion
  | appendEmpty
  | prependEmpty
  | stringCall
  | toStringCall
  | numberCall
  | unaryPlus
  | booleanCall
  | doubleBang
  | bigintCall
  | doubleTilde
deriving DecidableEq, Repr

/-- What a conversion makes of a value. -/
def Js.eval (J : Js) : Conversion → Val → Val
  | .appendEmpty, v => .str (J.string v ++ "")
  | .prependEmpty, v => .str ("" ++ J.string v)
  | .stringCall, v => .str (J.string v)
  | .toStringCall, v => .str (J.string v)
  | .numberCall, v => J.number v
  | .unaryPlus, v => J.number v
  | .booleanCall, v => .bool (J.boolean v)
  | .doubleBang, v => .bool (!(!(J.boolean v)))
  | .bigintCall, v => J.bigInt v
  | .doubleTilde, v => .int (bitNot (wrap (bitNot (J.int32 v))))

/-- The conversion an expression makes, and the type of what it converts. -/
inductive Converts : Expr T → Conversion → T → Prop
  | appendEmpty {l r} : r.empty = true → Converts (.plus l r) .appendEmpty l.type
  | prependEmpty {l r} : l.empty = true → r.empty = false → Converts (.plus l r) .prependEmpty r.type
  | plusEquals {l r} : r.empty = true → Converts (.plusEquals true l r) .appendEmpty l.type
  | string {t} : Converts (.call "String" true [(false, t)]) .stringCall t
  | number {t} : Converts (.call "Number" true [(false, t)]) .numberCall t
  | boolean {t} : Converts (.call "Boolean" true [(false, t)]) .booleanCall t
  | bigint {t} : Converts (.call "BigInt" true [(false, t)]) .bigintCall t
  | toString {t} : Converts (.method t "toString" 0) .toStringCall t
  | plus {t parent} : Converts (.unary .plus t parent) .unaryPlus t
  | bang {t} : Converts (.unary .bang t (some .bang)) .doubleBang t
  | tilde {t} : Converts (.unary .tilde t (some .tilde)) .doubleTilde t

/-- The primitive type a conversion yields. -/
def Conversion.prim : Conversion → Prim
  | .appendEmpty | .prependEmpty | .stringCall | .toStringCall => .string
  | .numberCall | .unaryPlus | .doubleTilde => .number
  | .booleanCall | .doubleBang => .boolean
  | .bigintCall => .bigint

/-- Every part of the type is already of that primitive type; for `~~` every part is a number literal without fraction; enums are exempt from `toString`. -/
inductive Already (E : Env T) : Conversion → T → Prop
  | flag {c t} : c ≠ .doubleTilde → c ≠ .toStringCall → (∀ p ∈ E.parts t, E.like c.prim p = true) → Already E c t
  | toString {t} : E.enum t = false → (∀ p ∈ E.parts t, E.like .string p = true) → Already E .toStringCall t
  | tilde {t} : E.parts t ≠ [] → (∀ p ∈ E.parts t, (∃ n, E.literal p = some (some (.int n))) ∨ E.literal p = some (some .infinite)) → Already E .doubleTilde t

/-- The type checker's types describe the values: a value of a type is of one of its parts, and the flags of a part say what the value is. -/
structure Sound (E : Env T) (has : Val → T → Prop) : Prop where
  part : ∀ v t, has v t → ∃ p ∈ E.parts t, has v p
  string : ∀ v t, has v t → E.like .string t = true → ∃ s, v = .str s
  number : ∀ v t, has v t → E.like .number t = true → (∃ n, v = .int n) ∨ ∃ c, v = .num c
  boolean : ∀ v t, has v t → E.like .boolean t = true → ∃ b, v = .bool b
  bigint : ∀ v t, has v t → E.like .bigint t = true → ∃ n, v = .bigint n
  literal : ∀ v t n, has v t → E.literal t = some (some (.int n)) → v = .int n

/-- All integer literals of the type fit into 32 bits, and none is infinite. -/
def Fits32 (E : Env T) (t : T) : Prop := ∀ p ∈ E.parts t, E.literal p ≠ some (some .infinite) ∧ ∀ n, E.literal p = some (some (.int n)) → -2 ^ 31 ≤ n ∧ n < 2 ^ 31

end Tsgolint.TypeConversion
