import Verif.Model.VoidReturn
/-!
# Model of the listeners of strict-void-return (/repo/internal/rules/strict_void_return/strict_void_return.go, lines 150-157 and 193-361)

Where the rule looks: the nodes it listens to, and which of their parts it checks against which expected type.
-/
namespace Tsgolint.VoidReturn
variable {T N : Type}

/-- How a member's name is written (lines 202-213). -/
inductive Written
  /-- an identifier, private identifier, string, number or bigint (line 203) -/
  | plain (text : String)
  /-- `[e]`; the text, if `e` is an identifier, string, number or bigint (lines 205-212) -/
  | computed (text : Option String)
  | other

/-- A name node, and the name of the symbol the checker has for it (line 198; `none`: no symbol). -/
structure MemberName where
  symbol : Option String
  written : Written

/-- Lines 202-215: the name as written. -/
def Written.text : Written → String
  | .plain s => s
  | .computed (some s) => s
  | .computed none => ""
  | .other => ""

/-- Lines 193-216 `getMemberName`; `none`: there is no name node. -/
def getMemberName : Option MemberName → String
  | none => ""
  | some n => match n.symbol with
    | some s => if s = "" then n.written.text else s
    | none => n.written.text

/-- What the rule asks about members and signatures, besides `Env`. -/
structure Members (T : Type) where
  /-- the type of the property of this name of a type (`getPropertyOfType`, `GetTypeOfSymbolAtLocation`) -/
  property : T → String → Option T
  /-- the types of the parameters of the call signatures of a type -/
  callSignatures : T → List (List T)
  constructSignatures : T → List (List T)

/-- The class (or interface) around a member: the heritage clauses with the types they name (`none`: it has no clauses, or is no class). -/
abbrev Heritage (T : Type) := Option (List (List T))

/-- Lines 238-248: the types of the members of that name in the types of the clauses. -/
def baseTypes (M : Members T) (clauses : List (List T)) (name : String) : List T :=
  clauses.flatMap fun types => types.filterMap fun t => M.property t name

/-- Lines 218-251 `getBaseMemberTypes` -/
def getBaseMemberTypes (M : Members T) (heritage : Heritage T) (name : Option MemberName) : List T :=
  match heritage with
  | none => []
  | some clauses => match name with
    | none => []
    | some n => match n.symbol with
      | none => []
      | some s => baseTypes M clauses s

/-- Lines 254-256: the name is computed. -/
def isComputed : Option MemberName → Bool
  | some ⟨_, .computed _⟩ => true
  | _ => false

/-- Lines 258-270: the property's type, once there is an object type and a name. -/
def expectedProperty (M : Members T) (object : Option T) (name : String) : Option T :=
  match object with
  | none => none
  | some t => if name = "" then none else M.property t name

/-- Lines 253-274 `checkObjectMethodNode`; `object` is the contextual type of the object literal. -/
def checkObjectMethod (E : Env T) (M : Members T) (object : Option T) (name : Option MemberName) (f : Func T N) : List (N × Message) :=
  if isComputed name then [] else if voidContext E (expectedProperty M object (getMemberName name)) then reportIfNonVoid E f else []

/-- An element of an array literal (lines 300-304). -/
inductive Element (T N : Type)
  | missing
  | spread
  | value (s : Site T N)

/-- The initialiser of a JSX attribute (lines 323-332). -/
inductive Attribute (T N : Type)
  | absent
  /-- not in braces -/
  | text
  /-- `{}` -/
  | empty
  | omitted
  | value (s : Site T N)

/-- The nodes the rule listens to. -/
inductive Place (T N : Type)
  | array (elements : List (Element T N))
  /-- an arrow function; `block`: the body is one -/
  | arrow (block : Bool) (body : Option (Site T N))
  /-- a binary expression; whether its operator assigns (`=`, `+=`, `??=`, …) -/
  | binary (assigns : Bool) (right : Site T N)
  /-- a call or `new` of a value of this type; `none`: a spread argument -/
  | call (isCall : Bool) (callee : T) (args : List (Option (Site T N)))
  | jsxAttribute (value : Attribute T N)
  /-- a method of an object literal with this contextual type -/
  | objectMethod (object : Option T) (name : Option MemberName) (f : Func T N)
  /-- any other method -/
  | classMethod (heritage : Heritage T) (name : Option MemberName) (hasBody : Bool) (f : Func T N)
  | classProperty (heritage : Heritage T) (name : Option MemberName) (init : Option (Site T N))
  | propertyAssignment (value : Site T N)
  | shorthand (name : Site T N)
  | returned (value : Option (Site T N))
  | variableDeclaration (init : Option (Site T N))
  | elsewhere

/-- Lines 300-304: one element. -/
def checkElement (E : Env T) : Element T N → List (N × Message)
  | .value s => checkExpression E s
  | _ => []

/-- Lines 150-191: a call or `new`. -/
def checkCall (E : Env T) (M : Members T) (isCall : Bool) (callee : T) (args : List (Option (Site T N))) : List (N × Message) :=
  checkArguments E ((E.parts callee).flatMap fun p => if isCall then M.callSignatures p else M.constructSignatures p) 0 args

/-- Lines 141-148 on a node that may be missing. -/
def checkOptional (E : Env T) : Option (Site T N) → List (N × Message)
  | some s => checkExpression E s
  | none => []

/-- Lines 323-332 -/
def checkAttribute (E : Env T) : Attribute T N → List (N × Message)
  | .value s => checkExpression E s
  | _ => []

/-- Lines 298-359: the listeners. -/
def listen (E : Env T) (M : Members T) : Place T N → List (N × Message)
  | .array es => es.flatMap (checkElement E)
  | .arrow block body => if block then [] else checkOptional E body
  | .binary assigns right => if assigns then checkExpression E right else []
  | .call isCall callee args => checkCall E M isCall callee args
  | .jsxAttribute v => checkAttribute E v
  | .objectMethod object name f => checkObjectMethod E M object name f
  | .classMethod h name hasBody f => checkMethod E hasBody (getBaseMemberTypes M h name) f
  | .classProperty h name init => checkProperty E (getBaseMemberTypes M h name) init
  | .propertyAssignment v => checkExpression E v
  | .shorthand v => checkExpression E v
  | .returned v => checkOptional E v
  | .variableDeclaration v => checkOptional E v
  | .elsewhere => []

end Tsgolint.VoidReturn
