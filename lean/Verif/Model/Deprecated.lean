/-!
# Model of no-deprecated
(/repo/internal/rules/no_deprecated/no_deprecated.go)

Symbols `S`, declarations `D` and types `T` are given, and what the checker says of them.
-/
namespace Tsgolint.Deprecated

/-- A tag in a JSDoc comment -/
inductive Tag
  /-- `@deprecated`, and the parts of its comment -/
  | deprecated (comment : List String)
  | other
  deriving DecidableEq

/-- What the checker says -/
structure Checker (S D T : Type) where
  /-- it has the flag `Alias` -/
  isAlias : S → Bool
  declarations : S → List D
  /-- `Checker_IsDeprecatedDeclaration` -/
  deprecated : D → Bool
  /-- `decl.JSDoc`: the tags of each comment -/
  docs : D → List (List Tag)
  /-- `GetAliasedSymbol` -/
  aliased : S → Option S
  /-- `Checker_getDeclarationOfAliasSymbol` is not nil -/
  declared : S → Bool
  /-- `Checker_getImmediateAliasedSymbol` -/
  immediate : S → Option S
  /-- `Checker_getPropertyOfType` -/
  property : T → String → Option S
  /-- `GetTypeOfSymbolAtLocation` (which place is asked for is left out) -/
  typeOf : S → T
  /-- the declaration is a method, a function or a method signature -/
  functionLike : D → Bool
  /-- `Checker_GetShorthandAssignmentValueSymbol` of the value declaration, if there is one -/
  shorthandValue : S → Option S
  /-- `Checker_isDeprecatedSymbol` -/
  deprecatedSymbol : S → Bool

section
variable {S D T : Type} [DecidableEq S] (E : Checker S D T)

/-- Lines 112-124: the first `@deprecated` in one comment, and the texts of its comment (none: an empty list) -/
def firstTag : List Tag → Option (List String)
  | [] => none
  | .deprecated c :: _ => some c
  | .other :: tags => firstTag tags

/-- Lines 101-127 `getJsDocDeprecationFromNode` -/
def reasonIn : List (List Tag) → String
  | [] => ""
  | tags :: docs => match firstTag tags with
    | some comment => String.join comment
    | none => reasonIn docs

/-- Lines 134-141: over the declarations; `none` is `false, ""`, otherwise the reason -/
def firstDeprecated : List D → Option String
  | [] => none
  | d :: ds => if E.deprecated d then some (reasonIn (E.docs d)) else firstDeprecated ds

/-- Lines 129-142 `getJsDocDeprecation` -/
def ofSymbol : Option S → Option String
  | none => none
  | some s => firstDeprecated E (E.declarations s)

/-- Lines 161-183: the loop over aliases; the outer `none` is out of fuel -/
def aliasLoop (check : Bool) (target : Option S) : Nat → S → Option (Option String)
  | 0, _ => none
  | n + 1, s =>
    if !E.isAlias s then some none
    else match ofSymbol E (some s) with
      | some r => some (some r)
      | none =>
        if !E.declared s then some none
        else match E.immediate s with
          | none => some none
          | some s' => if check && decide (some s' = target) then some (ofSymbol E (some s')) else aliasLoop check target n s'

/-- Lines 144-184 `searchForDeprecationInAliasesChain` -/
def search (fuel : Nat) (check : Bool) : Option S → Option (Option String)
  | none => some none
  | some s =>
    if !E.isAlias s then some (if check then ofSymbol E (some s) else none)
    else aliasLoop E check (E.aliased s) fuel s

/-- Lines 213-216: the symbol at the end -/
def resolved (s : S) : Option S := if E.isAlias s then E.aliased s else some s

/-- Lines 218-227: its first declaration is a method, function or method signature -/
def isFunction (s : S) : Bool := ((resolved E s).bind fun r => (E.declarations r).head?).any E.functionLike

/-- Lines 187-248 `getCallLikeDeprecation`; `signature`: the resolved signature, if there is one, and its declaration -/
def call (fuel : Nat) (signature : Option (Option D)) (symbol : Option S) : Option (Option String) :=
  match signature with
  | none => some none
  | some declaration =>
    if declaration.any E.deprecated then some (declaration.map fun d => reasonIn (E.docs d))
    else match symbol with
      | none => some none
      | some s =>
        if !isFunction E s then search E fuel true (some s)
        else (search E fuel false (some s)).map fun
          | some r => some r
          | none => if declaration.isNone then ofSymbol E (resolved E s) else none

/-! ### Destructuring -/

/-- The property name of a binding element -/
inductive Key
  | missing
  | computed
  | named (text : String)
  deriving DecidableEq

/-- Where a binding pattern is -/
inductive Place (T : Type)
  /-- of a variable; the type of the initializer -/
  | variable (initializer : Option T)
  | parameter (type : T)
  /-- in an element of another pattern (`array`: `[…]`), which is at `up` -/
  | element (array : Bool) (key : Key) (up : Place T)
  | other

/-- Lines 436-448: of `[…]`, the first element's type if there is one -/
def first (t : T) : T := ((E.property t "0").map E.typeOf).getD t

/-- Lines 372-460 `getBindingPatternSourceType` of a pattern `{…}` at the place -/
def source : Place T → Option T
  | .variable t => t
  | .parameter t => some t
  | .element array key up => (source up).bind fun t => match key with
    | .named n => if n = "" then none else (E.property (if array then first E t else t) n).map E.typeOf
    | _ => none
  | .other => none

/-- What an identifier in a binding element is to it.  The rule does not distinguish these. -/
inductive Role
  | key
  | name
  | initializer
  deriving DecidableEq

/-- An identifier whose parent is a binding element -/
structure Binding (T : Type) where
  role : Role
  /-- of the element -/
  key : Key
  /-- the element is in `[…]` -/
  array : Bool
  /-- of the pattern -/
  place : Place T
  /-- `GetTypeAtLocation` of the pattern -/
  patternType : Option T

/-- Lines 486-493: the type of what is taken apart -/
def Binding.source (b : Binding T) : Option T :=
  match (Deprecated.source E b.place).map (fun t => if b.array then first E t else t) with
  | some t => some t
  | none => b.patternType

/-- The first that is found -/
def orElse (a : Option (Option String)) (b : Option (Option String)) : Option (Option String) :=
  a.bind fun
    | some r => some (some r)
    | none => b

/-- Lines 505-533, 542-570: the symbol's aliases, the property, the symbol, the value of the shorthand -/
def propertyUse (fuel : Nat) (symbol property : Option S) : Option (Option String) :=
  orElse (search E fuel true symbol) (orElse (some (ofSymbol E property)) (orElse (some (ofSymbol E symbol)) (some (ofSymbol E (symbol.bind E.shorthandValue)))))

/-- What an identifier's parent is, as far as `getDeprecationReason` goes -/
inductive Use (S D T : Type)
  /-- the callee of a call, `new`, a template or an opening JSX element (`getCallLikeNode`), its signature, and the symbol of the callee -/
  | call (signature : Option (Option D)) (symbol : Option S)
  /-- the name of a JSX attribute; the property of the element's type -/
  | attribute (property : Option S)
  | binding (b : Binding T)
  /-- `{ x }`; the type of the object literal -/
  | shorthand (type : Option T)
  | other

/-- Lines 463-579 `getDeprecationReason`; the symbol at the identifier, and its text -/
def deprecation (fuel : Nat) (use : Use S D T) (symbol : Option S) (text : String) : Option (Option String) :=
  match use with
  | .call signature callee => call E fuel signature callee
  | .attribute property => some (ofSymbol E property)
  | .binding b => match b.source E with
    | none => search E fuel true symbol
    | some t => match b.key with
      | .computed => some none
      | .named n => orElse (propertyUse E fuel symbol (E.property t n)) (search E fuel true symbol)
      | .missing => orElse (propertyUse E fuel symbol (E.property t text)) (search E fuel true symbol)
  | .shorthand type => match type with
    | none => search E fuel true symbol
    | some t => orElse (propertyUse E fuel symbol (E.property t text)) (search E fuel true symbol)
  | .other => search E fuel true symbol

end

/-! ### Messages -/

/-- Lines 13-25, 714-718: what is reported of a name with a reason; `trim` is `strings.TrimSpace` -/
def message (trim : String → String) (name reason : String) : String × String :=
  if reason = "" then ("deprecated", "`" ++ name ++ "` is deprecated.")
  else ("deprecatedWithReason", "`" ++ name ++ "` is deprecated. " ++ trim reason)

/-- Lines 27-32 `formatPropertyNameForReport` -/
def shownName (name : String) : String := if name = "" then "\"\"" else name

/-- The name of a property in an object literal -/
inductive PropertyName
  /-- an identifier, a private one, or a literal -/
  | plain (text : String)
  /-- `[…]` around a literal -/
  | computedLiteral (text : String)
  /-- `[…]` around something of a literal type, or not -/
  | computed (value : Option String)
  | other

/-- Lines 281-320 `getObjectLiteralPropertyName` -/
def PropertyName.text : PropertyName → Option String
  | .plain s => some s
  | .computedLiteral s => some s
  | .computed v => v
  | .other => none

/-! ### Where identifiers are -/

/-- What a node is to its parent -/
inductive Link
  /-- the name in `object.name` -/
  | accessName
  /-- what is called in a call, a `new`, a tagged template, or the name of an opening JSX element -/
  | callee
  | other
  deriving DecidableEq

/-- Lines 34-83 `getCallLikeNode`: how many levels up the callee is; `up`: the node to its parent, that to its parent, … -/
def callLike : List Link → Option Nat
  | .accessName :: up => (callLike up).map (· + 1)
  | .callee :: _ => some 0
  | _ => none

/-- Kinds of nodes that `isInsideImport` and `getCallLikeNode` distinguish -/
inductive Kind
  | importDeclaration
  | sourceFile
  | block
  | functionDeclaration
  | classDeclaration
  | other
  deriving DecidableEq

/-- Lines 674-691 `isInsideImport`: the node and its parents -/
def insideImport : List Kind → Bool
  | [] => false
  | .importDeclaration :: _ => true
  | k :: up => if k = .other then insideImport up else false

/-- Parents of an identifier that `isDeclaration` distinguishes -/
inductive Parent
  /-- a binding element in `[…]` -/
  | arrayElement
  /-- a class, a variable, an enum member, a method, a property, an accessor, `import x = …`: has a name, and other parts -/
  | named
  /-- a property `key: value` in an object literal -/
  | objectProperty
  /-- a function, an enum, an interface, a module, a signature, a type alias, a type parameter, a parameter -/
  | whole
  | other
  deriving DecidableEq

/-- Lines 591-661 `isDeclaration`; `isName`: the identifier is the parent's name; `isValue`: the value of the property -/
def isDeclaration (p : Parent) (isName isValue : Bool) : Bool :=
  match p with
  | .arrayElement => isName
  | .named => isName
  | .objectProperty => !isValue
  | .whole => true
  | .other => false

/-- What comes first in an identifier's listener (lines 785-851) -/
inductive Export
  | none
  /-- the parent is a closing JSX element, an export declaration or `export * as x` -/
  | skipped
  /-- in `export { propertyName as name }`; `tags`: those of the specifier -/
  | specifier (isPropertyName : Bool) (tags : List (List Tag))

/-- Line 836 `ast.IsJSDocDeprecatedTag` -/
def Tag.isDeprecated : Tag → Bool
  | .deprecated _ => true
  | .other => false

/-- Lines 785-851: the listener returns early -/
def Export.skips : Export → Bool
  | .none => false
  | .skipped => true
  | .specifier isPropertyName tags => isPropertyName || tags.any (·.any Tag.isDeprecated)

/-- An identifier -/
structure Identifier (S D T : Type) where
  isExport : Export
  parent : Parent
  isName : Bool
  isValue : Bool
  up : List Kind
  use : Use S D T
  symbol : Option S
  text : String
  /-- by its type or value (lines 704-711) -/
  allowed : Bool

/-- Lines 693-719 and 785-854: the reason in the report; `none`: out of fuel; `some none`: no report -/
def check {S D T : Type} [DecidableEq S] (E : Checker S D T) (fuel : Nat) (i : Identifier S D T) : Option (Option String) :=
  if i.isExport.skips then some none
  else if isDeclaration i.parent i.isName i.isValue || insideImport i.up then some none
  else (deprecation E fuel i.use i.symbol i.text).map fun r => if i.allowed then none else r

/-- Lines 722-782 `checkElementAccessExpression`: `object[key]`; the name by the type of the key, if that is a literal, and the type of the object -/
def checkElement {S D T : Type} [DecidableEq S] (E : Checker S D T) (key : Option String) (object : T) (allowed : Bool) : Option String :=
  key.bind fun k => (ofSymbol E (E.property object k)).bind fun r => if allowed then none else some r

/-- Lines 322-367 `checkObjectLiteralPropertyDeprecation`: a property in an object literal; its name and the contextual type, if they are known -/
def checkProperty {S D T : Type} [DecidableEq S] (E : Checker S D T) (name : Option String) (type : Option T) (allowed : Bool) : Option String :=
  name.bind fun n => type.bind fun t => (E.property t n).bind fun p =>
    if !E.deprecatedSymbol p then none
    else (ofSymbol E (some p)).bind fun r => if allowed then none else some r

end Tsgolint.Deprecated
