/-!
# Model of no-unnecessary-type-assertion: non-null assertions `x!`
(/repo/internal/rules/no_unnecessary_type_assertion/no_unnecessary_type_assertion.go, and `GetContextualType`, `GetDeclaration`,
`GetConstrainedTypeAtLocation` of /repo/internal/utils/ts_eslint.go)

Nodes (`N`) and types (`T`) are the compiler's.
-/
namespace Tsgolint.NonNull
variable {N T : Type}

/-- The bits of `Type_flags` the rule looks at -/
structure Flags where
  any : Bool
  unknown : Bool
  undefined : Bool
  null : Bool
  void : Bool

/-- `|=` -/
def Flags.or (a b : Flags) : Flags := ⟨a.any || b.any, a.unknown || b.unknown, a.undefined || b.undefined, a.null || b.null, a.void || b.void⟩

def Flags.zero : Flags := ⟨false, false, false, false, false⟩

/-- Parents that `GetContextualType` distinguishes -/
inductive Parent (N T : Type)
  | callOrNew (callee : N)
  /-- variables, properties, parameters; with the type written there -/
  | declaration (type : Option T)
  /-- `contextual`: of the expression container -/
  | jsxExpression (contextual : Option T)
  /-- `name: value` and shorthands -/
  | property
  /-- `=` -/
  | assignment (left right : N)
  | templateSpan
  | other

/-- A declaration -/
inductive Declaration (N T : Type)
  /-- `var`: it is in a list of declarations with no flags (`var`); `scopes`: the block scopes around it, from the inside;
  `typed`: it has no initial value, no `!`, and this type; `ambient`: in a statement with `declare` -/
  | binding (var : Bool) (scopes : List N) (typed : Option T) (ambient : Bool)
  | other

/-- What is asked about types -/
structure Types (T : Type) where
  parts : T → List T
  flags : T → Flags
  /-- `Checker_IsNullableType` -/
  nullable : T → Bool
  baseConstraint : T → Option T
  strictNullChecks : Bool

/-- A node, and what is asked about it -/
structure Node (N T : Type) where
  node : N
  identifier : Bool
  parent : Parent N T
  type : T
  /-- `Checker_getContextualType` -/
  contextual : Option T
  /-- the first declaration of its symbol -/
  declaration : Option (Declaration N T)
  /-- the innermost block scope around it -/
  scope : Option N

/-- /repo/internal/utils/ts_eslint.go:82-91 `GetConstrainedTypeAtLocation` -/
def Types.constrained (E : Types T) (t : T) : T := (E.baseConstraint t).getD t

/-- Lines 449-459 `isNullableForNonNullAssertion` -/
def Types.nullish (E : Types T) (t : T) : Bool :=
  if E.nullable t then true
  else (E.parts t).any fun p => (E.flags p).any || (E.flags p).unknown || (E.flags p).void

/-- Lines 1198-1201, 1205-1208 -/
def Types.allFlags (E : Types T) (t : T) : Flags := (E.parts t).foldl (fun f p => f.or (E.flags p)) .zero

variable [DecidableEq N] [DecidableEq T]

/-- /repo/internal/utils/ts_eslint.go:399-428 `GetContextualType`; `typeAt` is `GetTypeAtLocation` -/
def contextualType (typeAt : N → T) (n : Node N T) : Option T :=
  match n.parent with
  | .callOrNew callee => if n.node = callee then none else n.contextual
  | .declaration type => type
  | .jsxExpression c => c
  | .property => if n.identifier then n.contextual else none
  | .assignment left right => if right = n.node then some (typeAt left) else none
  | .templateSpan => n.contextual
  | .other => none

/-- Lines 106-120: the scopes around the one of the declaration -/
def usedOutside (scope : Option N) : List N → Bool
  | [] => false
  | s :: rest => if some s = scope then true else usedOutside scope rest

/-- Lines 75-145 `isPossiblyUsedBeforeAssigned` -/
def Types.usedBeforeAssigned (E : Types T) (n : Node N T) : Bool :=
  match n.declaration with
  | none => true
  | some d =>
    if !E.strictNullChecks then false
    else match d with
      | .other => false
      | .binding var scopes typed ambient =>
        if var && usedOutside n.scope scopes.tail then true
        else typed.any fun t => t = E.constrained n.type && !ambient

inductive Report
  | contextual
  | unnecessary
  deriving DecidableEq

/-- Lines 1205-1230: what receives the value accepts it without `!`. -/
def Types.accepts (E : Types T) (type contextual : T) : Bool :=
  let f := E.allFlags type
  let c := E.allFlags contextual
  if f.unknown && !c.unknown then false
  else (!f.undefined || c.undefined) && (!f.null || c.null) && (!f.void || c.void)

/-- Lines 1148-1237: the listener; `self` is `x!`, `operand` is `x`. -/
def Types.check (E : Types T) (typeAt : N → T) (self operand : Node N T) : Option Report :=
  match self.parent with
  | .assignment left _ => if left = self.node then some .contextual else none
  | _ =>
    let constrained := E.constrained operand.type
    if !E.nullish constrained && !E.nullish operand.type then
      if operand.identifier && E.usedBeforeAssigned operand then none else some .unnecessary
    else if constrained ≠ operand.type then none
    else match contextualType typeAt self with
      | none => none
      | some c => if E.accepts constrained c then some .contextual else none

end Tsgolint.NonNull
