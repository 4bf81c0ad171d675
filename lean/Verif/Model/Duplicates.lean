import Verif.Model.Fixer
/-!
# Model of no-duplicate-type-constituents (/repo/internal/rules/no_duplicate_type_constituents/no_duplicate_type_constituents.go)

Types are compared by identity (`map[*checker.Type]*ast.Node`): `T` is any type with decidable equality.
-/
namespace Tsgolint.Duplicates
open Tsgolint.Fixer (Fix)

/-- A constituent of a union or intersection: what the checker says of it, and, if it is (in parentheses, `ast.SkipTypeParentheses`) a
group of the same kind, the constituents of that group (lines 216-224); otherwise `parts` is empty. -/
inductive Node (T : Type)
  | mk (id : Nat) (ty : T) (isError isUndefined : Bool) (parts : List (Node T))

variable {T : Type}
def Node.id : Node T → Nat | .mk i _ _ _ _ => i
def Node.ty : Node T → T | .mk _ t _ _ _ => t
def Node.isError : Node T → Bool | .mk _ _ e _ _ => e
def Node.isUndefined : Node T → Bool | .mk _ _ _ u _ => u
def Node.parts : Node T → List (Node T) | .mk _ _ _ _ p => p

/-- A report: on a constituent that duplicates `previous`, or (`none`) on an unnecessary `undefined` (lines 62-89). -/
structure Report where
  node : Nat
  previous : Option Nat
  withFix : Bool
deriving DecidableEq

/-- `cachedTypeMap` (lines 248); an entry is only ever added for a new key. -/
abbrev Cache (T : Type) := List (T × Nat)

variable [DecidableEq T]

mutual
/-- lines 190-239 `checkDuplicateRecursively`; `optional` says that the union is the type of an optional parameter (lines 289-301).  Gives the
returned value, the cache and the reports. -/
def check (optional withFix : Bool) : Node T → Cache T → Bool × Cache T × List Report
  | .mk id ty isError isUndefined parts, cache =>
    -- lines 197-200
    if isError then (false, cache, [])
    else match cache.lookup ty with
      -- lines 206-209
      | some prev => (true, cache, [⟨id, some prev, withFix⟩])
      | none =>
        -- lines 211-214
        let unnecessary := if optional && isUndefined then [⟨id, none, true⟩] else []
        let (c, r) := checkParts optional true parts ((ty, id) :: cache)
        (false, c, unnecessary ++ r)
/-- lines 226-238 the loop over the constituents of a group -/
def checkParts (optional allPrevRemoved : Bool) : List (Node T) → Cache T → Cache T × List Report
  | [], cache => (cache, [])
  | p :: rest, cache =>
    let (removed, c, r) := check optional (!rest.isEmpty || !allPrevRemoved) p cache
    let (c', r') := checkParts optional (if removed then allPrevRemoved else false) rest c
    (c', r ++ r')
end

/-- lines 262-270 the loop of `checkDuplicate` -/
def checkTop (optional : Bool) : List (Node T) → Cache T → Cache T × List Report
  | [], cache => (cache, [])
  | p :: rest, cache =>
    let (_, c, r) := check optional true p cache
    let (c', r') := checkTop optional rest c
    (c', r ++ r')

/-- lines 241-271 `checkDuplicate` -/
def checkDuplicate (optional : Bool) (types : List (Node T)) : List Report := (checkTop optional types []).2

/-! ## The fix (lines 91-179) -/

inductive TokenKind
  | ampersand | bar | openParen | closeParen | other
deriving DecidableEq

structure Token where
  kind : TokenKind
  start : Nat
  stop : Nat

/-- `s.Token() == ast.KindAmpersandToken || s.Token() == ast.KindBarToken` -/
def Token.isSeparator (t : Token) : Bool := t.kind = .ampersand || t.kind = .bar

/-- A constituent for the fixer: `Pos()` (with the space before it), the trimmed start, and `End()`. -/
structure Site where
  pos : Nat
  start : Nat
  stop : Nat
  /-- `End()` of the group -/
  parentEnd : Nat

/-- lines 103-115 the tokens before the constituent: the start of the last separator and the opening parentheses after it -/
def scanBefore (pos : Nat) : List Token → Option Nat → List Token → Option Nat × List Token
  | [], found, brackets => (found, brackets)
  | t :: ts, found, brackets =>
    if t.start ≥ pos then (found, brackets)
    else if t.isSeparator then scanBefore pos ts (some t.start) []
    else if t.kind = .openParen then scanBefore pos ts found (brackets ++ [t])
    else scanBefore pos ts found brackets

def removeToken (t : Token) : Fix := ⟨[], t.start, t.stop⟩

/-- lines 124-131 the closing parentheses that match the opening ones; `none`: panic -/
def closing : List Token → List Token → Option (List Fix)
  | [], _ => some []
  | _ :: bs, ts => match ts with
    | t :: ts => if t.kind = .closeParen then (closing bs ts).map (removeToken t :: ·) else none
    | [] => none

/-- lines 133-152 no separator before: the first separator after, with the closing parentheses before it; `none`: panic -/
def scanAfter (parentEnd : Nat) : List Token → Option (List Fix × Nat)
  | [] => none
  | t :: ts =>
    if t.start ≥ parentEnd then none
    else if t.isSeparator then some ([removeToken t], 0)
    else if t.kind = .closeParen then (scanAfter parentEnd ts).map fun (f, n) => (removeToken t :: f, n + 1)
    else none

/-- lines 91-179 the edits; `tokens` are what the scanner yields from the start of the group, `after` what it yields from the end of the
constituent.  The loop of lines 154-176 over opening parentheses is not modelled (`n = 0` in all reachable states: constituents are direct
children of their group, so a separator comes next); it gives `none` here. -/
def fix (s : Site) (tokens after : List Token) : Option (List Fix) :=
  let remove : Fix := ⟨[], s.start, s.stop⟩
  match scanBefore s.pos tokens none [] with
  | (some prevStart, brackets) =>
    (closing brackets after).map fun f => remove :: ⟨[], prevStart, prevStart + 1⟩ :: (brackets.map removeToken ++ f)
  | (none, _) =>
    match scanAfter s.parentEnd after with
    | some (f, 0) => some (remove :: f)
    | some (_, _ + 1) => none
    | none => none

end Tsgolint.Duplicates
