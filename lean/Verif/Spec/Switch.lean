import Verif.Model.Switch
import Verif.Spec.TypeGraph
import Verif.Spec.StringLiteral
import Verif.Spec.Fixer
/-! # What switch-exhaustiveness-check promises -/
namespace Tsgolint.Switch
open Tsgolint.TypeGraph (Shape Constituent UnionPart)
open Tsgolint.Fixer (Fix Bytes editAll)
variable {T : Type}

mutual
/-- The constituents of a type in order: unions and intersections are taken apart, everything else is a constituent. -/
inductive Leaves (shape : T → Shape T) : T → List T → Prop
  | leaf {t} : (∀ ps, shape t ≠ .union ps) → (∀ ps, shape t ≠ .intersection ps) → Leaves shape t [t]
  | union {t ps ls} : shape t = .union ps → LeavesAll shape ps ls → Leaves shape t ls
  | intersection {t ps ls} : shape t = .intersection ps → LeavesAll shape ps ls → Leaves shape t ls
/-- The same for a list of types. -/
inductive LeavesAll (shape : T → Shape T) : List T → List T → Prop
  | nil : LeavesAll shape [] []
  | cons {p ps ls ls'} : Leaves shape p ls → LeavesAll shape ps ls' → LeavesAll shape (p :: ps) (ls ++ ls')
end

/-- A case handles a type: it is the case's type, or both are (some form of) undefined. -/
def Covered (E : Env T) (s : Stmt T) (t : T) : Prop :=
  ∃ c ∈ s.clauses, ∃ u, c.test = some u ∧ (u = t ∨ (E.isUndefined u = true ∧ E.isUndefined t = true))

/-- A literal of the discriminant's type that no case handles. -/
def Missing (E : Env T) (s : Stmt T) (t : T) : Prop :=
  Constituent E.shape s.discriminant t ∧ E.literalLike t = true ∧ ¬ Covered E s t

open Classical in
/-- The unhandled literals in the order of the union. -/
def MissingList (E : Env T) (s : Stmt T) (ms : List T) : Prop :=
  ∃ ls, Leaves E.shape s.discriminant ls ∧ ms = ls.filter fun t => decide (E.literalLike t = true ∧ ¬ Covered E s t)

/-- The first default clause. -/
def DefaultClause (s : Stmt T) (d : Clause T) : Prop :=
  ∃ pre post, s.clauses = pre ++ d :: post ∧ d.test = none ∧ ∀ c ∈ pre, c.test ≠ none

/-- The text of a comment without its delimiters. -/
def HasBody (c : Comment) (b : Text) : Prop :=
  (c.isLine = true ∧ c.text = '/' :: '/' :: b) ∨ (c.isLine = false ∧ c.isBlock = true ∧ c.text = '/' :: '*' :: b ++ ['*', '/'])

/-- A comment as the scanner gives it. -/
def WellFormed (c : Comment) : Prop := ∃ b, HasBody c b

/-- The comment's text matches the pattern (`some b`), or matching fails (`none`). -/
def Answers (E : Env T) (c : Comment) (r : Option Bool) : Prop := ∃ b, HasBody c b ∧ E.matchesPattern (E.trimSpace b) = r

/-- The comment that stands in for a default clause: there is no default clause, but there are clauses, and the comment is the first one
after them that matches. -/
def DefaultComment (E : Env T) (s : Stmt T) (c : Comment) : Prop :=
  (∀ d ∈ s.clauses, d.test ≠ none) ∧ s.clauses ≠ [] ∧
  ∃ pre post, s.comments = pre ++ c :: post ∧ Answers E c (some true) ∧ ∀ x ∈ pre, Answers E x (some false)

/-- The switch has a default clause or a comment that stands in for one. -/
def HasDefault (E : Env T) (s : Stmt T) : Prop := (∃ d, DefaultClause s d) ∨ ∃ c, DefaultComment E s c

/-- The parts of an intersection, or the type itself. -/
def IntersectionPart (shape : T → Shape T) (t p : T) : Prop :=
  (∃ ps, shape t = .intersection ps ∧ p ∈ ps) ∨ ((∀ ps, shape t ≠ .intersection ps) ∧ p = t)

/-- Cases cannot exhaust the type: some part of the union has no literal in it. -/
def OpenEnded (E : Env T) (t : T) : Prop :=
  ∃ p, UnionPart E.shape t p ∧ ∀ q, IntersectionPart E.shape p q → E.literalLike q = false

/-- What the suggestion does to a file: the lines go before the default clause, or after the last clause, or make up the body of an empty
switch; they are indented like the last clause, or like the switch. -/
def Suggested (enc : Text → Bytes) (s : Stmt T) (lines : List Text) (fixes : List Fix) : Prop :=
  ∀ code : Bytes,
    (∀ l, s.clauses.getLast? = some l → ∀ d, DefaultClause s d →
      editAll code fixes = code.take d.start ++ enc (lines.flatMap fun x => x ++ '\n' :: List.replicate l.column ' ') ++ code.drop d.start) ∧
    (∀ l, s.clauses.getLast? = some l → (∀ c ∈ s.clauses, c.test ≠ none) →
      editAll code fixes = code.take l.stop ++
        enc ('\n' :: ['\n'].intercalate (lines.map fun x => List.replicate l.column ' ' ++ x)) ++ code.drop l.stop) ∧
    (s.clauses = [] →
      editAll code fixes = code.take s.blockStart ++
        enc ("{\n".toList ++ ['\n'].intercalate (lines.map fun x => List.replicate s.column ' ' ++ x) ++
          '\n' :: (List.replicate s.column ' ' ++ ['}'])) ++ code.drop s.blockStop)

/-- What is reported, and where, without the suggestion. -/
inductive Verdict (T : Type)
  /-- at the discriminant, with the listed branches -/
  | notExhaustive (branches : Text)
  | dangerousComment (c : Comment)
  | dangerousDefault (c : Clause T)

def Report.verdict : Report T → Verdict T
  | .notExhaustive b _ => .notExhaustive b
  | .dangerousComment c => .dangerousComment c
  | .dangerousDefault d => .dangerousDefault d

/-- What the rule has to report. -/
inductive Wants (E : Env T) (o : Options) (s : Stmt T) : Verdict T → Prop
  /-- literals without a case -/
  | missing {ms} : MissingList E s ms → ms ≠ [] → ¬ (o.considerDefaultExhaustiveForUnions = true ∧ HasDefault E s) →
      Wants E o s (.notExhaustive (" | ".toList.intercalate (ms.map (branchName E))))
  /-- a default comment that cannot be reached -/
  | comment {c} : o.allowDefaultCaseForExhaustiveSwitch = false → (∀ t, ¬ Missing E s t) → ¬ OpenEnded E s.discriminant →
      DefaultComment E s c → Wants E o s (.dangerousComment c)
  /-- a default clause that cannot be reached -/
  | clause {d} : o.allowDefaultCaseForExhaustiveSwitch = false → (∀ t, ¬ Missing E s t) → ¬ OpenEnded E s.discriminant →
      DefaultClause s d → Wants E o s (.dangerousDefault d)
  /-- a type cases cannot exhaust, without default -/
  | require : o.requireDefaultForNonUnion = true → OpenEnded E s.discriminant → ¬ HasDefault E s →
      Wants E o s (.notExhaustive "default".toList)

end Tsgolint.Switch
