import Verif.Model.ImpliedEval
/-! # What no-implied-eval promises -/
namespace Tsgolint.ImpliedEval

/-- The callee is the global of that name: by its name, or as a property of `global`, `globalThis` or `window`. -/
inductive Calls : String → Callee → Prop
  | direct {n} : Calls n (.identifier n)
  | property {n o} : o ∈ ["global", "globalThis", "window"] → Calls n (.access (some o) (.property (some n)))
  | element {n o} : o ∈ ["global", "globalThis", "window"] → Calls n (.access (some o) (.element (some n)))

/-- The argument is known to be a function: it is written as one, it is a call of `bind`, or its type is callable. -/
inductive KnownFunction : Handler → Prop
  | written : KnownFunction .functionLike
  | bound {t} : KnownFunction (.call (some "bind") t)
  | called {n t} : t.functionSymbol = true ∨ t.likeFunction = true ∨ t.callSignatures > 0 → KnownFunction (.call n t)
  | typed {t} : t.functionSymbol = true ∨ t.likeFunction = true ∨ t.callSignatures > 0 → KnownFunction (.other t)

/-- The callee is declared in this file. -/
def DeclaredHere (c : Call) : Prop := ∃ ds, c.declarationsHere = some ds ∧ true ∈ ds

end Tsgolint.ImpliedEval
