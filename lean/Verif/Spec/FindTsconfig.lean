import Verif.Model.FindTsconfig
import Verif.Spec.Bfs
/-! # What the tsconfig search means -/
namespace Tsgolint.FindTsconfig
open Tsgolint.Bfs

/-- The config includes the file: it can be read, one of its files is the file (same path), and, if it is composite, its patterns may
match the file. -/
def Includes (e : Env) (name : String) : Prop :=
  ∃ c, e.config name = some c ∧ (c.composite = true → c.possiblyMatches = true) ∧ ∃ f ∈ c.fileNames, e.toPath f = e.path

/-- `d` project references lead from config `a` to config `b`. -/
inductive Refs (e : Env) (a : String) : Nat → String → Prop
  | self : Refs e a 0 a
  | step {d b b' c} : Refs e a d b → e.config b = some c → c.hasReferences = true → b' ∈ c.references → Refs e a (d + 1) b'

/-- `b` is the next config above `a`: the one the project service's own ancestor cache gives, and if there is none, the one found by
walking up from the directory above that of `a`.  (`""` is "no config".) -/
def NextUp (e : Env) (a b : String) : Prop :=
  b ≠ "" ∧ (e.ancestorOf a = b ∨ (e.ancestorOf a = "" ∧ e.compute a true = b))

/-- The `i`-th config found going up the directories: the nearest one, the one above it, … -/
inductive Above (e : Env) (nearest : String) : Nat → String → Prop
  | here : Above e nearest 0 nearest
  | up {i a b} : Above e nearest i a → NextUp e a b → Above e nearest (i + 1) b

/-- What is assumed of the path functions: equal names denote the path, and a file with that path has its base name. -/
structure PathsOk (e : Env) : Prop where
  same : ∀ f, e.sameName f e.path = true → e.toPath f = e.path
  base : ∀ f, e.toPath f = e.path → e.sameName (e.base f) (e.base e.path) = true

end Tsgolint.FindTsconfig
