import Verif.Model.TypeGraph
/-!
# `utils.Some` and `utils.Every` over a predicate without state that may run out of fuel
(/repo/internal/utils/utils.go:125-133 `Some`, `Every`; both stop at the first element that decides)
-/
namespace Tsgolint.TypeGraph
variable {T : Type}

/-- The predicate handed to `someLoop` and `everyLoop`. -/
abbrev lift (g : T → Option Bool) (p : T) (_ : Unit) : Option (Bool × Unit) := (g p).map fun b => (b, ())

/-- utils/utils.go `Some`. -/
def some? (g : T → Option Bool) (ps : List T) : Option Bool := (someLoop (lift g) ps ()).map (·.1)
/-- utils/utils.go `Every`. -/
def every? (g : T → Option Bool) (ps : List T) : Option Bool := (everyLoop (lift g) ps ()).map (·.1)

end Tsgolint.TypeGraph
