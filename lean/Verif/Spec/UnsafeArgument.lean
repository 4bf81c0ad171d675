import Verif.Model.UnsafeArgument
/-! # What no-unsafe-argument promises -/
namespace Tsgolint.UnsafeArgument
variable {T : Type}

/-- What a call binds the `k`-th value to: the `k`-th parameter; from the rest parameter on, the elements of its array, or of its tuple (the last one for
all further values), or the rest parameter itself if it is neither. -/
inductive Receives : List (Param T) → Nat → T → Prop
  | here {t ps} : Receives (.normal t :: ps) 0 t
  | later {t ps k r} : Receives ps k r → Receives (.normal t :: ps) (k + 1) r
  | array {e ps k} : Receives (.rest (.array e) :: ps) k e
  | other {t ps k} : Receives (.rest (.other t) :: ps) k t
  | element {ts ps k r} : ts[k]? = some r → Receives (.rest (.tuple ts) :: ps) k r
  | beyond {ts ps k r} : ts.length ≤ k → ts.getLast? = some r → Receives (.rest (.tuple ts) :: ps) k r

/-- What values after a tuple of unknown length are taken to be bound to: the last type of the rest parameter. -/
inductive ReceivesLast : List (Param T) → T → Prop
  | later {t ps r} : ReceivesLast ps r → ReceivesLast (.normal t :: ps) r
  | array {e ps} : ReceivesLast (.rest (.array e) :: ps) e
  | other {t ps} : ReceivesLast (.rest (.other t) :: ps) t
  | tuple {ts ps r} : ts.getLast? = some r → ReceivesLast (.rest (.tuple ts) :: ps) r

/-- Where a value stands among the arguments: its number, or unknown. -/
def Binds (ps : List (Param T)) : Option Nat → T → Prop
  | some k, r => Receives ps k r
  | none, r => ReceivesLast ps r

/-- How many values an argument stands for, if that is known. -/
inductive Width : Arg T → Nat → Prop
  | plain {i b t} : Width (.plain i b t) 1
  | tuple {i ts} : Width (.spreadTuple i ts false) ts.length

/-- The position after these arguments, if they are all plain or tuples: the sum of the widths, or unknown after a tuple with a rest. -/
inductive Position (start : Nat) : List (Arg T) → Option Nat → Prop
  | nil : Position start [] (some start)
  | known {as a k w} : Position start as (some k) → Width a w → Position start (as ++ [a]) (some (k + w))
  | unknown {as i ts k} : Position start as k → Position start (as ++ [.spreadTuple i ts true]) none
  | after {as a w} : Position start as none → Width a w → Position start (as ++ [a]) none

/-- The position of the `j`-th value of an argument at the position. -/
def nth (p : Option Nat) (j : Nat) : Option Nat := p.map (· + j)

end Tsgolint.UnsafeArgument
