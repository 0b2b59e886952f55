import Verif.Model.Py

/-!
# Numbers

The code computes with `float` / `numpy` / `jax.numpy` numbers.  Model functions are written for any
type with the operations below; no law is assumed here.  `Model/Flt.lean` gives the concrete number
type for which geometric statements are proved.
-/

namespace MplLayout

/-- The numeric operations used by `constructions.py`, `constraints.py`, `primitives.py` and
`solver.py`: `+ - * /`, unary minus, `** 0.5` (`constructions.py:853`), `**`,
`arctan2`, `cos`, `sin`, `arccos` (`ui.py:49`), `pi`, integers used as numbers, truth value (`if reverse:` with a number,
`constructions.py:1055`), and the comparisons `<` of `solver.py:130,222` (`<=` of a number with itself: not `nan`). -/
class PyNum (K : Type) extends Zero K, One K, Add K, Sub K, Neg K, Mul K, Div K, NatCast K where
  sqrt : K → K
  pow : K → K → K
  atan2 : K → K → K
  cos : K → K
  sin : K → K
  acos : K → K
  pi : K
  truthy : K → Bool
  lt : K → K → Bool
  le : K → K → Bool

end MplLayout
