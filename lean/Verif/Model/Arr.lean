import Verif.Model.Primitives
import Verif.Model.Pack

/-!
# Arrays and parameters

What `numpy` / `jax.numpy` do with zero- and one-dimensional arrays, as far as
`constructions.py` and `constraints.py` use it, and the parameters (`constructions.py:22`) that
constructions take.
-/

namespace MplLayout

variable {α β K : Type}

/-- Python `[f(x) for x in xs]` where `f` may raise. -/
def pyMap (f : α → Py β) : List α → Py (List β)
  | [] => .ok []
  | x :: xs => do
    let y ← f x
    let ys ← pyMap f xs
    .ok (y :: ys)

/-- A value returned by `assem`: a number (or zero-dimensional array) or a one-dimensional
array. -/
inductive Arr (K : Type) where
  | scalar (x : K)
  | vec (xs : List K)
deriving DecidableEq

namespace Arr

/-- `jnp.atleast_1d` (`constructions.py:400`). -/
def atleast1d : Arr K → List K
  | .scalar x => [x]
  | .vec xs => xs

/-- Elementwise function. -/
def map (f : K → K) : Arr K → Arr K
  | .scalar x => .scalar (f x)
  | .vec xs => .vec (xs.map f)

/-- Elementwise binary operation with one-dimensional `numpy` broadcasting: numbers and arrays of
length 1 are stretched; other length mismatches are an error (`ValueError` from `numpy`,
`TypeError` from `jax`; the model uses `ValueError`). -/
def binop (f : K → K → K) : Arr K → Arr K → Py (Arr K)
  | .scalar x, .scalar y => .ok (.scalar (f x y))
  | .scalar x, .vec ys => .ok (.vec (ys.map fun y => f x y))
  | .vec xs, .scalar y => .ok (.vec (xs.map fun x => f x y))
  | .vec xs, .vec ys =>
    if xs.length = ys.length then .ok (.vec (List.zipWith f xs ys))
    else match xs, ys with
      | [x], ys => .ok (.vec (ys.map fun y => f x y))
      | xs, [y] => .ok (.vec (xs.map fun x => f x y))
      | _, _ => .error .valueError

variable [PyNum K]

/-- `a + b`. -/
def add (a b : Arr K) : Py (Arr K) := binop (· + ·) a b
/-- `a - b`. -/
def sub (a b : Arr K) : Py (Arr K) := binop (· - ·) a b
/-- `a * b`. -/
def mul (a b : Arr K) : Py (Arr K) := binop (· * ·) a b
/-- `a / b` (`jax`: division by zero is not an exception). -/
def div (a b : Arr K) : Py (Arr K) := binop (· / ·) a b
/-- `a ** b`.  Simplification: with two Python numbers Python raises `ZeroDivisionError` for a zero
base and negative exponent and returns a complex number for a negative base and fractional
exponent; here (as with `numpy` numbers) the result is whatever `PyNum.pow` gives. -/
def pow (a b : Arr K) : Py (Arr K) := binop PyNum.pow a b

/-- Sum of a list of numbers (`jnp.sum`, `sum`). -/
def sumList (xs : List K) : K := xs.foldl (· + ·) 0

/-- `jnp.dot` of arrays of dimension at most one: different lengths raise `TypeError`. -/
def dot : Arr K → Arr K → Py (Arr K)
  | .vec xs, .vec ys =>
    if xs.length = ys.length then .ok (.scalar (sumList (List.zipWith (· * ·) xs ys)))
    else .error .typeError
  | a, b => binop (· * ·) a b

/-- `jnp.linalg.norm` of a one-dimensional array (`constructions.py:830`). -/
def norm : Arr K → Arr K
  | .vec xs => .scalar (PyNum.sqrt (sumList (xs.map fun x => x * x)))
  | .scalar x => .scalar (PyNum.sqrt (x * x))

/-- `jnp.cross` of vectors with two or three entries (`constraints.py:378`,
`constructions.py:1094`): a missing third entry is zero; two plane vectors give a number. -/
def cross : Arr K → Arr K → Py (Arr K)
  | .vec [a, b], .vec [c, d] => .ok (.scalar (a * d - b * c))
  | .vec [a, b], .vec [c, d, e] => .ok (.vec [b * e - 0 * d, 0 * c - a * e, a * d - b * c])
  | .vec [a, b, e], .vec [c, d] => .ok (.vec [b * 0 - e * d, e * c - a * 0, a * d - b * c])
  | .vec [a, b, e], .vec [c, d, f] => .ok (.vec [b * f - e * d, e * c - a * f, a * d - b * c])
  | _, _ => .error .valueError

end Arr

/-! ## Parameters -/

/-- A `matplotlib` bounding box. -/
structure Bbox (K : Type) where
  xmin : K
  ymin : K
  xmax : K
  ymax : K

/-- What `get_axis_thickness` (`constraints.py:638-666`) can observe of a `matplotlib` axis:
whether its label is visible, its tight bounding box (in figure coordinates) as a function of
whether the label is visible, the tick position, the figure size in inches and the position of the
axes. -/
structure MplAxis (K : Type) where
  labelVisible : Bool
  tightbbox : Bool → Option (Bbox K)
  ticksPosition : Str
  figWidth : K
  figHeight : K
  axesBbox : Bbox K

/-- A parameter of a construction (`constructions.py:22`): a Python number, an array, a `bool`,
`None`, a list or tuple of parameters, or a `matplotlib` axis. -/
inductive Param (K : Type) where
  | num (x : K)
  | arr (xs : List K)
  | bool (b : Bool)
  | none
  | seq (ps : List (Param K))
  | axis (a : MplAxis K)

namespace Param

/-- A parameter used as an array operand.  `True`/`False` count as 1/0; `None`, lists and axes are
refused (`jax.numpy` raises `TypeError`). -/
def toArr [PyNum K] : Param K → Py (Arr K)
  | .num x => .ok (.scalar x)
  | .arr xs => .ok (.vec xs)
  | .bool b => .ok (.scalar (if b then 1 else 0))
  | _ => .error .typeError

/-- Truth value of a parameter (`if reverse:`).  An array has a truth value only if it has one
entry. -/
def truthy [PyNum K] : Param K → Py Bool
  | .num x => .ok (PyNum.truthy x)
  | .arr [x] => .ok (PyNum.truthy x)
  | .arr _ => .error .valueError
  | .bool b => .ok b
  | .none => .ok false
  | .seq ps => .ok (!ps.isEmpty)
  | .axis _ => .ok true

/-- `tuple(p)`: the entries of a list or array; other parameters raise `TypeError`. -/
def iter : Param K → Py (List (Param K))
  | .arr xs => .ok (xs.map .num)
  | .seq ps => .ok ps
  | _ => .error .typeError

end Param

end MplLayout
