import Verif.Model.Flt
import Verif.Model.Constructions

/-!
# `jax.jacfwd` (`solver.py:121`)

`jax` differentiates a function by running it on numbers that carry a tangent; every operation has a
rule for the tangent of its result.  This file models the rules of the operations that the shipped
constraints use.  As in `jax`, a number that does not depend on the input has no tangent ("symbolic
zero"), which is not the same as the tangent `0` (`0 * inf` is `nan`).  Rounding is not modelled, as in
`Model/Flt.lean`.

Simplifications: `jax` traces the function once and maps it over all directions (`vmap`), the model
runs it once for each direction; the sum of an empty array is a number without tangent.
-/

namespace MplLayout

open Flt

/-- A number and its tangent; `none` is `jax`'s symbolic zero. -/
structure Dual where
  val : Flt
  tan : Option Flt

namespace Dual

/-- A number that does not depend on the input. -/
def const (c : Flt) : Dual := ⟨c, none⟩

/-- `jax`'s `add_tangents`. -/
noncomputable def addTan : Option Flt → Option Flt → Option Flt
  | none, t => t
  | t, none => t
  | some s, some t => some (s + t)

/-- The tangent as an array entry: `jax` instantiates symbolic zeros at the output. -/
def slope (d : Dual) : Flt := d.tan.getD (fin 0)

/-- The rules for tangents, from `jax._src.lax.lax`:
`add`: `g`, `g`; `sub`: `g`, `-g`; `neg`: `-g`; `mul`: `g * y`, `x * g`;
`div`: `g / y`, `(-g * x) * y ** -2`; `sqrt`: `g * (0.5 / sqrt(x))`;
`atan2(x, y)`: `g * (y / (x² + y²))`, `g * (-x / (x² + y²))`.
Powers, `cos`, `sin` and `acos` do not occur in the residuals of the shipped constraints (`** 2` and
`** (1/2)` are products and square roots in this model); their tangents are not modelled (`bad`).
Comparisons look at the values. -/
noncomputable instance : PyNum Dual where
  zero := const 0
  one := const 1
  natCast n := const n
  add x y := ⟨x.val + y.val, addTan x.tan y.tan⟩
  sub x y := ⟨x.val - y.val, addTan x.tan (y.tan.map fun g => -g)⟩
  neg x := ⟨-x.val, x.tan.map fun g => -g⟩
  mul x y := ⟨x.val * y.val, addTan (x.tan.map fun g => g * y.val) (y.tan.map fun g => x.val * g)⟩
  div x y := ⟨x.val / y.val, addTan (x.tan.map fun g => g / y.val)
    (y.tan.map fun g => (-g * x.val) * (fin 1 / (y.val * y.val)))⟩
  sqrt x := ⟨PyNum.sqrt x.val, x.tan.map fun g => g * (fin (1 / 2) / PyNum.sqrt x.val)⟩
  pow x y := ⟨PyNum.pow x.val y.val, addTan (x.tan.map fun _ => bad) (y.tan.map fun _ => bad)⟩
  atan2 x y := ⟨PyNum.atan2 x.val y.val,
    addTan (x.tan.map fun g => g * (y.val / (x.val * x.val + y.val * y.val)))
      (y.tan.map fun g => g * (-x.val / (x.val * x.val + y.val * y.val)))⟩
  cos x := ⟨PyNum.cos x.val, x.tan.map fun _ => bad⟩
  sin x := ⟨PyNum.sin x.val, x.tan.map fun _ => bad⟩
  acos x := ⟨PyNum.acos x.val, x.tan.map fun _ => bad⟩
  pi := const PyNum.pi
  truthy x := PyNum.truthy x.val
  lt x y := PyNum.lt x.val y.val
  le x y := PyNum.le x.val y.val

/-- The array `x` with the tangent of the direction of coordinate `j`. -/
def seed (x : List Flt) (j : Nat) : List Dual :=
  x.mapIdx fun i a => ⟨a, some (if i = j then fin 1 else fin 0)⟩

end Dual

/-- `jax.jacfwd(f)(x)` (`solver.py:121`): one column for each coordinate of `x`; the rows of the
resulting matrix. -/
def jacfwd (f : List Dual → Py (List Dual)) (x : List Flt) : Py (List (List Flt)) := do
  let y ← f (x.map Dual.const)
  let cols ← pyMap (fun j => f (Dual.seed x j)) (List.range x.length)
  .ok ((List.range y.length).map fun i => cols.map fun c => ((c[i]?).map Dual.slope).getD bad)

end MplLayout
