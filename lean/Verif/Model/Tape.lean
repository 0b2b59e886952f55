import Verif.Model.Flt
import Verif.Model.Constructions

/-!
# `jax.value_and_grad` (`solver.py:230`)

Reverse mode differentiation: `jax` runs the function once, on numbers that record how their tangent
depends on the tangents of the input, and then walks backwards through the record with a cotangent,
which starts at 1.  The rules for tangents are those of `Model/Dual.lean`.

Simplifications: no rounding (as in `Model/Flt.lean`); `jax` adds up the cotangents of an intermediate
number that is used several times before it goes on with it, the model goes on with each of them.
-/

namespace MplLayout

open Flt

/-- How a tangent depends on the tangents of the input. -/
inductive Lin where
  /-- the tangent of coordinate `i` of the input -/
  | input (i : Nat)
  /-- `g + h` -/
  | add (a b : Lin)
  /-- `-g` -/
  | neg (a : Lin)
  /-- `g * c` (or `c * g`), where `c` does not depend on tangents -/
  | scale (c : Flt) (a : Lin)
  /-- `g / c` -/
  | over (c : Flt) (a : Lin)

namespace Lin

/-- The backward pass: add the contributions of the cotangent `ct` to the gradient.  The transposed
rules: `add`: `ct`, `ct`; `neg`: `-ct`; `mul` by `c`: `ct * c`; `div` by `c`: `ct / c`. -/
noncomputable def pull : Lin → Flt → List Flt → List Flt
  | .input i, ct, grad => grad.modify i (· + ct)
  | .add a b, ct, grad => b.pull ct (a.pull ct grad)
  | .neg a, ct, grad => a.pull (-ct) grad
  | .scale c a, ct, grad => a.pull (ct * c) grad
  | .over c a, ct, grad => a.pull (ct / c) grad

end Lin

/-- A number and the record of its tangent; `none` is `jax`'s symbolic zero. -/
structure Tape where
  val : Flt
  lin : Option Lin

namespace Tape

/-- A number that does not depend on the input. -/
def const (c : Flt) : Tape := ⟨c, none⟩

/-- `jax`'s `add_tangents`. -/
def addLin : Option Lin → Option Lin → Option Lin
  | none, t => t
  | t, none => t
  | some s, some t => some (.add s t)

/-- The rules of `Model/Dual.lean`, recorded. -/
noncomputable instance : PyNum Tape where
  zero := const 0
  one := const 1
  natCast n := const n
  add x y := ⟨x.val + y.val, addLin x.lin y.lin⟩
  sub x y := ⟨x.val - y.val, addLin x.lin (y.lin.map .neg)⟩
  neg x := ⟨-x.val, x.lin.map .neg⟩
  mul x y := ⟨x.val * y.val, addLin (x.lin.map (.scale y.val)) (y.lin.map (.scale x.val))⟩
  div x y := ⟨x.val / y.val, addLin (x.lin.map (.over y.val))
    (y.lin.map fun g => .scale (fin 1 / (y.val * y.val)) (.scale x.val (.neg g)))⟩
  sqrt x := ⟨PyNum.sqrt x.val, x.lin.map (.scale (fin (1 / 2) / PyNum.sqrt x.val))⟩
  pow x y := ⟨PyNum.pow x.val y.val, addLin (x.lin.map (.scale bad)) (y.lin.map (.scale bad))⟩
  atan2 x y := ⟨PyNum.atan2 x.val y.val,
    addLin (x.lin.map (.scale (y.val / (x.val * x.val + y.val * y.val))))
      (y.lin.map (.scale (-x.val / (x.val * x.val + y.val * y.val))))⟩
  cos x := ⟨PyNum.cos x.val, x.lin.map (.scale bad)⟩
  sin x := ⟨PyNum.sin x.val, x.lin.map (.scale bad)⟩
  acos x := ⟨PyNum.acos x.val, x.lin.map (.scale bad)⟩
  pi := const PyNum.pi
  truthy x := PyNum.truthy x.val
  lt x y := PyNum.lt x.val y.val
  le x y := PyNum.le x.val y.val

/-- The array `x`, each coordinate with its own tangent. -/
def inputs (x : List Flt) : List Tape := x.mapIdx fun i a => ⟨a, some (.input i)⟩

end Tape

/-- `jax.value_and_grad(f)(x)` (`solver.py:230`): the value and the gradient. -/
noncomputable def valueAndGrad (f : List Tape → Py Tape) (x : List Flt) : Py (Flt × List Flt) := do
  let y ← f (Tape.inputs x)
  let zeros := x.map fun _ => fin 0
  .ok (y.val, match y.lin with
    | none => zeros
    | some l => l.pull (fin 1) zeros)

end MplLayout
