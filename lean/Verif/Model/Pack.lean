import Verif.Model.Py

/-!
# The global parameter vector (`solver.py:102-115,151-155`, repeated at `190-203,240-244`)
-/

namespace MplLayout

variable {K : Type}

/-- `np.cumsum([0] + sizes)`: the running totals. -/
def cumsum (start : Nat) : List Nat → List Nat
  | [] => [start]
  | s :: ss => start :: cumsum (start + s) ss

/-- `solver.py:104`, `prim_idx_bounds = np.cumsum([0] + [value.size for value in prim_values])`. -/
def idxBounds (values : List (List K)) : List Nat := cumsum 0 (values.map List.length)

/-- `np.concatenate(arrays)` for one-dimensional arrays (`solver.py:105`): `ValueError` if there is
no array at all. -/
def npConcat (arrays : List (List K)) : Py (List K) :=
  if arrays = [] then .error .valueError else .ok arrays.flatten

/-- `solver.py:111-114,151-154`: `[param[a:b] for a, b in zip(bounds[:-1], bounds[1:])]`. -/
def unpack (bounds : List Nat) (param : List K) : List (List K) :=
  (bounds.dropLast.zip (bounds.drop 1)).map fun (ab : Nat × Nat) =>
    pySlice param (some (Int.ofNat ab.1)) (some (Int.ofNat ab.2))

end MplLayout
