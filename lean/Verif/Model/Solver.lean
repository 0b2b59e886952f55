import Verif.Model.Layout
import Verif.Model.Pack
import Verif.Model.Arr

/-!
# Model of `src/mpllayout/solver.py`

Not modelled here: how `jax` differentiates (`jax.jacfwd` is modelled in `Model/Dual.lean`;
`jax.value_and_grad` is not modelled), how
`numpy.linalg.lstsq` solves least squares problems and how `scipy`'s L-BFGS-B chooses its iterates.
These are parameters (`Numerics`), and theorems say what they assume about them.  `jax.jit` is taken
to be the identity.  Numbers are those of a type `K` with `PyNum` operations.
-/

namespace MplLayout

variable {K : Type}

/-- The external numerical routines.
`jacobian f x` is `jax.jacfwd(f)(x)` (`solver.py:121`), a list of rows.
`lstsq n a b` is the first result of `np.linalg.lstsq(a, b, rcond=None)` (`solver.py:135-137`) for an
array `a` with `n` columns (which a list of rows does not show if there are no rows).
`iterates f x maxiter` are the intermediate results, `x` and `fun`, that
`scipy.optimize.minimize(jax.value_and_grad(f), x, method='L-BFGS-B', options={'maxiter': maxiter})`
passes to its callback one after the other, if the callback never stops it (`solver.py:230-237`). -/
structure Numerics (K : Type) where
  jacobian : (List K → Py (List K)) → List K → Py (List (List K))
  lstsq : Nat → List (List K) → List K → Py (List K)
  iterates : (List K → Py K) → List K → Int → Py (List (List K × K))

/-- The dictionary with `abs_errs` and `rel_errs` (`solver.py:148,246-248`). -/
structure SolverInfo (K : Type) where
  absErrs : List K
  relErrs : List K
deriving DecidableEq

/-- `a + b` for two arrays (`solver.py:138`); `ValueError` for different sizes (simplification: an
array of size one is not broadcast). -/
def vecAdd [Add K] (a b : List K) : Py (List K) :=
  if a.length = b.length then .ok (List.zipWith (· + ·) a b) else .error .valueError

/-- `np.linalg.norm(v)` for an array of dimension one (`solver.py:141`). -/
def npNorm [PyNum K] (v : List K) : K := PyNum.sqrt (Arr.sumList (v.map fun x => x * x))

namespace Solver

/-- New arrays with the contents `vs`; `base` is the first unused array identity. -/
def freshVals (base : Nat) (vs : List (List K)) : List (PVal K) :=
  vs.mapIdx fun i v => ⟨base + i, v⟩

/-- `solver.py:103-104`: `prim_values`, the distinct arrays of the layout's primitives. -/
def primValues (l : Layout K) : List (List K) := (filterUnique PVal.id l.prim).2.map (·.arr)

/-- `solver.py:103-105`, the initial `global_param_n`. -/
def globalParam (l : Layout K) : Py (List K) := npConcat (primValues l)

/-- `solver.py:111-115` and `151-155`: the primitive tree with the parameters `g`. -/
def rebuild (l : Layout K) (base : Nat) (g : List K) : Py (Prim K) :=
  buildPrim (flatten [] l.prim) (filterUnique PVal.id l.prim).1
    (freshVals base (unpack (idxBounds (primValues l)) g))

/-- `solver.py:109-119`, `assem_global_res(global_param)`. -/
def globalRes (l : Layout K) (base : Nat) (g : List K) : Py (List K) := do
  let root ← rebuild l base g
  l.residual root

/-! ## Newton -/

/-- The variables of the loop (`solver.py:124-129`); `none` is `np.inf`. -/
structure NewtonState (K : Type) where
  param : List K
  n : Nat := 0
  absErr : Option K := none
  relErr : Option K := none
  absErrs : List K := []
  relErrs : List K := []

variable [PyNum K]

/-- `err > tol`; for `err = np.inf`, true unless the tolerance is `nan` (simplification: the
tolerance is not `inf`). -/
def gtTol (err : Option K) (tol : K) : Bool :=
  match err with
  | none => PyNum.le tol tol
  | some e => PyNum.lt tol e

/-- `solver.py:130`: the condition of the loop. -/
def continues (absTol relTol : K) (maxIter : Int) (s : NewtonState K) : Bool :=
  gtTol s.absErr absTol && gtTol s.relErr relTol && decide ((s.n : Int) < maxIter)

/-- `solver.py:132-146`: the body of the loop, for the residual function `res`. -/
def newtonStep (num : Numerics K) (res : List K → Py (List K)) (s : NewtonState K) :
    Py (NewtonState K) := do
  let r ← res s.param
  let jac ← num.jacobian res s.param
  let d ← num.lstsq s.param.length jac (r.map fun x => -x)
  let param ← vecAdd s.param d
  let absErr := npNorm r
  let absErrs := s.absErrs ++ [absErr]
  let relErr := absErr / absErrs.headD absErr
  .ok ⟨param, s.n + 1, some absErr, some relErr, absErrs, s.relErrs ++ [relErr]⟩

/-- `solver.py:130-146`: the loop; `none` if it has not ended after `fuel` rounds. -/
def newtonLoop (num : Numerics K) (res : List K → Py (List K)) (absTol relTol : K) (maxIter : Int) :
    Nat → NewtonState K → Option (Py (NewtonState K))
  | 0, _ => none
  | fuel + 1, s =>
    if continues absTol relTol maxIter s then
      match newtonStep num res s with
      | .ok s => newtonLoop num res absTol relTol maxIter fuel s
      | .error e => some (.error e)
    else some (.ok s)

/-- `solver.py:74-157`, `solve_newton(layout, abs_tol, rel_tol, max_iter)`.  `base` is the first
unused array identity.  The number of rounds given to the loop is enough
(`Props.C55_terminates`). -/
def solveNewton (num : Numerics K) (l : Layout K) (base : Nat) (absTol relTol : K) (maxIter : Int) :
    Py (Prim K × SolverInfo K) := do
  let g0 ← globalParam l
  match newtonLoop num (globalRes l base) absTol relTol maxIter (maxIter.toNat + 1) { param := g0 } with
  | none => .error .outOfFuel
  | some r => do
    let s ← r
    let root ← rebuild l base s.param
    .ok (root, ⟨s.absErrs, s.relErrs⟩)

/-! ## Minimization -/

/-- `solver.py:197-207`, `assem_objective(global_param)`: the sum of squares. -/
def objective (l : Layout K) (base : Nat) (g : List K) : Py K := do
  let r ← globalRes l base g
  .ok (Arr.sumList (r.map fun x => x * x))

/-- `solver.py:209-223`, `MinHistory.callback`: the histories afterwards and whether it raises
`StopIteration`. -/
def callback (absTol relTol : K) (h : SolverInfo K) (fun_ : K) : SolverInfo K × Bool :=
  let absErrs := h.absErrs ++ [fun_]
  let relErr := fun_ / absErrs.headD fun_
  (⟨absErrs, h.relErrs ++ [relErr]⟩, PyNum.lt relErr relTol || PyNum.lt fun_ absTol)

/-- How `scipy`'s L-BFGS-B runs: it passes one intermediate result after the other to the callback,
until there is none or the callback raises `StopIteration`; its result is the last one. -/
def runMinimize (absTol relTol : K) : List (List K × K) → List K → SolverInfo K →
    List K × SolverInfo K
  | [], x, h => (x, h)
  | (x', f) :: its, _, h =>
    match callback absTol relTol h f with
    | (h, true) => (x', h)
    | (h, false) => runMinimize absTol relTol its x' h

/-- `solver.py:160-250`, `solve_minimize(layout, abs_tol, rel_tol, max_iter)`. -/
def solveMinimize (num : Numerics K) (l : Layout K) (base : Nat) (absTol relTol : K)
    (maxIter : Int) : Py (Prim K × SolverInfo K) := do
  let g0 ← globalParam l
  let its ← num.iterates (objective l base) g0 maxIter
  let (g, info) := runMinimize absTol relTol its g0 ⟨[], []⟩
  let root ← rebuild l base g
  .ok (root, info)

/-- `solver.py:25-70`, `solve(layout, abs_tol, rel_tol, max_iter, method)`. -/
def solve (num : Numerics K) (l : Layout K) (base : Nat) (absTol relTol : K) (maxIter : Int)
    (method : Str) : Py (Prim K × SolverInfo K) :=
  if method = k!"newton" then solveNewton num l base absTol relTol maxIter
  else if method = k!"minimize" then solveMinimize num l base absTol relTol maxIter
  else .error .valueError

end Solver

end MplLayout
