import Verif.Model.Solver
import Verif.Model.Flt
import Verif.Spec.Layout
import Mathlib.Analysis.Calculus.FDeriv.Basic
import Mathlib.Analysis.Normed.Module.FiniteDimension
import Mathlib.LinearAlgebra.Matrix.ToLin

/-!
# Vocabulary for stating properties of the solver
-/

namespace MplLayout

variable {K : Type}

/-- `x'` is a Newton iterate after `x`: `x` plus the least squares solution, as the numerical
routines deliver it, of `J d = -r` for the residual `r` and the Jacobian `J` at `x`. -/
def IsStep [PyNum K] (num : Numerics K) (res : List K → Py (List K)) (x x' : List K) : Prop :=
  ∃ r J d, res x = .ok r ∧ num.jacobian res x = .ok J ∧ num.lstsq x.length J (r.map (- ·)) = .ok d ∧
    d.length = x.length ∧ x' = List.zipWith (· + ·) x d

/-- A faithful report of a Newton run from `x0` that visited the iterates `xs`, returned `x` and
reported `info`. -/
structure NewtonRun [PyNum K] (num : Numerics K) (res : List K → Py (List K)) (absTol relTol : K)
    (maxIter : Int) (x0 : List K) (xs : List (List K)) (x : List K) (info : SolverInfo K) : Prop where
  /-- it starts at `x0` -/
  start : (xs ++ [x]).head? = some x0
  /-- and goes from iterate to iterate -/
  steps : List.IsChain (IsStep num res) (xs ++ [x])
  /-- one absolute error per visited iterate: the norm of its residual -/
  abs : List.Forall₂ (fun y e => ∃ r, res y = .ok r ∧ e = npNorm r) xs info.absErrs
  /-- one relative error per visited iterate: its error by the first error -/
  rel : info.relErrs = info.absErrs.map fun e => e / info.absErrs.headD e
  /-- at most `max_iter` iterations -/
  bound : xs.length ≤ maxIter.toNat
  /-- it does not go on after an error that meets a tolerance -/
  goesOn : ∀ i e q, i + 1 < xs.length → info.absErrs[i]? = some e → info.relErrs[i]? = some q →
    PyNum.lt absTol e = true ∧ PyNum.lt relTol q = true
  /-- it stops at `max_iter`, or when the last error meets a tolerance, or at once if a tolerance is
  not a number -/
  stops : xs.length = maxIter.toNat ∨
    (∃ e q, info.absErrs.getLast? = some e ∧ info.relErrs.getLast? = some q ∧
      (PyNum.lt absTol e = false ∨ PyNum.lt relTol q = false)) ∨
    (xs = [] ∧ (PyNum.le absTol absTol = false ∨ PyNum.le relTol relTol = false))

/-- A faithful report of a minimization from `x0` whose optimizer would visit `its` (iterate and
objective), that returned `x` and reported `info`: the first `k` of them were visited. -/
structure MinimizeRun [PyNum K] (absTol relTol : K) (x0 : List K) (its : List (List K × K)) (k : Nat)
    (x : List K) (info : SolverInfo K) : Prop where
  bound : k ≤ its.length
  /-- one absolute error per callback -/
  abs : info.absErrs = (its.take k).map (·.2)
  /-- and one relative error: by the first error -/
  rel : info.relErrs = info.absErrs.map fun e => e / info.absErrs.headD e
  /-- it does not go on after an entry below a tolerance -/
  goesOn : ∀ i e q, i + 1 < k → info.absErrs[i]? = some e → info.relErrs[i]? = some q →
    PyNum.lt q relTol = false ∧ PyNum.lt e absTol = false
  /-- it stops when the optimizer does, or at an entry below a tolerance -/
  stops : k = its.length ∨ ∃ e q, info.absErrs.getLast? = some e ∧ info.relErrs.getLast? = some q ∧
    (PyNum.lt q relTol = true ∨ PyNum.lt e absTol = true)
  /-- the result is the last iterate visited -/
  last : x = (((its.take k).map (·.1)).getLast?).getD x0

/-- An optimizer that reports the objective at the iterates it visits, keeps the number of
coordinates, and passes on exceptions of the objective. -/
structure Optimizes (num : Numerics K) : Prop where
  reports : ∀ f x m its, num.iterates f x m = .ok its → ∀ it ∈ its, f it.1 = .ok it.2
  size : ∀ f x m its, num.iterates f x m = .ok its → ∀ it ∈ its, it.1.length = x.length
  raises : ∀ f x m e, f x = .error e → num.iterates f x m = .error e

/-- The Euclidean norm of a vector. -/
noncomputable def norm2 (v : List ℝ) : ℝ := Real.sqrt ((v.map fun x => x ^ 2).sum)

/-- Two primitive trees have the same paths, classes, keys and vector sizes, and two nodes share
one vector in one tree exactly if they do so in the other. -/
structure SameStructure (a b : Prim K) : Prop where
  paths : ∀ p, (∃ m, a.At p m) ↔ ∃ m, b.At p m
  nodes : ∀ p m m', a.At p m → b.At p m' →
    m.ty = m'.ty ∧ m.keys = m'.keys ∧ m.value.arr.length = m'.value.arr.length
  sharing : ∀ p q m n m' n', a.At p m → a.At q n → b.At p m' → b.At q n' →
    (m.value.id = n.value.id ↔ m'.value.id = n'.value.id)

/-- The same tree with possibly other array objects: same paths, classes, keys and numbers. -/
def SameGeometry (a b : Prim K) : Prop :=
  (∀ p, (∃ m, a.At p m) ↔ ∃ m, b.At p m) ∧
  ∀ p m m', a.At p m → b.At p m' → m.ty = m'.ty ∧ m.keys = m'.keys ∧ m.value.arr = m'.value.arr

/-- A primitive tree that the solver can be given: no key twice at a node, no `/` in a key, and one
array has one identity. -/
structure PrimOK (p : Prim K) : Prop where
  wf : p.WF
  slashFree : p.SlashFree
  ident : IdentOK PVal.id p

/-! ## Exact numerics -/

/-- A vector of real numbers as an array. -/
def vec {n : Nat} (x : Fin n → ℝ) : List Flt := List.ofFn fun i => .fin (x i)

/-- A matrix of real numbers as a list of rows. -/
def mat {m n : Nat} (M : Matrix (Fin m) (Fin n) ℝ) : List (List Flt) := List.ofFn fun i => vec (M i)

/-- The sum of the squares of the entries. -/
def sq {n : Nat} (x : Fin n → ℝ) : ℝ := ∑ i, x i ^ 2

/-- `M` is the Jacobian matrix at `x` of the function `res` on arrays: near `x` this function
returns finite numbers, and it is differentiable at `x` with derivative `M`. -/
def IsJacobian {m n : Nat} (res : List Flt → Py (List Flt)) (x : Fin n → ℝ)
    (M : Matrix (Fin m) (Fin n) ℝ) : Prop :=
  ∃ F : (Fin n → ℝ) → Fin m → ℝ, (∀ᶠ y in nhds x, res (vec y) = .ok (vec (F y))) ∧
    HasFDerivAt F (LinearMap.toContinuousLinearMap M.mulVecLin) x

/-- `d` is the least squares solution of `M d = b`: it minimizes `|M d - b|`, and it is the shortest
one that does. -/
structure IsLstsq {m n : Nat} (M : Matrix (Fin m) (Fin n) ℝ) (b : Fin m → ℝ) (d : Fin n → ℝ) : Prop where
  least : ∀ e, sq (M.mulVec d - b) ≤ sq (M.mulVec e - b)
  shortest : ∀ e, sq (M.mulVec e - b) = sq (M.mulVec d - b) → sq d ≤ sq e

/-- Numerical routines without rounding: wherever a Jacobian matrix exists it is what `jax.jacfwd`
returns, and `np.linalg.lstsq` returns the least squares solution. -/
structure Exact (num : Numerics Flt) : Prop where
  jacobian : ∀ {m n : Nat} (res : List Flt → Py (List Flt)) (x : Fin n → ℝ)
    (M : Matrix (Fin m) (Fin n) ℝ), IsJacobian res x M → num.jacobian res (vec x) = .ok (mat M)
  lstsq : ∀ {m n : Nat} (M : Matrix (Fin m) (Fin n) ℝ) (b : Fin m → ℝ),
    ∃ d, IsLstsq M b d ∧ num.lstsq n (mat M) (vec b) = .ok (vec d)

/-- All coordinates are finite. -/
def Prim.Finite (p : Prim Flt) : Prop :=
  ∀ path (n : Prim Flt), p.At path n → ∀ v ∈ n.value.arr, ∃ x, v = .fin x

/-- No line of length zero: wherever a node has two children (as a line has its end points), the
difference of their arrays is not a vector of zeros. -/
def Prim.NoZeroLines (p : Prim Flt) : Prop :=
  ∀ path (n a b : Prim Flt), p.At path n → n.values = [a, b] → ∀ v,
    Arr.sub (.vec b.value.arr) (.vec a.value.arr) = .ok (.vec v) → v = [] ∨ ∃ x ∈ v, x ≠ .fin 0

/-- No line that points in the direction of the negative `x` axis, where `arctan2` jumps from `π` to
`-π`. -/
def Prim.NoLeftLines (p : Prim Flt) : Prop :=
  ∀ path (n a b : Prim Flt), p.At path n → n.values = [a, b] → ∀ x rest,
    Arr.sub (.vec b.value.arr) (.vec a.value.arr) = .ok (.vec (.fin x :: .fin 0 :: rest)) → 0 < x

/-- The constraints that measure the length of a line (or divide by it). -/
def Shipped.MeasuresLength : Shipped → Prop
  | .length | .relativeLength | .angle | .pointOnLineDistance | .pointToLineDistance
  | .relativePointOnLineDistance | .aspectRatio | .grid _ _ | .positionAxisLabel _ _ => True
  | _ => False

/-- The constraint `s` is differentiable at the geometry `p`: if it measures lengths, no line is a
single point, and if it measures angles, no line points to the left. -/
def Shipped.SmoothAt (p : Prim Flt) (s : Shipped) : Prop :=
  (s.MeasuresLength → ∀ k q, p.getChild k = .ok q → Prim.NoZeroLines q) ∧
  (s = .angle → ∀ k q, p.getChild k = .ok q → Prim.NoLeftLines q)

/-- The constraints that are affine functions of the coordinates. -/
def Shipped.IsAffine : Shipped → Prop
  | .fix | .directedDistance | .xDistance | .yDistance | .coincident | .directedLength | .xLength
  | .yLength | .vertical | .horizontal | .midpointXDistance | .midpointYDistance | .coincidentLines
  | .box | .width | .height | .axisThickness _ | .margin _ _ | .outerMarginArray _ _
  | .coincidentOutwardFaces _ | .positionAxis _ _ _ => True
  | .length | .relativeLength | .orthogonal | .parallel | .angle | .collinear
  | .pointOnLineDistance | .pointToLineDistance | .relativePointOnLineDistance | .aspectRatio
  | .align _ | .rectilinearGrid _ _ | .grid _ _ | .positionAxisLabel _ _ => False

/-- A call that adds trees, or one of the shipped constraints of the given kind. -/
def LayoutOp.Uses (kind : Shipped → Prop) : LayoutOp Flt → Prop
  | .addPrim prim _ => prim.WF
  | .addPrims prims => ∀ kp ∈ prims, kp.2.WF
  | .addConstraint c _ _ _ => ∃ s : Shipped, s.build = .ok c ∧ s.SizeOK ∧ kind s

/-- `s` is the sum of the squared residuals of the layout at the geometry `p`, which are all finite. -/
def Layout.Misfit (l : Layout Flt) (p : Prim Flt) (s : ℝ) : Prop :=
  ∃ v : List ℝ, l.residual p = .ok (v.map .fin) ∧ s = (v.map (· ^ 2)).sum

/-- A list of paths with exactly one path for each array that the tree holds. -/
structure Represents (a : Prim K) (ps : List (List Str)) : Prop where
  paths : ∀ p ∈ ps, ∃ m, a.At p m
  all : ∀ q m, a.At q m → ∃ p n, p ∈ ps ∧ a.At p n ∧ n.value.id = m.value.id
  once : ps.Pairwise fun p q => ∀ m n, a.At p m → a.At q n → m.value.id ≠ n.value.id

/-- The coordinates found at the paths, one after the other. -/
def CoordsAt (a : Prim Flt) (ps : List (List Str)) (xs : List ℝ) : Prop :=
  ∃ xss : List (List ℝ), List.Forall₂ (fun p x => ∃ n, a.At p n ∧ n.value.arr = x.map .fin) ps xss ∧
    xs = xss.flatten

/-- `s` is the squared distance between two geometries: the sum of the squared changes of all
coordinates, those of shared arrays counted once. -/
def Moved (ps : List (List Str)) (a b : Prim Flt) (s : ℝ) : Prop :=
  ∃ xs ys, CoordsAt a ps xs ∧ CoordsAt b ps ys ∧ s = (List.zipWith (fun x y => (y - x) ^ 2) xs ys).sum

/-- No geometry of the same structure that is near enough has a smaller sum of squared residuals than
the layout's own geometry. -/
def Layout.LocallyBest (l : Layout Flt) : Prop :=
  ∃ s ps ε, l.Misfit l.prim s ∧ Represents l.prim ps ∧ 0 < ε ∧
    ∀ r' t s', PrimOK r' → SameStructure l.prim r' → r'.Finite → Moved ps l.prim r' t → t < ε →
      l.Misfit r' s' → s ≤ s'

/-- Every entry is zero. -/
def Zeros (v : List Flt) : Prop := ∀ x ∈ v, x = .fin 0

end MplLayout
