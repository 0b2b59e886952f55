import Verif.Spec.Solver
import Verif.Model.Dual
import Verif.Model.Tape

/-!
# Vocabulary for automatic differentiation
-/

namespace MplLayout

open Flt

/-- Calling the constructor: the same constraint for any kind of numbers (`Shipped.build` is the
instance for `Flt`). -/
def Shipped.make (K : Type) [PyNum K] : Shipped → Py (Cons K)
  | .fix => ct.fix
  | .directedDistance => ct.directedDistance
  | .xDistance => ct.xDistance
  | .yDistance => ct.yDistance
  | .coincident => .ok ct.coincident
  | .length => ct.length
  | .directedLength => ct.directedLength
  | .xLength => ct.xLength
  | .yLength => ct.yLength
  | .vertical => .ok ct.vertical
  | .horizontal => .ok ct.horizontal
  | .relativeLength => ct.relativeLength
  | .midpointXDistance => ct.midpointXDistance
  | .midpointYDistance => ct.midpointYDistance
  | .orthogonal => .ok ct.orthogonal
  | .parallel => .ok ct.parallel
  | .angle => ct.angle
  | .collinear => .ok ct.collinear
  | .coincidentLines => .ok ct.coincidentLines
  | .pointOnLineDistance => ct.pointOnLineDistance
  | .pointToLineDistance => ct.pointToLineDistance
  | .relativePointOnLineDistance => ct.relativePointOnLineDistance
  | .box => ct.box
  | .width => ct.width
  | .height => ct.height
  | .aspectRatio => ct.aspectRatio
  | .axisThickness axis => ct.axisThickness axis
  | .margin outer side => ct.margin outer side
  | .outerMarginArray n side => ct.outerMarginArray n side
  | .align row => ct.align row
  | .coincidentOutwardFaces side => ct.coincidentOutwardFaces side
  | .rectilinearGrid rows cols => ct.rectilinearGrid rows cols
  | .grid rows cols => ct.grid rows cols
  | .positionAxis axis side twin => ct.positionAxis axis side twin
  | .positionAxisLabel axis twin => ct.positionAxisLabel axis twin

/-- Change the numbers of a box. -/
def Bbox.mapK {K L : Type} (f : K → L) (b : Bbox K) : Bbox L := ⟨f b.xmin, f b.ymin, f b.xmax, f b.ymax⟩

/-- Change the numbers of an axis. -/
def MplAxis.mapK {K L : Type} (f : K → L) (a : MplAxis K) : MplAxis L :=
  ⟨a.labelVisible, fun b => (a.tightbbox b).map (Bbox.mapK f), a.ticksPosition, f a.figWidth, f a.figHeight,
    a.axesBbox.mapK f⟩

mutual
/-- Change the numbers of a parameter. -/
def Param.mapK {K L : Type} (f : K → L) : Param K → Param L
  | .num x => .num (f x)
  | .arr xs => .arr (xs.map f)
  | .bool b => .bool b
  | .none => .none
  | .seq ps => .seq (Param.mapKL f ps)
  | .axis a => .axis (a.mapK f)
/-- The same for a list. -/
def Param.mapKL {K L : Type} (f : K → L) : List (Param K) → List (Param L)
  | [] => []
  | p :: ps => p.mapK f :: Param.mapKL f ps
end

/-- Change the numbers of a primitive. -/
def Prim.mapK {K L : Type} (f : K → L) (p : Prim K) : Prim L := Node.mapV (fun v => ⟨v.id, v.arr.map f⟩) p

/-- One call in a program that builds a layout from the shipped constraints; all numbers in it are
floating point constants. -/
inductive BuildCall where
  | addPrim (prim : Prim Flt) (key : Str)
  | addPrims (prims : List (Str × Prim Flt))
  | addConstraint (s : Shipped) (primKeys : List Str) (param : List (Param Flt)) (key : Str)

/-- The call with numbers of the type `K`, where `up` turns a constant into such a number (`jax` runs
the same Python code with its own numbers); nothing if the constructor of the constraint raises an
exception. -/
def BuildCall.call (K : Type) [PyNum K] (up : Flt → K) : BuildCall → Option (LayoutOp K)
  | .addPrim p key => some (.addPrim (p.mapK up) key)
  | .addPrims ps => some (.addPrims (ps.map fun kp => (kp.1, kp.2.mapK up)))
  | .addConstraint s ks ps key => match s.make K with
    | .ok c => some (.addConstraint c ks (ps.map (Param.mapK up)) key)
    | .error _ => none

/-- The layout that a program builds, with numbers of the type `K`. -/
def layoutWith (K : Type) [PyNum K] (up : Flt → K) (id : Nat) (prog : List BuildCall) : Layout K :=
  (Layout.empty id).run (prog.filterMap (BuildCall.call K up))

/-- The layout that a program builds. -/
noncomputable def builtLayout (id : Nat) (prog : List BuildCall) : Layout Flt := layoutWith Flt (fun x => x) id prog

/-- What `jax` sees of it: the same layout with numbers that carry tangents. -/
noncomputable def tracedLayout (id : Nat) (prog : List BuildCall) : Layout Dual := layoutWith Dual Dual.const id prog

/-- What `jax` sees of it in reverse mode: the same layout with numbers that record their tangents. -/
noncomputable def tapedLayout (id : Nat) (prog : List BuildCall) : Layout Tape := layoutWith Tape Tape.const id prog

/-- The layout that a program builds, with the coordinates of `r0` in place of its own (the same drawing
from another starting point). -/
noncomputable def builtFrom (id : Nat) (prog : List BuildCall) (r0 : Prim Flt) : Layout Flt :=
  { builtLayout id prog with prim := r0 }

/-- What `jax` sees of it. -/
noncomputable def tracedFrom (id : Nat) (prog : List BuildCall) (r0 : Prim Flt) : Layout Dual :=
  { tracedLayout id prog with prim := r0.mapK Dual.const }

/-- Numerical routines that differentiate the residual `res` of a layout by running `jax`'s rules on the
traced residual `traced`, and solve least squares problems without rounding. -/
structure ForwardMode (num : Numerics Flt) (res : List Flt → Py (List Flt))
    (traced : List Dual → Py (List Dual)) : Prop where
  jacobian : ∀ x, num.jacobian res x = jacfwd traced x
  lstsq : ∀ {m n : Nat} (M : Matrix (Fin m) (Fin n) ℝ) (b : Fin m → ℝ),
    ∃ d, IsLstsq M b d ∧ num.lstsq n (mat M) (vec b) = .ok (vec d)

/-- All entries are finite. -/
def FiniteMatrix (J : List (List Flt)) : Prop :=
  ∀ row ∈ J, ∀ a ∈ row, ∃ y, a = fin y

/-- The least squares routine does not turn a matrix with entries that are not finite into a finite
vector: it raises (`LinAlgError`), or its result is not finite either. -/
def KeepsBad (num : Numerics Flt) : Prop :=
  ∀ n J b d, num.lstsq n J b = .ok d → ¬ FiniteMatrix J → bad ∈ d

/-- Every line has a direction in the `xy` plane. -/
def Prim.HasDirections (p : Prim Flt) : Prop :=
  ∀ path (n a b : Prim Flt), p.At path n → n.values = [a, b] → ∀ rest,
    Arr.sub (.vec b.value.arr) (.vec a.value.arr) ≠ .ok (.vec (.fin 0 :: .fin 0 :: rest))

/-- The derivative rules of the constraint `s` are finite at the geometry `p`: if it measures lengths, no
line is a single point, and if it measures angles, every line has a direction (lines to the left, where
the angle jumps, are allowed). -/
def Shipped.FiniteAt (p : Prim Flt) (s : Shipped) : Prop :=
  (s.MeasuresLength → ∀ k q, p.getChild k = .ok q → Prim.NoZeroLines q) ∧
  (s = .angle → ∀ k q, p.getChild k = .ok q → Prim.HasDirections q)

/-- The objective `obj` is a finite differentiable function near `x`, and `G` is its gradient at `x`. -/
def IsGradient {n : Nat} (obj : List Flt → Py Flt) (x G : Fin n → ℝ) : Prop :=
  ∃ Φ : (Fin n → ℝ) → ℝ, (∀ᶠ y in nhds x, obj (vec y) = .ok (fin (Φ y))) ∧
    HasFDerivAt Φ (∑ j, G j • ContinuousLinearMap.proj (R := ℝ) (φ := fun _ : Fin n => ℝ) j) x

/-- An optimizer that reports nothing and stops if no entry of the gradient that it is given exceeds `tol`
at the start (`scipy`'s L-BFGS-B, with `tol = pgtol = 1e-5`). -/
def StopsAtGradient (num : Numerics Flt) (tol : ℝ) (obj : List Flt → Py Flt) (taped : List Tape → Py Tape) :
    Prop :=
  ∀ {n : Nat} (x G : Fin n → ℝ) v m, valueAndGrad taped (vec x) = .ok (v, vec G) → (∀ j, |G j| ≤ tol) →
    num.iterates obj (vec x) m = .ok []

/-- A call with proper trees (no key twice below a node), or with a constraint of the given kind. -/
def BuildCall.OK (kind : Shipped → Prop) : BuildCall → Prop
  | .addPrim p _ => p.WF
  | .addPrims ps => ∀ kp ∈ ps, kp.2.WF
  | .addConstraint s _ _ _ => s.SizeOK ∧ kind s

/-- Every constraint of the program has the property. -/
def Uses (prog : List BuildCall) (P : Shipped → Prop) : Prop :=
  ∀ s ks ps key, BuildCall.addConstraint s ks ps key ∈ prog → P s

end MplLayout
