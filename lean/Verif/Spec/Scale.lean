import Verif.Spec.Shift
import Verif.Spec.Layout
import Verif.Model.Drawing

/-!
# Scaling: all coordinates and all lengths multiplied by the same number
-/

namespace MplLayout

open Flt

/-- Every coordinate of the tree multiplied by `s`. -/
noncomputable def scalePrim (s : ℝ) (p : Prim Flt) : Prim Flt :=
  p.mapV fun v => ⟨v.id, v.arr.map (fin s * ·)⟩

mutual
/-- A parameter with all its numbers multiplied by `s`; `True` counts as 1 and `False` as 0.  For the
axis of a figure it is the size of the figure that is multiplied (positions inside of the figure are
relative to its size). -/
noncomputable def Param.scale (s : ℝ) : Param Flt → Param Flt
  | .num x => .num (fin s * x)
  | .arr xs => .arr (xs.map (fin s * ·))
  | .bool b => .num (fin s * if b then 1 else 0)
  | .none => .none
  | .seq ps => .seq (Param.scaleL s ps)
  | .axis a => .axis { a with figWidth := fin s * a.figWidth, figHeight := fin s * a.figHeight }
/-- The same for a list. -/
noncomputable def Param.scaleL (s : ℝ) : List (Param Flt) → List (Param Flt)
  | [] => []
  | p :: ps => Param.scale s p :: Param.scaleL s ps
end

/-- Whether the `i`-th parameter of a shipped constraint is a length (or a position, as for `Fix`),
and not a direction, a ratio, an angle or a flag. -/
def Shipped.lengths : Shipped → Nat → Bool
  | .fix, _ | .xDistance, _ | .yDistance, _ | .length, _ | .xLength, _ | .yLength, _
  | .midpointXDistance, _ | .midpointYDistance, _ | .width, _ | .height, _ | .axisThickness _, _
  | .margin _ _, _ | .outerMarginArray _ _, _ => true
  | .directedDistance, i | .directedLength, i | .pointOnLineDistance, i | .pointToLineDistance, i => i == 1
  | .grid _ _, i => 2 ≤ i
  | .coincident, _ | .vertical, _ | .horizontal, _ | .relativeLength, _ | .orthogonal, _ | .parallel, _
  | .angle, _ | .collinear, _ | .coincidentLines, _ | .relativePointOnLineDistance, _ | .box, _
  | .aspectRatio, _ | .align _, _ | .coincidentOutwardFaces _, _ | .rectilinearGrid _ _, _
  | .positionAxis _ _ _, _ | .positionAxisLabel _ _, _ => false

/-- The parameters of a shipped constraint with all lengths multiplied by `s`. -/
noncomputable def Shipped.scaleParams (s : ℝ) (sh : Shipped) (ps : List (Param Flt)) : List (Param Flt) :=
  ps.mapIdx fun i p => if sh.lengths i then p.scale s else p

/-- `op` is a call that adds trees, or one of the shipped constraints of the given kind, with sizes and
parameters that make sense; and `op'` is the same call with all coordinates and lengths multiplied by
`s`. -/
def LayoutOp.Scaled (kind : Shipped → Prop) (s : ℝ) : LayoutOp Flt → LayoutOp Flt → Prop
  | .addPrim p k, op' => p.WF ∧ op' = .addPrim (scalePrim s p) k
  | .addPrims ps, op' => (∀ kp ∈ ps, kp.2.WF) ∧ op' = .addPrims (ps.map fun kp => (kp.1, scalePrim s kp.2))
  | .addConstraint c ks ps k, op' => ∃ sh : Shipped, sh.build = .ok c ∧ sh.SizeOK ∧ sh.ParamsOK ps ∧ kind sh ∧
      op' = .addConstraint c ks (sh.scaleParams s ps) k

/-- The same drawing call, where a call that sets the size of the figure makes it `s` times as large. -/
noncomputable def growFigure (s : ℝ) : DrawCall Flt → DrawCall Flt
  | .setSize w e => .setSize (fin s * w) (fin s * e)
  | c => c

end MplLayout
