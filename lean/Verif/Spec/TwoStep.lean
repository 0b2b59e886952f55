import Verif.Spec.OneStep

/-!
# Vocabulary for figures with axis labels, which are solved in two steps
-/

namespace MplLayout

open Flt

/-- The distance of a place from an edge, counted into the box. -/
def Edge.inward (e : Edge) (P : Placement) (c : ℝ × ℝ) : ℝ :=
  match e.side with
  | .bottom => c.2 - e.level P
  | .top => e.level P - c.2
  | .left => c.1 - e.level P
  | .right => e.level P - c.1

/-- The side of the frame along which the label of an axis is placed. -/
def labelEdge (a : Str) : AxisKind → Edge
  | .x => ⟨a ++ k!"/Frame", .bottom⟩
  | .y => ⟨a ++ k!"/Frame", .right⟩

/-- How far the label is from the left or the lower end of the frame. -/
noncomputable def labelOffset (a : Str) (twin : Bool) (P : Placement) : AxisKind → ℝ
  | .x => (P.point (a ++ '/' :: axisLabelKey .x twin)).1 - (P.box (a ++ k!"/Frame")).x0
  | .y => (P.point (a ++ '/' :: axisLabelKey .y twin)).2 - (P.box (a ++ k!"/Frame")).y0

/-- The demand holds of boxes that were not turned over: the distance of a point from an edge is a difference
of coordinates. -/
def Demand.Upright (P : Placement) : Demand → Prop
  | .toLine s e r v => (if r then - e.inward P (s.place P) else e.inward P (s.place P)) = v
  | d => d.Holds P

/-- The demand is about the position of a label. -/
def Demand.IsLabel : Demand → Prop
  | .label _ _ _ _ => True
  | _ => False

/-- The demands of such figures: affine ones, distances to edges, and label positions. -/
def Demand.TwoStep : Demand → Prop
  | .toLine _ _ _ _ | .label _ _ _ _ => True
  | d => d.kind.IsAffine

/-- What the first step reaches: as in the default geometry, in which the frames have size 1, labels are placed
at the given number instead of the given fraction of the frame. -/
def Demand.First (P : Placement) : Demand → Prop
  | .label a kind twin v => labelOffset a twin P kind = v
  | d => d.Upright P

/-- The edges that the demand divides by have a positive length. -/
def Demand.Spans (P : Placement) : Demand → Prop
  | .toLine _ e _ _ => 0 < e.run P
  | .label a kind _ _ => 0 < (labelEdge a kind).run P
  | _ => True

end MplLayout
