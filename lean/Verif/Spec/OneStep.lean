import Verif.Spec.Figure

/-!
# Vocabulary for figures that are solved in one step
-/

namespace MplLayout

open Flt

/-- The size of the box in the direction of an edge: its width for a horizontal edge, its height for a
vertical one. -/
noncomputable def Edge.run (e : Edge) (P : Placement) : ℝ :=
  match e.side with
  | .bottom | .top => (P.box e.box).x1 - (P.box e.box).x0
  | .left | .right => (P.box e.box).y1 - (P.box e.box).y0

/-- The coordinate that the points of an edge share. -/
def Edge.level (e : Edge) (P : Placement) : ℝ :=
  match e.side with
  | .bottom => (P.box e.box).y0
  | .top => (P.box e.box).y1
  | .left => (P.box e.box).x0
  | .right => (P.box e.box).x1

/-- The demand holds of boxes that were not turned over: lengths are differences of coordinates, and two
edges of the same kind lie on a line if they have the same height or the same distance from the left. -/
def Demand.Straight (P : Placement) : Demand → Prop
  | .length e v => e.run P = v
  | .relative e e' v => e.run P = v * e'.run P
  | .aspect b v => (P.box b).x1 - (P.box b).x0 = v * ((P.box b).y1 - (P.box b).y0)
  | .collinear e e' => e.level P = e'.level P
  | .grid R C bs ws hs ms ns => Props.GridAligned R C (cellOf C bs P) ∧
      (∀ c, c + 1 < C → (cellOf C bs P 0 (c + 1)).x1 - (cellOf C bs P 0 (c + 1)).x0
        = ws c * ((cellOf C bs P 0 0).x1 - (cellOf C bs P 0 0).x0)) ∧
      (∀ r, r + 1 < R → (cellOf C bs P (r + 1) 0).y1 - (cellOf C bs P (r + 1) 0).y0
        = hs r * ((cellOf C bs P 0 0).y1 - (cellOf C bs P 0 0).y0)) ∧
      (∀ c, c + 1 < C → (cellOf C bs P 0 (c + 1)).x0 - (cellOf C bs P 0 c).x1 = ms c) ∧
      (∀ r, r + 1 < R → (cellOf C bs P r 0).y0 - (cellOf C bs P (r + 1) 0).y1 = ns r)
  | d => d.Holds P

/-- The demands that one step of the Newton method from the default geometry satisfies: affine ones,
alignments of boxes, lines of two edges on the same side of their boxes, lengths and their ratios, which
are not negative, and squares. -/
def Demand.OneStep : Demand → Prop
  | .row _ _ | .column _ _ | .cells _ _ _ => True
  | .length _ v | .relative _ _ v => 0 ≤ v
  | .collinear e e' => e.side = e'.side
  | .aspect _ v => v = 1
  | .grid R C _ ws hs _ _ => (∀ c, c + 1 < C → 0 ≤ ws c) ∧ ∀ r, r + 1 < R → 0 ≤ hs r
  | d => d.kind.IsAffine

/-- The box of a square is not flat. -/
def Demand.Solid (P : Placement) : Demand → Prop
  | .aspect b _ => (P.box b).Proper
  | _ => True

/-- The lines that the demand measures are not points. -/
def Demand.Sized (P : Placement) : Demand → Prop
  | .length e _ => e.run P ≠ 0
  | .relative e e' _ => e.run P ≠ 0 ∧ e'.run P ≠ 0
  | .aspect b _ => (P.box b).Proper
  | .grid _ _ bs _ _ _ _ => ∀ b ∈ bs, (P.box b).Proper
  | _ => True

end MplLayout
