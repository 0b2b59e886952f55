import Verif.Model.Ui
import Verif.Spec.Geometry

/-!
# Vocabulary for drawing
-/

namespace MplLayout

open Flt

/-- `c` is stored in `n` under the key `k`. -/
def HasPart {K : Type} (n : Prim K) (k : Str) (c : Prim K) : Prop :=
  n.keys.Nodup ∧ (k, c) ∈ n.children

/-- The edge of a box on the given side, as a pair of vertices in the order in which the
quadrilateral `a b c d` runs through them. -/
def edge {α : Type} (side : con.Side) (a b c d : α) : α × α :=
  match side with
  | .bottom => (a, b)
  | .right => (b, c)
  | .top => (c, d)
  | .left => (d, a)

/-- The box `a' b' c' d'` sits on the outside of the given side of `a b c d`: the side and the
opposite side of the other box are the same segment, traversed in opposite directions. -/
def SitsOn (side : con.Side) (a b c d a' b' c' d' : ℝ × ℝ) : Prop :=
  (edge side a b c d).1 = (edge side.opposite a' b' c' d').2 ∧
  (edge side a b c d).2 = (edge side.opposite a' b' c' d').1

/-- Key of the x or y axis box of an axes. -/
def axisBoxKey (kind : AxisKind) : Str := match kind with | .x => k!"XAxis" | .y => k!"YAxis"
/-- Key of the twin axis box of an axes. -/
def twinBoxKey (kind : AxisKind) : Str :=
  match kind with | .x => k!"TwinXAxis" | .y => k!"TwinYAxis"
/-- Key of the axis label anchor of an axes. -/
def axisLabelKey (kind : AxisKind) (twin : Bool) : Str :=
  match kind, twin with
  | .x, false => k!"XAxisLabel"
  | .y, false => k!"YAxisLabel"
  | .x, true => k!"TwinXAxisLabel"
  | .y, true => k!"TwinYAxisLabel"

/-- A rectangle with non-negative width and height. -/
def Rect.Upright (r : Rect) : Prop := r.x0 ≤ r.x1 ∧ r.y0 ≤ r.y1
/-- A rectangle with positive width and height. -/
def Rect.Positive (r : Rect) : Prop := r.x0 < r.x1 ∧ r.y0 < r.y1

end MplLayout

namespace MplLayout

open Flt

/-- `root[key]` is an axes whose frame is the quadrilateral `a b c d`; its axis boxes, if present, are
quadrilaterals and its label anchors, if present, are points. -/
def AxesShape (root : Prim Flt) (key : Str) (a b c d : ℝ × ℝ) : Prop :=
  ∃ ax frame, root.getChild key = .ok ax ∧ HasPart ax k!"Frame" frame ∧ IsQuad frame a b c d ∧
    ∀ kind, (axisBoxKey kind ∈ ax.keys → ∃ q a' b' c' d', HasPart ax (axisBoxKey kind) q ∧
        IsQuad q a' b' c' d') ∧
      (axisLabelKey kind false ∈ ax.keys → ∃ p l, HasPart ax (axisLabelKey kind false) p ∧
        IsPoint p l)

end MplLayout
