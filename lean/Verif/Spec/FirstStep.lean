import Verif.Spec.OneStep

/-!
# Vocabulary for the first step of the Newton method on a figure program
-/

namespace MplLayout

/-- The equations that the first step of the Newton method solves: the equations between coordinates, but for an
aspect ratio `v` the linear approximation of width / height = `v` at the unit square. -/
def Demand.Linear (P : Placement) : Demand → Prop
  | .aspect b v => ((P.box b).x1 - (P.box b).x0) - ((P.box b).y1 - (P.box b).y0) = v - 1
  | d => d.Straight P

/-- The demands of `Demand.OneStep`, and every aspect ratio. -/
def Demand.Steps : Demand → Prop
  | .aspect _ _ => True
  | d => d.OneStep

end MplLayout
