import Verif.Spec.Figure
import Verif.Props.Drawing

/-!
# Vocabulary for the second pass: the thicknesses that matplotlib measured
-/

namespace MplLayout

open Flt

/-- The demand after `update_layout_constraints(layout, view)`: the thickness of an axis box of the
axes `a` is the one of the matplotlib axis, measured on the side on which it has its ticks; all others are as before. -/
inductive Demand.Measured (view : List (Str × MplAxes Flt)) : Demand → Demand → Prop
  | thickness {a part : Str} {kind : AxisKind} {p : Param Flt} {v t : ℝ} {ax : MplAxes Flt} {side : con.Side}
      (ha : '/' ∉ a) (hax : dictGet view a = some ax)
      (hside : (ax.axis kind).ticksPosition = Props.sideName side)
      (ht : Props.thicknessOf (ax.axis kind) side = fin t) :
      Measured view (.thickness (a ++ '/' :: part) kind p v)
        (.thickness (a ++ '/' :: part) kind (.axis (ax.axis kind)) t)
  | same {d : Demand} (h : ∀ b kind p v, d ≠ .thickness b kind p v) : Measured view d d

/-- The step of the program with the measured thickness. -/
inductive FigItem.Measured (view : List (Str × MplAxes Flt)) : FigItem → FigItem → Prop
  | make (m : Make) : Measured view (.make m) (.make m)
  | ask {d d' : Demand} (h : d.Measured view d') : Measured view (.ask d) (.ask d')

end MplLayout
