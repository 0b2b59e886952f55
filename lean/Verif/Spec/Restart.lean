import Verif.Spec.Solver

/-!
# Vocabulary: a layout with another geometry
-/

namespace MplLayout

/-- The layout `l` with the geometry `p`: `Layout(p, l.root_constraint, l.root_prim_keys,
l.root_param, ...)` (layout.py:63-92). -/
def startAt (l : Layout Flt) (p : Prim Flt) : Layout Flt := { l with prim := p }

end MplLayout
