import Verif.Model.LayoutHeap
import Verif.Spec.Layout

namespace MplLayout

/-- All parts of a layout object exist. -/
def LayoutRef.Exists {K : Type} (r : LayoutRef) (w : World K) : Prop :=
  r.prim < w.next ∧ r.cons < w.next ∧ r.keys < w.next ∧ r.params < w.next ∧ r.counter < w.next

/-- Two layout objects have no part in common. -/
def LayoutRef.Disjoint (r s : LayoutRef) : Prop :=
  r.prim ≠ s.prim ∧ r.cons ≠ s.cons ∧ r.keys ≠ s.keys ∧ r.params ≠ s.params ∧ r.counter ≠ s.counter

end MplLayout
