import Verif.Spec.Solver

/-!
# Vocabulary: regular solutions
-/

namespace MplLayout

/-- A geometry that satisfies all constraints, and from which no coordinate can be moved a little
without a residual changing in proportion: the sum of the squared residuals of every near enough
geometry `r'` of the same structure is at least a fixed multiple of its squared distance. -/
def Layout.RegularSolution (l : Layout Flt) (p : Prim Flt) : Prop :=
  l.Misfit p 0 ∧ ∃ ps c ε, Represents p ps ∧ 0 < c ∧ 0 < ε ∧
    ∀ r' t s, PrimOK r' → SameStructure p r' → r'.Finite → Moved ps p r' t → t < ε →
      l.Misfit r' s → c * t ≤ s

end MplLayout
