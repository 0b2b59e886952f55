import Verif.Spec.Solver

/-!
# Vocabulary: numerical routines with rounding errors
-/

namespace MplLayout

/-- The Euclidean length of a vector. -/
noncomputable def len {n : Nat} (x : Fin n → ℝ) : ℝ := Real.sqrt (sq x)

/-- Differentiation and linear algebra with errors: the vector `d'` that `jax.jacfwd` followed by
`np.linalg.lstsq` delivers for a residual function need not be the least squares solution `d` of
`M d = -r`, but it differs from it by at most the part `ε` of its length, plus `δ`. -/
structure Rounded (ε δ : ℝ) (num : Numerics Flt) : Prop where
  step : ∀ {m n : Nat} (res : List Flt → Py (List Flt)) (x : Fin n → ℝ)
    (M : Matrix (Fin m) (Fin n) ℝ) (r : Fin m → ℝ), IsJacobian res x M → res (vec x) = .ok (vec r) →
    ∃ J d d', num.jacobian res (vec x) = .ok J ∧ num.lstsq n J (vec (-r)) = .ok (vec d') ∧
      IsLstsq M (-r) d ∧ len (d' - d) ≤ ε * len d + δ

/-- No geometry of the same structure has a smaller sum of squared residuals. -/
def Layout.BestFit (l : Layout Flt) (r : Prim Flt) : Prop :=
  PrimOK r ∧ SameStructure l.prim r ∧ r.Finite ∧
  ∃ s, l.Misfit r s ∧ ∀ r', PrimOK r' → SameStructure l.prim r' → r'.Finite →
    ∃ s', l.Misfit r' s' ∧ s ≤ s'

/-- `d` is the distance of two geometries: the root of the sum of the squared changes of all
coordinates. -/
def Distance (ps : List (List Str)) (a b : Prim Flt) (d : ℝ) : Prop :=
  0 ≤ d ∧ Moved ps a b (d ^ 2)

end MplLayout
