import Verif.Lemmas.SmoothSolve
import Verif.Lemmas.LeastSquares
import Verif.Lemmas.SolveKeeps
import Mathlib.Analysis.Calculus.LocalExtr.Basic
import Mathlib.Analysis.Calculus.FDeriv.Pow

/-!
# The Newton method at a stationary point of the sum of squares
-/

namespace MplLayout.Solver

open Flt

/-- No step is taken at a stationary point. -/
theorem lstsq_stationary {m n : Nat} {M : Matrix (Fin m) (Fin n) ℝ} {r : Fin m → ℝ} {d : Fin n → ℝ}
    (h : IsLstsq M (-r) d) (hr : ∀ v, ∑ i, r i * M.mulVec v i = 0) : d = 0 := by
  have e : ∀ v, sq (M.mulVec v - -r) = sq (M.mulVec v) + sq r := by
    intro v
    have h2 : ∑ i, (2 * (r i * M.mulVec v i)) = 0 := by rw [← Finset.mul_sum, hr, mul_zero]
    simp only [sq, Pi.sub_apply, Pi.neg_apply]
    rw [← Finset.sum_add_distrib]
    calc _ = ∑ i, ((M.mulVec v i ^ 2 + r i ^ 2) + 2 * (r i * M.mulVec v i)) :=
          Finset.sum_congr rfl fun i _ => by ring
      _ = _ := by rw [Finset.sum_add_distrib, h2, add_zero]
  have h0 := h.least 0
  rw [e, e, Matrix.mulVec_zero, sq_zero.mpr rfl] at h0
  have hM : M.mulVec d = 0 := sq_zero.mp (le_antisymm (by linarith) (sq_nonneg' _))
  have := h.shortest 0 (by rw [e, e, Matrix.mulVec_zero, hM])
  rw [sq_zero.mpr rfl] at this
  exact sq_zero.mp (le_antisymm this (sq_nonneg' _))

theorem stationary_loop {m n : Nat} {num : Numerics Flt} (hnum : ∀ (M : Matrix (Fin m) (Fin n) ℝ) b,
      ∃ d, IsLstsq M b d ∧ num.lstsq n (mat M) (vec b) = .ok (vec d))
    {res : List Flt → Py (List Flt)} {x : Fin n → ℝ} {M : Matrix (Fin m) (Fin n) ℝ} {r : Fin m → ℝ}
    (hx : res (vec x) = .ok (vec r)) (hj : num.jacobian res (vec x) = .ok (mat M)) (hr : ∀ v, ∑ i, r i * M.mulVec v i = 0)
    (absTol relTol : Flt) (maxIter : Int) (fuel : Nat) :
    ∀ s : NewtonState Flt, s.param = vec x → maxIter.toNat - s.n < fuel →
      ∃ s', newtonLoop num res absTol relTol maxIter fuel s = some (.ok s') ∧ s'.param = vec x := by
  induction fuel with
  | zero => intro s _ h; omega
  | succ fuel ih =>
    intro s hs hfuel
    by_cases hc : continues absTol relTol maxIter s = true
    · obtain ⟨d, hd, e⟩ := hnum M (-r)
      have hd0 : d = 0 := lstsq_stationary hd hr
      have e1 := newtonStep_vec hx hj e s hs
      rw [hd0, add_zero] at e1
      generalize hs1 : (NewtonState.mk (vec x) _ _ _ _ _ : NewtonState Flt) = s1 at e1
      have p1 : s1.param = vec x := by rw [← hs1]
      have p2 : s1.n = s.n + 1 := by rw [← hs1]
      have hlt : (s.n : Int) < maxIter := by
        simp only [continues, Bool.and_eq_true, decide_eq_true_eq] at hc
        exact hc.2
      obtain ⟨s2, f1, f2⟩ := ih s1 p1 (by omega)
      refine ⟨s2, ?_, f2⟩
      simp only [newtonLoop, hc, if_true, e1]
      exact f1
    · refine ⟨s, ?_, hs⟩
      simp only [newtonLoop, hc, if_false, Bool.false_eq_true]

/-- A local minimum of the sum of squares is a stationary point. -/
theorem stationary_of_min {m n : Nat} {x : Fin n → ℝ} {M : Matrix (Fin m) (Fin n) ℝ}
    {F : (Fin n → ℝ) → Fin m → ℝ} (hF : HasFDerivAt F (LinearMap.toContinuousLinearMap M.mulVecLin) x)
    (hmin : IsLocalMin (fun y => sq (F y)) x) (v : Fin n → ℝ) : ∑ i, F x i * M.mulVec v i = 0 := by
  have h1 : ∀ i, HasFDerivAt (fun y => F y i) ((ContinuousLinearMap.proj i).comp
      (LinearMap.toContinuousLinearMap M.mulVecLin)) x := fun i =>
    (ContinuousLinearMap.proj (R := ℝ) (φ := fun _ : Fin m => ℝ) i).hasFDerivAt.comp x hF
  have h2 : HasFDerivAt (fun y => sq (F y)) (∑ i, (2 * F x i) • (ContinuousLinearMap.proj i).comp
      (LinearMap.toContinuousLinearMap M.mulVecLin)) x := by
    simp only [sq]
    refine HasFDerivAt.fun_sum fun i _ => ?_
    simpa using (h1 i).pow 2
  have h3 := hmin.hasFDerivAt_eq_zero h2
  have h4 := congrArg (fun L => L v) h3
  simp only [ContinuousLinearMap.sum_apply, ContinuousLinearMap.smul_apply] at h4
  have h5 : ∑ i, 2 * F x i * M.mulVec v i = 0 := h4
  simp only [mul_assoc] at h5
  rw [← Finset.mul_sum] at h5
  linarith

end MplLayout.Solver
