import Verif.Lemmas.SmoothSolve
import Verif.Lemmas.LeastSquares
import Mathlib.Analysis.Calculus.ContDiff.RCLike
import Mathlib.Analysis.Calculus.MeanValue
import Mathlib.Analysis.Normed.Module.FiniteDimension

/-!
# One Newton step near a regular zero
-/

namespace MplLayout.Solver

section norms
variable {n : Nat}

theorem norm_sq_le (v : Fin n → ℝ) : ‖v‖ ^ 2 ≤ sq v := by
  by_cases hn : Nonempty (Fin n)
  · obtain ⟨i, hi⟩ : ∃ i, ‖v‖ ≤ ‖v i‖ := by
      by_contra h
      push Not at h
      exact lt_irrefl _ ((pi_norm_lt_iff ((norm_nonneg _).trans_lt (h hn.some))).mpr h)
    have : ‖v‖ ^ 2 ≤ ‖v i‖ ^ 2 := by gcongr
    refine this.trans ?_
    rw [Real.norm_eq_abs, sq_abs]
    exact Finset.single_le_sum (f := fun i => v i ^ 2) (fun i _ => sq_nonneg _) (Finset.mem_univ i)
  · have : IsEmpty (Fin n) := not_nonempty_iff.mp hn
    have : v = 0 := Subsingleton.elim _ _
    subst this
    simp [sq]

theorem sq_le_norm (v : Fin n → ℝ) : sq v ≤ n * ‖v‖ ^ 2 := by
  have : ∀ i ∈ Finset.univ, v i ^ 2 ≤ ‖v‖ ^ 2 := by
    intro i _
    rw [← sq_abs (v i), ← Real.norm_eq_abs]
    have := norm_le_pi_norm v i
    gcongr
  have := Finset.sum_le_card_nsmul _ _ _ this
  simpa [sq] using this

theorem sq_sub_le (a b : Fin n → ℝ) : sq (a - b) ≤ 2 * sq a + 2 * sq b := by
  simp only [sq, Finset.mul_sum, ← Finset.sum_add_distrib, Pi.sub_apply]
  refine Finset.sum_le_sum fun i _ => ?_
  nlinarith [sq_nonneg (a i + b i)]

end norms

variable {m n : Nat} {F : (Fin n → ℝ) → Fin m → ℝ} {a : Fin n → ℝ}

/-- If the residuals grow with the distance from a zero, then the derivative there is injective. -/
theorem regular_injective (hF : DifferentiableAt ℝ F a) (h0 : F a = 0) {c : ℝ} (hc : 0 < c)
    (h : ∀ᶠ y in nhds a, c * sq (y - a) ≤ sq (F y)) (v : Fin n → ℝ) (hv : fderiv ℝ F a v = 0) : v = 0 := by
  by_contra hne
  have hpos : 0 < ‖v‖ := norm_pos_iff.mpr hne
  obtain ⟨ε, hε, hlt⟩ : ∃ ε : ℝ, 0 < ε ∧ m * ε ^ 2 < c := by
    refine ⟨Real.sqrt (c / (m + 1)), Real.sqrt_pos.mpr (by positivity), ?_⟩
    rw [Real.sq_sqrt (by positivity), mul_div_assoc', div_lt_iff₀ (by positivity)]
    nlinarith
  have ho := hF.hasFDerivAt.isLittleO.def hε
  obtain ⟨r, hr, hball⟩ := Metric.eventually_nhds_iff.mp (ho.and h)
  set t : ℝ := r / (2 * ‖v‖) with ht
  have htpos : 0 < t := by positivity
  have hn : ‖t • v‖ = r / 2 := by
    rw [norm_smul, Real.norm_eq_abs, abs_of_pos htpos, ht]
    field_simp
  have hd : dist (a + t • v) a < r := by
    rw [dist_eq_norm, add_sub_cancel_left, hn]; linarith
  obtain ⟨h1, h2⟩ := hball hd
  rw [add_sub_cancel_left, map_smul, hv, smul_zero, h0, sub_zero, sub_zero] at h1
  rw [add_sub_cancel_left] at h2
  have h3 : sq (F (a + t • v)) ≤ m * (ε * ‖t • v‖) ^ 2 := by
    refine (sq_le_norm _).trans ?_
    gcongr
  have h4 := norm_sq_le (t • v)
  have h5 : c * ‖t • v‖ ^ 2 ≤ m * ε ^ 2 * ‖t • v‖ ^ 2 := by
    calc c * ‖t • v‖ ^ 2 ≤ c * sq (t • v) := by gcongr
      _ ≤ _ := h2
      _ ≤ _ := h3
      _ = _ := by ring
  have h6 : 0 < ‖t • v‖ ^ 2 := by rw [hn]; positivity
  nlinarith

/-- One step of Newton's method from near enough squares the distance to a regular zero. -/
theorem newton_contract (hF : ContDiffAt ℝ 2 F a) (h0 : F a = 0)
    (hinj : ∀ v, fderiv ℝ F a v = 0 → v = 0) :
    ∃ C > 0, ∀ᶠ x in nhds a, ∀ d, IsLstsq (LinearMap.toMatrix' (fderiv ℝ F x).toLinearMap) (- F x) d →
      sq (x + d - a) ≤ C * sq (x - a) ^ 2 := by
  obtain ⟨K, hK, hanti⟩ := LinearMap.exists_antilipschitzWith (fderiv ℝ F a).toLinearMap
    (LinearMap.ker_eq_bot'.mpr hinj)
  have hlow : ∀ v, ‖v‖ ≤ K * ‖fderiv ℝ F a v‖ := by
    intro v
    have := hanti.le_mul_dist v 0
    simpa using this
  have hder : ContDiffAt ℝ 1 (fderiv ℝ F) a := hF.fderiv_right (by norm_num)
  obtain ⟨L, s, hs, hlip⟩ := hder.exists_lipschitzOnWith
  have hdiff : ∀ᶠ x in nhds a, DifferentiableAt ℝ F x :=
    (hF.eventually (by simp)).mono fun x hx => hx.differentiableAt (by norm_num)
  have hclose : ∀ᶠ x in nhds a, ‖fderiv ℝ F x - fderiv ℝ F a‖ < 1 / (2 * K) := by
    have := (hder.continuousAt.sub (continuousAt_const (y := fderiv ℝ F a))).norm
    refine this.eventually_lt_const ?_
    simp
    positivity
  obtain ⟨r, hr, hball⟩ := Metric.eventually_nhds_iff.mp (hdiff.and (hclose.and hs))
  refine ⟨n * (2 * K) ^ 2 * (4 * (m * (2 * L) ^ 2)) + 1, by positivity, ?_⟩
  filter_upwards [Metric.ball_mem_nhds a hr] with x hx d hd
  set A := fderiv ℝ F x with hA
  have hmul : ∀ v, (LinearMap.toMatrix' A.toLinearMap).mulVec v = A v := fun v => by
    rw [LinearMap.toMatrix'_mulVec]; rfl
  -- the remainder of Taylor's expansion at `x`
  have hR : ‖A (a - x) - - F x‖ ≤ 2 * L * ‖x - a‖ ^ 2 := by
    have hconv : Convex ℝ (Metric.closedBall a (dist x a)) := convex_closedBall _ _
    have hin : ∀ z ∈ Metric.closedBall a (dist x a), dist z a < r := fun z hz =>
      (Metric.mem_closedBall.mp hz).trans_lt (Metric.mem_ball.mp hx)
    have := hconv.norm_image_sub_le_of_norm_hasFDerivWithin_le' (f := F) (f' := fderiv ℝ F) (φ := A)
      (C := 2 * L * ‖x - a‖) (x := x) (y := a)
      (fun z hz => (hball (hin z hz)).1.hasFDerivAt.hasFDerivWithinAt) (fun z hz => ?_)
      (Metric.mem_closedBall.mpr le_rfl) (Metric.mem_closedBall_self dist_nonneg)
    · rw [h0] at this
      calc ‖A (a - x) - - F x‖ = ‖0 - F x - A (a - x)‖ := by rw [← norm_neg]; congr 1; abel
        _ ≤ _ := this
        _ = _ := by rw [norm_sub_rev a x]; ring
    · have h1 := hlip.dist_le_mul z (hball (hin z hz)).2.2 x (hball (Metric.mem_ball.mp hx)).2.2
      rw [dist_eq_norm] at h1
      refine h1.trans ?_
      have h2 : dist z x ≤ 2 * ‖x - a‖ := by
        have := dist_triangle z a x
        rw [dist_comm a x] at this
        have := Metric.mem_closedBall.mp hz
        rw [← dist_eq_norm]
        linarith
      nlinarith [L.coe_nonneg]
  have hlow' : ∀ v, ‖v‖ ≤ 2 * K * ‖A v‖ := by
    intro v
    have h1 := hlow v
    have h2 : ‖fderiv ℝ F a v‖ ≤ ‖A v‖ + 1 / (2 * K) * ‖v‖ := by
      have e : fderiv ℝ F a v = A v - (A - fderiv ℝ F a) v := by simp
      rw [e]
      refine (norm_sub_le _ _).trans ?_
      have := (A - fderiv ℝ F a).le_opNorm v
      have h3 := (hball (Metric.mem_ball.mp hx)).2.1.le
      have := this.trans (mul_le_mul_of_nonneg_right h3 (norm_nonneg v))
      linarith
    have hK' : (0 : ℝ) < K := by exact_mod_cast hK
    have h3 : (K : ℝ) * ‖fderiv ℝ F a v‖ ≤ K * (‖A v‖ + 1 / (2 * K) * ‖v‖) := by gcongr
    have h4 : (K : ℝ) * (‖A v‖ + 1 / (2 * K) * ‖v‖) = K * ‖A v‖ + ‖v‖ / 2 := by field_simp
    linarith
  have e1 : A (x + d - a) = (A d - - F x) - (A (a - x) - - F x) := by
    rw [sub_sub_sub_cancel_right, ← map_sub]; congr 1; abel
  have h1 : sq (A d - - F x) ≤ sq (A (a - x) - - F x) := by
    have := hd.least (a - x)
    rwa [hmul, hmul] at this
  have h2 : sq (A (x + d - a)) ≤ 4 * sq (A (a - x) - - F x) := by
    rw [e1]
    have := sq_sub_le (A d - - F x) (A (a - x) - - F x)
    linarith
  have h3 : sq (A (a - x) - - F x) ≤ m * (2 * L * ‖x - a‖ ^ 2) ^ 2 := by
    refine (sq_le_norm _).trans ?_
    gcongr
  calc sq (x + d - a) ≤ n * ‖x + d - a‖ ^ 2 := sq_le_norm _
    _ ≤ n * (2 * K * ‖A (x + d - a)‖) ^ 2 := by gcongr; exact hlow' _
    _ = n * (2 * K) ^ 2 * ‖A (x + d - a)‖ ^ 2 := by ring
    _ ≤ n * (2 * K) ^ 2 * (4 * (m * (2 * L * ‖x - a‖ ^ 2) ^ 2)) := by
      gcongr
      exact (norm_sq_le _).trans (h2.trans (by linarith))
    _ = n * (2 * K) ^ 2 * (4 * (m * (2 * L) ^ 2)) * (‖x - a‖ ^ 2) ^ 2 := by ring
    _ ≤ (n * (2 * K) ^ 2 * (4 * (m * (2 * L) ^ 2)) + 1) * (‖x - a‖ ^ 2) ^ 2 := by gcongr; linarith
    _ ≤ _ := by gcongr; exact norm_sq_le _

end MplLayout.Solver
