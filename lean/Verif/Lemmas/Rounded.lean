import Verif.Spec.Rounded
import Verif.Lemmas.Canonical
import Verif.Lemmas.MixLinear

/-!
# Newton steps with errors
-/

namespace MplLayout.Solver

open Flt

theorem len_eq {n : Nat} (x : Fin n → ℝ) : len x = ‖WithLp.toLp 2 x‖ := by
  rw [len, sq_eq, Real.sqrt_sq (norm_nonneg _)]

theorem len_nonneg {n : Nat} (x : Fin n → ℝ) : 0 ≤ len x := Real.sqrt_nonneg _

theorem len_sq {n : Nat} (x : Fin n → ℝ) : len x ^ 2 = sq x := Real.sq_sqrt (sq_nonneg' _)

theorem len_add {n : Nat} (x y : Fin n → ℝ) : len (x + y) ≤ len x + len y := by
  simp only [len_eq, WithLp.toLp_add]; exact norm_add_le _ _

theorem len_neg {n : Nat} (x : Fin n → ℝ) : len (-x) = len x := by
  simp only [len_eq, WithLp.toLp_neg, norm_neg]

theorem len_comm {n : Nat} (x y : Fin n → ℝ) : len (x - y) = len (y - x) := by
  rw [← len_neg, neg_sub]

theorem len_zero {n : Nat} : len (0 : Fin n → ℝ) = 0 := by
  rw [len, sq_zero.mpr rfl, Real.sqrt_zero]

theorem len_le {n : Nat} {x y : Fin n → ℝ} (h : sq x ≤ sq y) : len x ≤ len y := Real.sqrt_le_sqrt h

variable {m n : Nat} {M : Matrix (Fin m) (Fin n) ℝ} {c : Fin m → ℝ}

/-- The points with the smallest residual. -/
def Opt (M : Matrix (Fin m) (Fin n) ℝ) (c : Fin m → ℝ) (p : Fin n → ℝ) : Prop :=
  ∀ y, sq (M.mulVec p + c) ≤ sq (M.mulVec y + c)

/-- `q` is the best point nearest to `x`. -/
structure Proj (M : Matrix (Fin m) (Fin n) ℝ) (c : Fin m → ℝ) (x q : Fin n → ℝ) : Prop where
  opt : Opt M c q
  near : ∀ p, Opt M c p → sq (q - x) ≤ sq (p - x)

theorem opt_eq {p q : Fin n → ℝ} (hp : Opt M c p) (hq : Opt M c q) :
    sq (M.mulVec p + c) = sq (M.mulVec q + c) := le_antisymm (hp q) (hq p)

theorem proj_of_lstsq {x d : Fin n → ℝ} (hd : IsLstsq M (-(M.mulVec x + c)) d) : Proj M c x (x + d) := by
  have hre : ∀ z, M.mulVec z - -(M.mulVec x + c) = M.mulVec (x + z) + c := by
    intro z; rw [Matrix.mulVec_add]; abel
  have h1 : Opt M c (x + d) := fun y => by
    have := hd.least (y - x)
    rwa [hre, hre, add_sub_cancel] at this
  refine ⟨h1, fun y hy => ?_⟩
  rw [add_sub_cancel_left]
  apply hd.shortest
  rw [hre, hre, add_sub_cancel]
  exact opt_eq hy h1

/-- The best points on a line through two best points. -/
theorem opt_line {p q : Fin n → ℝ} (hp : Opt M c p) (hq : Opt M c q) (t : ℝ) : Opt M c (q + t • (p - q)) := by
  let u := M.mulVec q + c
  let w := M.mulVec (p - q)
  have hx : ∀ t : ℝ, M.mulVec (q + t • (p - q)) + c = u + t • w := by
    intro t
    simp only [u, w, Matrix.mulVec_add, Matrix.mulVec_smul]; abel
  have ex : ∀ t : ℝ, sq (u + t • w) = sq u + 2 * t * (u ⬝ᵥ w) + t ^ 2 * sq w := by
    intro t
    simp only [sq_dot, dotProduct_add, add_dotProduct, smul_dotProduct, dotProduct_smul, smul_eq_mul,
      dotProduct_comm w u]
    ring
  have h0 : ∀ t : ℝ, sq u ≤ sq (u + t • w) := fun t => by
    have := hq (q + t • (p - q)); rw [hx] at this; exact this
  have h1 : sq (u + (1 : ℝ) • w) = sq u := by
    rw [← hx, one_smul, add_sub_cancel]; exact opt_eq hp hq
  have k1 := ex 1
  rw [h1] at k1
  have k2 := h0 (1 / 2)
  rw [ex] at k2
  have hw : sq w = 0 := by nlinarith [sq_nonneg' w]
  have : w = 0 := sq_zero.mp hw
  intro y
  rw [hx, this, smul_zero, add_zero]
  exact hq y

/-- The nearest best point is not further from any best point. -/
theorem proj_pyth {x q p : Fin n → ℝ} (hq : Proj M c x q) (hp : Opt M c p) : sq (q - p) ≤ sq (x - p) := by
  have ex : ∀ t : ℝ, sq (q + t • (p - q) - x)
      = sq (q - x) + 2 * t * ((q - x) ⬝ᵥ (p - q)) + t ^ 2 * sq (p - q) := by
    intro t
    rw [show q + t • (p - q) - x = (q - x) + t • (p - q) by abel]
    simp only [sq_dot, dotProduct_add, add_dotProduct, smul_dotProduct, dotProduct_smul, smul_eq_mul,
      dotProduct_comm (p - q) (q - x)]
    ring
  have h0 : ∀ t : ℝ, 0 ≤ 2 * t * ((q - x) ⬝ᵥ (p - q)) + t ^ 2 * sq (p - q) := fun t => by
    have := hq.near _ (opt_line hp hq.opt t); rw [ex] at this; linarith
  have hne := sq_nonneg' (p - q)
  have hz : 0 ≤ (q - x) ⬝ᵥ (p - q) := by
    by_contra hcon
    push Not at hcon
    set k := (q - x) ⬝ᵥ (p - q)
    have := h0 (-k / (sq (p - q) + 1))
    have hpos : 0 < sq (p - q) + 1 := by linarith
    have e : 2 * (-k / (sq (p - q) + 1)) * k + (-k / (sq (p - q) + 1)) ^ 2 * sq (p - q)
        = k ^ 2 / (sq (p - q) + 1) ^ 2 * (-2 * (sq (p - q) + 1) + sq (p - q)) := by
      field_simp
    rw [e] at this
    have h2 : 0 < k ^ 2 / (sq (p - q) + 1) ^ 2 := div_pos (by nlinarith) (by positivity)
    nlinarith
  have := ex 1
  rw [show q + (1 : ℝ) • (p - q) - x = p - x by rw [one_smul]; abel] at this
  have s1 : sq (q - p) = sq (p - q) := by rw [← len_sq, ← len_sq, len_comm]
  have s2 : sq (x - p) = sq (p - x) := by rw [← len_sq, ← len_sq, len_comm]
  rw [s1, s2, this]
  have := sq_nonneg' (q - x)
  linarith

/-! ## The loop -/

/-- A bound for the distance from the best points after some steps. -/
noncomputable def bound (ε δ D : ℝ) (N : Nat) : ℝ := ε ^ N * D + δ / (1 - ε)

theorem bound_succ {ε δ D : ℝ} (hε : ε < 1) (N : Nat) : ε * bound ε δ D N + δ = bound ε δ D (N + 1) := by
  have : 1 - ε ≠ 0 := by linarith
  unfold bound
  field_simp
  ring

/-- A Newton step with errors. -/
theorem rounded_step {ε δ : ℝ} {num : Numerics Flt} (hnum : Rounded ε δ num)
    {res : List Flt → Py (List Flt)} (h : ∀ x, res (vec x) = .ok (vec (M.mulVec x + c)))
    (s : NewtonState Flt) {x : Fin n → ℝ} (hs : s.param = vec x) :
    ∃ s' x' q, newtonStep num res s = .ok s' ∧ s'.param = vec x' ∧ s'.n = s.n + 1 ∧
      s'.absErrs.length = s.absErrs.length + 1 ∧ Proj M c x q ∧ len (x' - q) ≤ ε * len (q - x) + δ := by
  obtain ⟨J, d, d', e1, e2, e3, e4⟩ := hnum.step res x M _ (affine_jacobian h x) (h x)
  refine ⟨⟨vec (x + d'), s.n + 1, some (npNorm (vec (M.mulVec x + c))),
      some (npNorm (vec (M.mulVec x + c)) / (s.absErrs ++ [npNorm (vec (M.mulVec x + c))]).headD
        (npNorm (vec (M.mulVec x + c)))), s.absErrs ++ [npNorm (vec (M.mulVec x + c))],
      s.relErrs ++ [npNorm (vec (M.mulVec x + c)) / (s.absErrs ++ [npNorm (vec (M.mulVec x + c))]).headD
        (npNorm (vec (M.mulVec x + c)))]⟩, x + d', x + d, ?_, rfl, rfl, by simp, proj_of_lstsq e3, ?_⟩
  · simp only [newtonStep, hs, h x, bind, Except.bind, e1, vec_length, vec_neg, e2, vecAdd, if_true, vec_add]
  · rwa [show x + d' - (x + d) = d' - d by abel, add_sub_cancel_left]

/-- The state of the loop after at least one step: how far the parameters are from the best points, and
from the best point nearest to where it started. -/
structure Near (M : Matrix (Fin m) (Fin n) ℝ) (c : Fin m → ℝ) (ε δ D : ℝ) (q0 x : Fin n → ℝ) (N : Nat) : Prop where
  pos : 1 ≤ N
  best : ∃ p, Opt M c p ∧ len (x - p) ≤ bound ε δ D N
  drift : len (x - q0) ≤ ∑ k ∈ Finset.range N, bound ε δ D (k + 1)

theorem Near.step {ε δ D : ℝ} (hε : 0 ≤ ε) (hε1 : ε < 1) {q0 x x' q : Fin n → ℝ} {N : Nat}
    (h : Near M c ε δ D q0 x N) (hq0 : Opt M c q0) (hq : Proj M c x q)
    (hx' : len (x' - q) ≤ ε * len (q - x) + δ) : Near M c ε δ D q0 x' (N + 1) := by
  obtain ⟨p, hp, hb⟩ := h.best
  have h1 : len (q - x) ≤ bound ε δ D N := by
    refine le_trans (len_le (hq.near p hp)) ?_
    rw [len_comm]; exact hb
  have h2 : len (x' - q) ≤ bound ε δ D (N + 1) := by
    rw [← bound_succ hε1]
    have := mul_le_mul_of_nonneg_left h1 hε
    linarith
  refine ⟨by omega, ⟨q, hq.opt, h2⟩, ?_⟩
  rw [Finset.sum_range_succ]
  have h3 : len (q - q0) ≤ len (x - q0) := len_le (proj_pyth hq hq0)
  have h4 := len_add (x' - q) (q - q0)
  rw [sub_add_sub_cancel] at h4
  have := h.drift
  linarith

theorem rounded_loop {ε δ D : ℝ} (hε : 0 ≤ ε) (hε1 : ε < 1) {num : Numerics Flt} (hnum : Rounded ε δ num)
    {res : List Flt → Py (List Flt)} (h : ∀ x, res (vec x) = .ok (vec (M.mulVec x + c)))
    {q0 : Fin n → ℝ} (hq0 : Opt M c q0) (absTol relTol : Flt) (maxIter : Int) (fuel : Nat) :
    ∀ (s : NewtonState Flt) (x : Fin n → ℝ), s.param = vec x → Near M c ε δ D q0 x s.absErrs.length →
      maxIter.toNat - s.n < fuel →
      ∃ s' x', newtonLoop num res absTol relTol maxIter fuel s = some (.ok s') ∧ s'.param = vec x' ∧
        Near M c ε δ D q0 x' s'.absErrs.length := by
  induction fuel with
  | zero => intro s x _ _ h; omega
  | succ fuel ih =>
    intro s x hs hx hfuel
    by_cases hc : continues absTol relTol maxIter s = true
    · obtain ⟨s1, x1, q, e1, e2, hn1, hl, hq, hb⟩ := rounded_step hnum h s hs
      have hlt : (s.n : Int) < maxIter := by
        simp only [continues, Bool.and_eq_true, decide_eq_true_eq] at hc
        exact hc.2
      obtain ⟨s2, x2, f1, f2, f3⟩ := ih s1 x1 e2 (by rw [hl]; exact hx.step hε hε1 hq0 hq hb) (by omega)
      refine ⟨s2, x2, ?_, f2, f3⟩
      simp only [newtonLoop, hc, if_true, e1, f1]
    · refine ⟨s, x, ?_, hs, hx⟩
      simp only [newtonLoop, hc, if_false, Bool.false_eq_true]

theorem rounded_newton {ε δ : ℝ} (hε : 0 ≤ ε) (hε1 : ε < 1) (hδ : 0 ≤ δ) {num : Numerics Flt}
    (hnum : Rounded ε δ num)
    {res : List Flt → Py (List Flt)} (h : ∀ x, res (vec x) = .ok (vec (M.mulVec x + c)))
    (a b : ℝ) (maxIter : Int) (hmax : 1 ≤ maxIter) {x q : Fin n → ℝ} (hq : Proj M c x q) :
    ∃ s x', newtonLoop num res (fin a) (fin b) maxIter (maxIter.toNat + 1) { param := vec x } = some (.ok s) ∧
      s.param = vec x' ∧ Near M c ε δ (len (q - x)) q x' s.absErrs.length := by
  have hc : continues (fin a) (fin b) maxIter { param := vec x } = true := by
    simp only [continues, gtTol, Bool.and_eq_true, decide_eq_true_eq]
    refine ⟨⟨?_, ?_⟩, by simp; omega⟩ <;> simp [PyNum.le]
  obtain ⟨s1, x1, q', e1, e2, hn1, hl, hq', hb⟩ := rounded_step hnum h { param := vec x } (x := x) rfl
  have hqq : q' = q := by
    have h1 : sq (q' - x) = sq (q - x) := le_antisymm (hq'.near q hq.opt) (hq.near q' hq'.opt)
    have := nearest_unique (x := x) (d := q - x) (y := q') (M := M) (c := c)
      (by rw [add_sub_cancel]; exact hq.opt)
      (by
        intro y hy
        rw [add_sub_cancel] at hy
        refine hq.near y fun z => ?_
        rw [hy]; exact hq.opt z)
      (by rw [add_sub_cancel]; exact opt_eq hq'.opt hq.opt) h1
    rw [this, add_sub_cancel]
  subst hqq
  have hpos : 0 < 1 - ε := by linarith
  have hb' : len (x1 - q') ≤ bound ε δ (len (q' - x)) 1 := by
    rw [← bound_succ hε1]
    have : len (q' - x) ≤ bound ε δ (len (q' - x)) 0 := by
      simp only [bound, pow_zero, one_mul]
      have : 0 ≤ δ / (1 - ε) := by positivity
      linarith
    have := mul_le_mul_of_nonneg_left this hε
    linarith
  have hN : s1.absErrs.length = 1 := by simpa using hl
  obtain ⟨s2, x2, f1, f2, f3⟩ := rounded_loop (D := len (q' - x)) hε hε1 hnum h hq'.opt (fin a) (fin b) maxIter
    maxIter.toNat s1 x1 e2 (by
      rw [hN]
      refine ⟨Nat.le_refl _, ⟨q', hq'.opt, hb'⟩, ?_⟩
      simpa using hb') (by simp only at hn1; omega)
  exact ⟨s2, x2, by simp only [newtonLoop, hc, if_true, e1, f1], f2, f3⟩

theorem drift_le {ε δ D : ℝ} (hε : 0 ≤ ε) (hε1 : ε < 1) (hD : 0 ≤ D) (N : Nat) :
    ∑ k ∈ Finset.range N, bound ε δ D (k + 1) ≤ (ε * D + N * δ) / (1 - ε) := by
  have hpos : 0 < 1 - ε := by linarith
  have key : ∑ k ∈ Finset.range N, bound ε δ D (k + 1)
      = (ε * (1 - ε ^ N) * D + N * δ) / (1 - ε) := by
    induction N with
    | zero => simp
    | succ N ih =>
      rw [Finset.sum_range_succ, ih]
      simp only [bound]
      field_simp
      push_cast
      ring
  rw [key]
  apply div_le_div_of_nonneg_right _ hpos.le
  have : 0 ≤ ε ^ N := by positivity
  have h1 : 0 ≤ ε * ε ^ N * D := by positivity
  nlinarith

end MplLayout.Solver
