import Verif.Lemmas.LeastSquares

/-! Mixtures of least-squares solutions. -/

namespace MplLayout.Solver

open Matrix

/-- Best and nearest to `x`. -/
structure Nearest {m n : Nat} (M : Matrix (Fin m) (Fin n) ℝ) (c : Fin m → ℝ) (x y : Fin n → ℝ) : Prop where
  least : ∀ z, sq (M.mulVec y + c) ≤ sq (M.mulVec z + c)
  near : ∀ z, sq (M.mulVec z + c) = sq (M.mulVec y + c) → sq (y - x) ≤ sq (z - x)

theorem sq_dot {n : Nat} (u : Fin n → ℝ) : sq u = u ⬝ᵥ u := by
  simp only [sq, dotProduct]
  exact Finset.sum_congr rfl fun i _ => by ring

theorem dot_zero_of_min {n : Nat} {r w : Fin n → ℝ} (h : ∀ a : ℝ, sq r ≤ sq (r + a • w)) : w ⬝ᵥ r = 0 := by
  have key : ∀ a : ℝ, 0 ≤ 2 * a * (w ⬝ᵥ r) + a * a * (w ⬝ᵥ w) := by
    intro a
    have := h a
    rw [sq_dot, sq_dot, add_dotProduct, dotProduct_add, dotProduct_add, dotProduct_smul, smul_dotProduct,
      smul_dotProduct, dotProduct_smul, dotProduct_comm r w] at this
    simp only [smul_eq_mul] at this
    linarith
  by_contra hne
  have hw : 0 ≤ w ⬝ᵥ w := by rw [← sq_dot]; exact sq_nonneg' _
  set d := w ⬝ᵥ r
  set e := w ⬝ᵥ w
  have h1 := key (-d / (e + 1))
  have he : e + 1 ≠ 0 := by linarith
  have : 2 * (-d / (e + 1)) * d + -d / (e + 1) * (-d / (e + 1)) * e = -(d ^ 2) * (e + 2) / (e + 1) ^ 2 := by
    field_simp; ring
  rw [this] at h1
  have hd : 0 < d ^ 2 := by positivity
  have : -(d ^ 2) * (e + 2) / (e + 1) ^ 2 < 0 := by
    apply div_neg_of_neg_of_pos
    · nlinarith
    · positivity
  linarith

variable {m n : Nat} {M : Matrix (Fin m) (Fin n) ℝ} {c : Fin m → ℝ} {x y : Fin n → ℝ}

theorem Nearest.normal (h : Nearest M c x y) (u : Fin n → ℝ) : M.mulVec u ⬝ᵥ (M.mulVec y + c) = 0 := by
  refine dot_zero_of_min fun a => ?_
  have := h.least (y + a • u)
  rwa [mulVec_add, mulVec_smul, add_right_comm] at this

theorem Nearest.ortho (h : Nearest M c x y) {u : Fin n → ℝ} (hu : M.mulVec u = 0) : u ⬝ᵥ (y - x) = 0 := by
  refine dot_zero_of_min fun a => ?_
  have := h.near (y + a • u) (by rw [mulVec_add, mulVec_smul, hu, smul_zero, add_zero])
  rwa [add_sub_right_comm] at this

theorem dot_self_zero {n : Nat} {u : Fin n → ℝ} (h : u ⬝ᵥ u = 0) : u = 0 := by
  rw [← sq_dot] at h
  exact sq_zero.mp h

theorem Nearest.unique (h : Nearest M c x y) {z : Fin n → ℝ} (h1 : ∀ u, M.mulVec u ⬝ᵥ (M.mulVec z + c) = 0)
    (h2 : ∀ u, M.mulVec u = 0 → u ⬝ᵥ (z - x) = 0) : z = y := by
  have e1 : M.mulVec (z - y) = 0 := by
    apply dot_self_zero
    have a1 := h1 (z - y)
    have a2 := h.normal (z - y)
    have : M.mulVec (z - y) = (M.mulVec z + c) - (M.mulVec y + c) := by rw [mulVec_sub]; abel
    conv_lhs => rw [this]
    rw [sub_dotProduct, ← this, dotProduct_comm, a1, dotProduct_comm, a2, sub_zero]
  have e2 : z - y = 0 := by
    apply dot_self_zero
    have a1 := h2 _ e1
    have a2 := h.ortho e1
    have : z - y = (z - x) - (y - x) := by abel
    conv_lhs => rw [this]
    rw [sub_dotProduct, ← this, dotProduct_comm, a1, dotProduct_comm, a2, sub_zero]
  exact sub_eq_zero.mp e2

/-- Mixing residuals and starts mixes the results. -/
theorem nearest_mix {t : ℝ} {M0 M1 M2 : Matrix (Fin m) (Fin n) ℝ} {c0 c1 c2 : Fin m → ℝ} {x0 x1 x2 y0 y1 y2 : Fin n → ℝ}
    (hM : ∀ u v, M2.mulVec ((1 - t) • u + t • v) + c2 = (1 - t) • (M0.mulVec u + c0) + t • (M1.mulVec v + c1))
    (hx : x2 = (1 - t) • x0 + t • x1) (h0 : Nearest M0 c0 x0 y0) (h1 : Nearest M1 c1 x1 y1) (h2 : Nearest M2 c2 x2 y2) :
    y2 = (1 - t) • y0 + t • y1 := by
  have k0 : ∀ u, (1 - t) • M2.mulVec u = (1 - t) • M0.mulVec u := by
    intro u
    have a := hM u 0
    have b := hM 0 0
    simp only [smul_zero, add_zero, mulVec_zero, zero_add, mulVec_smul, smul_add] at a b
    funext i
    have a' := congrFun a i
    have b' := congrFun b i
    simp only [Pi.add_apply, Pi.smul_apply, smul_eq_mul] at *
    linarith
  have k1 : ∀ u, t • M2.mulVec u = t • M1.mulVec u := by
    intro u
    have a := hM 0 u
    have b := hM 0 0
    simp only [smul_zero, add_zero, mulVec_zero, zero_add, mulVec_smul, smul_add] at a b
    funext i
    have a' := congrFun a i
    have b' := congrFun b i
    simp only [Pi.add_apply, Pi.smul_apply, smul_eq_mul] at *
    linarith
  refine (h2.unique (fun u => ?_) fun u hu => ?_).symm
  · rw [hM, dotProduct_add, dotProduct_smul, dotProduct_smul, ← smul_dotProduct, ← smul_dotProduct, k0, k1,
      smul_dotProduct, smul_dotProduct, h0.normal, h1.normal]
    simp
  · have e : (1 - t) • y0 + t • y1 - x2 = (1 - t) • (y0 - x0) + t • (y1 - x1) := by
      rw [hx, smul_sub, smul_sub]; abel
    rw [e, dotProduct_add, dotProduct_smul, dotProduct_smul]
    have z0 : (1 - t) • (u ⬝ᵥ (y0 - x0)) = 0 := by
      rcases eq_or_ne (1 - t) 0 with h | h
      · rw [h, zero_smul]
      · have := k0 u
        rw [hu, smul_zero] at this
        rw [h0.ortho ((smul_eq_zero_iff_right h).mp this.symm), smul_zero]
    have z1 : t • (u ⬝ᵥ (y1 - x1)) = 0 := by
      rcases eq_or_ne t 0 with h | h
      · rw [h, zero_smul]
      · have := k1 u
        rw [hu, smul_zero] at this
        rw [h1.ortho ((smul_eq_zero_iff_right h).mp this.symm), smul_zero]
    rw [z0, z1, add_zero]

end MplLayout.Solver
