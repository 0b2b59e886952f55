import Verif.Spec.Solver
import Mathlib.Analysis.Calculus.FDeriv.Congr
import Mathlib.Analysis.InnerProductSpace.PiL2
import Mathlib.Analysis.InnerProductSpace.Projection.Minimal

/-!
# Exact numerics exist
-/

namespace MplLayout

open Flt

theorem vec_inj {n : Nat} {x y : Fin n → ℝ} (h : vec x = vec y) : x = y := by
  have := List.ofFn_injective h
  funext i
  simpa using congrFun this i

theorem vec_length {n : Nat} (x : Fin n → ℝ) : (vec x).length = n := by simp [vec]

theorem mat_length {m n : Nat} (M : Matrix (Fin m) (Fin n) ℝ) : (mat M).length = m := by simp [mat]

theorem mat_inj {m n : Nat} {M N : Matrix (Fin m) (Fin n) ℝ} (h : mat M = mat N) : M = N := by
  have := List.ofFn_injective h
  funext i
  exact vec_inj (congrFun this i)

theorem sq_eq {n : Nat} (x : Fin n → ℝ) : sq x = ‖WithLp.toLp 2 x‖ ^ 2 := by
  rw [EuclideanSpace.norm_sq_eq]
  simp [sq]

theorem sq_nonneg' {n : Nat} (x : Fin n → ℝ) : 0 ≤ sq x := Finset.sum_nonneg fun i _ => sq_nonneg _

theorem sq_zero {n : Nat} {x : Fin n → ℝ} : sq x = 0 ↔ x = 0 := by
  constructor
  · intro h
    funext i
    have := (Finset.sum_eq_zero_iff_of_nonneg (fun i _ => sq_nonneg (x i))).mp h i (Finset.mem_univ _)
    simpa using this
  · rintro rfl; simp [sq]

theorem exists_lstsq {m n : Nat} (M : Matrix (Fin m) (Fin n) ℝ) (b : Fin m → ℝ) :
    ∃ d, IsLstsq M b d := by
  let L : EuclideanSpace ℝ (Fin n) →ₗ[ℝ] EuclideanSpace ℝ (Fin m) :=
    (WithLp.linearEquiv 2 ℝ (Fin m → ℝ)).symm.toLinearMap ∘ₗ M.mulVecLin ∘ₗ
      (WithLp.linearEquiv 2 ℝ (Fin n → ℝ)).toLinearMap
  have hL : ∀ e : Fin n → ℝ, L (WithLp.toLp 2 e) = WithLp.toLp 2 (M.mulVec e) := fun e => rfl
  let B : EuclideanSpace ℝ (Fin m) := WithLp.toLp 2 b
  have hsq : ∀ e : Fin n → ℝ, sq (M.mulVec e - b) = ‖L (WithLp.toLp 2 e) - B‖ ^ 2 := by
    intro e; rw [sq_eq, hL]; rfl
  -- the projection on the range
  obtain ⟨p, hp, hp'⟩ := Submodule.exists_norm_eq_iInf_of_complete_subspace (LinearMap.range L)
    (Submodule.complete_of_finiteDimensional _) B
  have ho := (Submodule.norm_eq_iInf_iff_real_inner_eq_zero _ hp).mp hp'
  obtain ⟨e0, rfl⟩ := hp
  -- the projection on the kernel
  obtain ⟨k, hk, hk'⟩ := Submodule.exists_norm_eq_iInf_of_complete_subspace (LinearMap.ker L)
    (Submodule.complete_of_finiteDimensional _) e0
  have hok := (Submodule.norm_eq_iInf_iff_real_inner_eq_zero _ hk).mp hk'
  have hLd : L (e0 - k) = L e0 := by rw [map_sub, LinearMap.mem_ker.mp hk, sub_zero]
  have pyth : ∀ e, ‖L e - B‖ ^ 2 = ‖L e - L e0‖ ^ 2 + ‖L e0 - B‖ ^ 2 := by
    intro e
    have h := ho (L e - L e0) ⟨e - e0, by rw [map_sub]⟩
    have : L e - B = (L e - L e0) - (B - L e0) := by abel
    rw [this, norm_sub_sq_real, real_inner_comm, h, norm_sub_rev B]
    ring
  have hd : WithLp.toLp 2 (WithLp.ofLp (e0 - k)) = e0 - k := rfl
  refine ⟨WithLp.ofLp (e0 - k), ⟨fun e => ?_, fun e he => ?_⟩⟩
  · rw [hsq, hsq, hd, hLd, pyth (WithLp.toLp 2 e)]
    have := sq_nonneg ‖L (WithLp.toLp 2 e) - L e0‖
    linarith
  · rw [hsq, hsq, hd, hLd, pyth (WithLp.toLp 2 e)] at he
    have h0 : L (WithLp.toLp 2 e) - L e0 = 0 := by
      have : ‖L (WithLp.toLp 2 e) - L e0‖ ^ 2 = 0 := by linarith
      simpa using this
    have hker : WithLp.toLp 2 e - (e0 - k) ∈ LinearMap.ker L := by
      rw [LinearMap.mem_ker, map_sub, hLd, h0]
    have h := hok _ hker
    rw [sq_eq, sq_eq, hd]
    have : WithLp.toLp 2 e = (e0 - k) + (WithLp.toLp 2 e - (e0 - k)) := by abel
    rw [this, norm_add_sq_real, h]
    have := sq_nonneg ‖WithLp.toLp 2 e - (e0 - k)‖
    linarith

theorem jacobian_unique {m m' n : Nat} {res : List Flt → Py (List Flt)} {x : Fin n → ℝ}
    {M : Matrix (Fin m) (Fin n) ℝ} {M' : Matrix (Fin m') (Fin n) ℝ} (h : IsJacobian res x M)
    (h' : IsJacobian res x M') : mat M = mat M' := by
  obtain ⟨F, h1, h2⟩ := h
  obtain ⟨F', h3, h4⟩ := h'
  have e := h1.self_of_nhds
  rw [h3.self_of_nhds] at e
  have hm : m = m' := by
    have := congrArg List.length (Except.ok.inj e)
    simpa [vec_length] using this.symm
  subst hm
  have hF : F =ᶠ[nhds x] F' := by
    filter_upwards [h1, h3] with y a b
    rw [a] at b
    exact vec_inj (Except.ok.inj b)
  have := (h4.congr_of_eventuallyEq hF).unique h2
  have h5 : M'.mulVecLin = M.mulVecLin := LinearMap.toContinuousLinearMap.injective this
  have : M' = M := Matrix.toLin'.injective (show Matrix.toLin' M' = Matrix.toLin' M from h5)
  rw [this]

open Classical in
/-- Numerical routines without rounding. -/
noncomputable def exactNum : Numerics Flt where
  jacobian res xs := if h : ∃ (m n : Nat) (x : Fin n → ℝ) (M : Matrix (Fin m) (Fin n) ℝ),
    xs = vec x ∧ IsJacobian res x M then .ok (mat h.choose_spec.choose_spec.choose_spec.choose)
    else .error .typeError
  lstsq n A b := if h : ∃ (m : Nat) (M : Matrix (Fin m) (Fin n) ℝ) (c : Fin m → ℝ) (d : Fin n → ℝ),
    A = mat M ∧ b = vec c ∧ IsLstsq M c d then .ok (vec h.choose_spec.choose_spec.choose_spec.choose)
    else .error .typeError
  iterates _ _ _ := .ok []

theorem exactNum_exact : Exact exactNum where
  jacobian {m n} res x M hM := by
    have h : ∃ (m n' : Nat) (x' : Fin n' → ℝ) (M : Matrix (Fin m) (Fin n') ℝ),
      vec x = vec x' ∧ IsJacobian res x' M := ⟨m, n, x, M, rfl, hM⟩
    simp only [exactNum]
    rw [dif_pos h]
    obtain ⟨e, hJ⟩ := h.choose_spec.choose_spec.choose_spec.choose_spec
    generalize h.choose_spec.choose_spec.choose_spec.choose = M' at e hJ ⊢
    generalize h.choose_spec.choose_spec.choose = x' at *
    generalize h.choose_spec.choose = n' at *
    have hn : n = n' := by simpa [vec_length] using congrArg List.length e
    subst hn
    obtain rfl := vec_inj e
    rw [jacobian_unique hJ hM]
  lstsq {m n} M b := by
    obtain ⟨d, hd⟩ := exists_lstsq M b
    have h : ∃ (m' : Nat) (M' : Matrix (Fin m') (Fin n) ℝ) (c : Fin m' → ℝ) (d : Fin n → ℝ),
      mat M = mat M' ∧ vec b = vec c ∧ IsLstsq M' c d := ⟨m, M, b, d, rfl, rfl, hd⟩
    obtain ⟨e1, e2, hL⟩ := h.choose_spec.choose_spec.choose_spec.choose_spec
    refine ⟨h.choose_spec.choose_spec.choose_spec.choose, ?_, ?_⟩
    · generalize h.choose_spec.choose_spec.choose_spec.choose = d' at *
      generalize h.choose_spec.choose_spec.choose = c' at *
      generalize h.choose_spec.choose = M' at *
      generalize h.choose = m' at *
      have hm : m = m' := by simpa [mat_length] using congrArg List.length e1
      subst hm
      obtain rfl := mat_inj e1
      obtain rfl := vec_inj e2
      exact hL
    · simp only [exactNum]
      rw [dif_pos h]

end MplLayout
