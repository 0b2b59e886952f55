import Verif.Lemmas.Canonical
import Verif.Lemmas.SameRebuild

/-!
# Starting the solver from other geometries
-/

namespace MplLayout.Solver

open Flt

theorem sq_line {n : Nat} (a w : Fin n → ℝ) (t : ℝ) :
    sq (a + t • w) = sq a + 2 * t * (∑ i, a i * w i) + t ^ 2 * sq w := by
  simp only [sq, Finset.mul_sum, ← Finset.sum_add_distrib, Pi.add_apply, Pi.smul_apply, smul_eq_mul]
  exact Finset.sum_congr rfl fun i _ => by ring

theorem ortho_of_nearest {n : Nat} (a w : Fin n → ℝ) (h : ∀ t : ℝ, sq a ≤ sq (a + t • w)) :
    ∑ i, a i * w i = 0 := by
  by_contra hne
  generalize hs : ∑ i, a i * w i = s at hne
  have hw : 0 ≤ sq w := Finset.sum_nonneg fun i _ => sq_nonneg _
  have h1 := h (-s / (sq w + 1))
  rw [sq_line, hs] at h1
  have hp : 0 < sq w + 1 := by linarith
  have e : 2 * (-s / (sq w + 1)) * s + (-s / (sq w + 1)) ^ 2 * sq w
      = -(s ^ 2 * (sq w + 2) / (sq w + 1) ^ 2) := by
    field_simp
    ring
  have h2 : 0 < s ^ 2 * (sq w + 2) / (sq w + 1) ^ 2 := by
    have := sq_pos_of_ne_zero hne
    positivity
  linarith

/-- The least squares solutions nearest to two points are not farther apart than the points. -/
theorem nearest_nonexpansive {m n : Nat} {M : Matrix (Fin m) (Fin n) ℝ} {c : Fin m → ℝ}
    {x y x' y' : Fin n → ℝ} (h1 : ∀ z, sq (M.mulVec y + c) ≤ sq (M.mulVec z + c))
    (h1' : ∀ z, sq (M.mulVec y' + c) ≤ sq (M.mulVec z + c))
    (h2 : ∀ z, sq (M.mulVec z + c) = sq (M.mulVec y + c) → sq (y - x) ≤ sq (z - x))
    (h2' : ∀ z, sq (M.mulVec z + c) = sq (M.mulVec y' + c) → sq (y' - x') ≤ sq (z - x')) :
    sq (y' - y) ≤ sq (x' - x) := by
  have hm := le_antisymm (h1 y') (h1' y)
  have hM : M.mulVec (y' - y) = 0 := by
    have := ortho_of_nearest (M.mulVec y + c) (M.mulVec (y' - y)) fun t => by
      have := h1 (y + t • (y' - y))
      rwa [Matrix.mulVec_add, Matrix.mulVec_smul, add_right_comm] at this
    have e := sq_line (M.mulVec y + c) (M.mulVec (y' - y)) 1
    rw [this, show M.mulVec y + c + (1 : ℝ) • M.mulVec (y' - y) = M.mulVec y' + c by
      rw [one_smul, Matrix.mulVec_sub]; abel, ← hm] at e
    have e0 : sq (M.mulVec (y' - y)) = 0 := by linarith
    funext i
    have := (Finset.sum_eq_zero_iff_of_nonneg (fun i _ => sq_nonneg (M.mulVec (y' - y) i))).mp e0 i
      (Finset.mem_univ i)
    simpa using this
  have o1 := ortho_of_nearest (y - x) (y' - y) fun t => by
    have := h2 (y + t • (y' - y)) (by rw [Matrix.mulVec_add, Matrix.mulVec_smul, hM, smul_zero, add_zero])
    rwa [add_sub_right_comm] at this
  have o2 := ortho_of_nearest (y' - x') (y' - y) fun t => by
    have := h2' (y' + t • (y' - y)) (by rw [Matrix.mulVec_add, Matrix.mulVec_smul, hM, smul_zero, add_zero])
    rwa [add_sub_right_comm] at this
  have e := sq_line (y' - y) ((y - x) - (y' - x')) 1
  have o3 : ∑ i, (y' - y) i * ((y - x) - (y' - x')) i = 0 := by
    have : ∀ i, (y' - y) i * ((y - x) - (y' - x')) i
        = (y - x) i * (y' - y) i - (y' - x') i * (y' - y) i := fun i => by
      simp only [Pi.sub_apply]; ring
    simp only [this, Finset.sum_sub_distrib, o1, o2, sub_self]
  rw [o3, show y' - y + (1 : ℝ) • ((y - x) - (y' - x')) = x' - x by rw [one_smul]; abel] at e
  have : 0 ≤ sq ((y - x) - (y' - x')) := Finset.sum_nonneg fun i _ => sq_nonneg _
  linarith

/-- A result of the solver in coordinates. -/
theorem best_coords {id : Nat} {ops : List (LayoutOp Flt)} (hops : ∀ op ∈ ops, op.Uses Shipped.IsAffine)
    {l : Layout Flt} (hcons : l.cons = ((Layout.empty id).run ops).cons) (hok : PrimOK l.prim)
    {m : Nat} {M : Matrix (Fin m) (Fin (dim l)) ℝ} {c : Fin m → ℝ} {base : Nat}
    (hM : ∀ x, globalRes l base (vec x) = .ok (vec (M.mulVec x + c)))
    {p r : Prim Flt} (hp : GoodGeo l p) (hr : Best { l with prim := p } r) {x y : Fin (dim l) → ℝ}
    {p1 r1 : Prim Flt} (hx : rebuild l base (vec x) = .ok p1) (hx' : SameGeometry p1 p)
    (hy : rebuild l base (vec y) = .ok r1) (hy' : SameGeometry r1 r) :
    (∀ z, sq (M.mulVec y + c) ≤ sq (M.mulVec z + c)) ∧
      ∀ z, sq (M.mulVec z + c) = sq (M.mulVec y + c) → sq (y - x) ≤ sq (z - x) := by
  obtain ⟨ps, hps⟩ := represents_exists hok
  have mis : ∀ {z : Fin (dim l) → ℝ} {q q' : Prim Flt}, rebuild l base (vec z) = .ok q → SameGeometry q q' →
      q'.WF → ∀ s, l.Misfit q' s ↔ s = sq (M.mulVec z + c) := by
    intro z q q' e1 e2 e3
    refine misfit_vec ?_
    obtain ⟨q1, e4, hq, _⟩ := rebuild_at l hok base (vec z) (vec_length _)
    rw [e1] at e4; cases e4
    rw [← residual_geometry (by rw [hcons]; exact run_nip hops id) hq e3 e2]
    have := hM z
    simpa only [globalRes, e1, bind, Except.bind] using this
  have good : ∀ z : Fin (dim l) → ℝ, ∃ q, rebuild l base (vec z) = .ok q ∧ GoodGeo l q := by
    intro z
    obtain ⟨q1, e4, hq⟩ := rebuild_structure l hok base (vec z) (vec_length _)
    exact ⟨q1, e4, rebuild_primOK l hok base _ (vec_length _) e4, hq, rebuild_finite l hok base z e4⟩
  have back : ∀ {q : Prim Flt}, GoodGeo l q → GoodGeo { l with prim := p } q := fun h =>
    ⟨h.ok, SameStructure.trans' (SameStructure.symm' hp.str) h.str, h.fin⟩
  obtain ⟨g, ⟨s, k1, k2⟩, k3⟩ := hr
  have k1' := (mis hy hy' g.ok.wf s).mp k1
  have first : ∀ z, sq (M.mulVec y + c) ≤ sq (M.mulVec z + c) := by
    intro z
    obtain ⟨q, e1, e2⟩ := good z
    obtain ⟨s', e3, e4⟩ := k2 q (back e2)
    rw [k1', (mis e1 (SameGeometry.refl e2.ok.wf) e2.ok.wf s').mp e3] at e4
    exact e4
  refine ⟨first, fun z hz => ?_⟩
  obtain ⟨q, e1, e2⟩ := good z
  obtain ⟨t, t', a1, a2, a3, _⟩ := k3 q (back e2) ⟨s, (mis e1 (SameGeometry.refl e2.ok.wf) e2.ok.wf s).mpr
    (by rw [k1', hz]), k2⟩ ps (represents_str hp.str hps)
  rw [moved_eq l hok base hps hx hx' hy hy' a1,
    moved_eq l hok base hps hx hx' e1 (SameGeometry.refl e2.ok.wf) a2] at a3
  exact a3

end MplLayout.Solver
