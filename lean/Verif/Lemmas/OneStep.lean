import Verif.Lemmas.Stationary
import Verif.Lemmas.Mix
import Mathlib.Analysis.Calculus.Deriv.Comp
import Mathlib.Analysis.Calculus.Deriv.Mul
import Mathlib.Analysis.Calculus.Deriv.Add
import Mathlib.Analysis.Calculus.Deriv.Prod

/-!
# One step of the Newton method along a line
-/

namespace MplLayout

open Flt

/-- The tangent at 0 vanishes at 1. -/
def TanZero (g : ℝ → ℝ) : Prop := HasDerivAt g (-g 0) 0

theorem tanZero_iff {g : ℝ → ℝ} {a : ℝ} (h : HasDerivAt g a 0) : TanZero g ↔ g 0 + a = 0 := by
  constructor
  · intro h'
    have := h.unique h'
    linarith
  · intro e
    have : a = -g 0 := by linarith
    rw [TanZero, ← this]
    exact h

namespace Solver

/-- The residual of a layout with shipped constraints is differentiable at every geometry where it is finite. -/
theorem smooth_jacobian_here {ops : List (LayoutOp Flt)} (id : Nat) (base : Nat) {l : Layout Flt}
    (hl : l = (Layout.empty id).run ops) (hok : PrimOK l.prim) {x : Fin (dim l) → ℝ} {r : Prim Flt}
    (hx : rebuild l base (vec x) = .ok r) (h : ∀ op ∈ ops, op.Uses (Shipped.SmoothAt r))
    {v : List Flt} (hv : globalRes l base (vec x) = .ok v) (hz : ∀ a ∈ v, ∃ y, a = fin y) :
    ∃ (m : Nat) (M : Matrix (Fin m) (Fin (dim l)) ℝ), IsJacobian (globalRes l base) x M := by
  obtain ⟨T, hT⟩ := rebuild_mapV l hok base
  have hTr : T.mapV (paramVal l base (dim l) x) = r := by
    have := hT x
    rw [hx] at this
    exact (Except.ok.inj this).symm
  let zero : Prop := ∀ k q, r.getChild k = .ok q → Prim.NoZeroLines q
  let left : Prop := ∀ k q, r.getChild k = .ok q → Prim.NoLeftLines q
  have htame : AllN (TameP (DiffC x) (paramVal l base (dim l))
      (GoodAt x (paramVal l base (dim l)) zero left)) l.cons := by
    have := run_all (P := TameP (DiffC x) (paramVal l base (dim l))
        (GoodAt x (paramVal l base (dim l)) zero left)) (fun _ _ _ => Tame.error _)
      (fun op ho => uses_trees (h op ho))
      (fun c ks ps k hm => by
        obtain ⟨s, e, _, ha⟩ := h _ hm
        exact smooth_tame (paramVal_diff l base (dim l) x) ha.1 ha.2 e) id
    rwa [← hl] at this
  obtain ⟨R, h1, h2⟩ := residual_tame htame T (by
    intro k p hp
    have hp' : r.getChild k = .ok (p.mapV (paramVal l base (dim l) x)) := by
      rw [← hTr, Node.getChild_mapV, hp]; rfl
    exact ⟨fun hz => hz k _ hp', fun hl => hl k _ hp'⟩)
  have hg : ∀ y : Fin (dim l) → ℝ, globalRes l base (vec y) = R.map (List.map (· y)) := by
    intro y
    simp only [globalRes, hT, bind, Except.bind, h1]
  cases R with
  | error e => rw [hg] at hv; cases hv
  | ok gs =>
    rw [hg] at hv
    have hv' : gs.map (· x) = v := Except.ok.inj hv
    refine jacobian_of_diff hg (h2 gs rfl) fun g hg' => hz _ ?_
    rw [← hv']
    exact List.mem_map.mpr ⟨g, hg', rfl⟩

/-- The derivative along a line. -/
theorem jacobian_line {m n : Nat} {res : List Flt → Py (List Flt)} {x d : Fin n → ℝ} {M : Matrix (Fin m) (Fin n) ℝ}
    {r : Fin m → ℝ} (hM : IsJacobian res x M) (hr : res (vec x) = .ok (vec r)) {gs : List (ℝ → ℝ)}
    (hgs : ∀ t : ℝ, res (vec (x + t • d)) = .ok (gs.map fun g => fin (g t))) :
    M.mulVec d = -r ↔ ∀ g ∈ gs, TanZero g := by
  obtain ⟨F, h1, h2⟩ := hM
  have hF0 : F x = r := by
    have := h1.self_of_nhds
    rw [hr] at this
    exact (vec_inj (Except.ok.inj this)).symm
  have hlen : gs.length = m := by
    have := hgs 0
    rw [zero_smul, add_zero, hr] at this
    simpa [vec] using (congrArg List.length (Except.ok.inj this)).symm
  have hline : HasDerivAt (fun t : ℝ => x + t • d) d 0 := by
    have := ((hasDerivAt_id (0 : ℝ)).smul_const d).const_add x
    simpa using this
  have hx0 : x + (0 : ℝ) • d = x := by simp
  have h3 : HasDerivAt (fun t : ℝ => F (x + t • d)) (M.mulVec d) 0 := by
    have h2' : HasFDerivAt F (LinearMap.toContinuousLinearMap M.mulVecLin) (x + (0 : ℝ) • d) := by rwa [hx0]
    exact h2'.comp_hasDerivAt 0 hline
  have h4 : ∀ i : Fin m, HasDerivAt (fun t : ℝ => F (x + t • d) i) (M.mulVec d i) 0 := hasDerivAt_pi.mp h3
  have hev : ∀ᶠ t : ℝ in nhds 0, res (vec (x + t • d)) = .ok (vec (F (x + t • d))) := by
    have hc : Filter.Tendsto (fun t : ℝ => x + t • d) (nhds 0) (nhds x) := by
      have := hline.continuousAt.tendsto
      rwa [hx0] at this
    exact hc.eventually h1
  have h5 : ∀ i : Fin m, HasDerivAt (gs[i]'(by rw [hlen]; exact i.2)) (M.mulVec d i) 0 := by
    intro i
    refine (h4 i).congr_of_eventuallyEq ?_
    filter_upwards [hev] with t ht
    rw [hgs t] at ht
    have ht := Except.ok.inj ht
    have := congrArg (fun l => l[i.1]?) ht
    simpa [vec, hlen] using this
  have h6 : ∀ i : Fin m, (gs[i]'(by rw [hlen]; exact i.2)) 0 = r i := by
    intro i
    have ht := hgs 0
    rw [zero_smul, add_zero, hr] at ht
    have ht := Except.ok.inj ht
    have := congrArg (fun l => l[i.1]?) ht
    have := this.symm
    simpa [vec, hlen] using this
  constructor
  · intro e g hg
    obtain ⟨i, hi, rfl⟩ := List.getElem_of_mem hg
    have hi' : i < m := by rw [← hlen]; exact hi
    refine (tanZero_iff (h5 ⟨i, hi'⟩)).mpr ?_
    rw [h6 ⟨i, hi'⟩, e]
    simp
  · intro h
    funext i
    have := (tanZero_iff (h5 i)).mp (h _ (List.getElem_mem _))
    rw [h6 i] at this
    simp only [Pi.neg_apply]
    linarith

/-- A step that satisfies the equations is taken if there is one, and then the geometry stays. -/
theorem onestep_loop {m m' n : Nat} {num : Numerics Flt} (hnum : Exact num)
    {res : List Flt → Py (List Flt)} {x : Fin n → ℝ} {M : Matrix (Fin m) (Fin n) ℝ} {r : Fin m → ℝ}
    (hM : IsJacobian res x M) (hr : res (vec x) = .ok (vec r)) {e : Fin n → ℝ} (he : M.mulVec e = -r)
    (hstay : ∀ d, M.mulVec d = -r → res (vec (x + d)) = .ok (vec (0 : Fin m' → ℝ)) ∧
      ∃ N : Matrix (Fin m') (Fin n) ℝ, IsJacobian res (x + d) N)
    (a b : ℝ) (maxIter : Int) (hmax : 1 ≤ maxIter) :
    ∃ s d, newtonLoop num res (fin a) (fin b) maxIter (maxIter.toNat + 1) { param := vec x } = some (.ok s) ∧
      s.param = vec (x + d) ∧ M.mulVec d = -r := by
  obtain ⟨d, hd, e1⟩ := hnum.lstsq M (-r)
  have hd' : M.mulVec d = -r := by
    have h0 := hd.least e
    rw [he, sub_self, sq_zero.mpr rfl] at h0
    exact sub_eq_zero.mp (sq_zero.mp (le_antisymm h0 (sq_nonneg' _)))
  obtain ⟨h1, N, hN⟩ := hstay d hd'
  have hc : continues (fin a) (fin b) maxIter ({ param := vec x } : NewtonState Flt) = true := by
    simp only [continues, gtTol, Bool.and_eq_true, decide_eq_true_eq]
    refine ⟨⟨?_, ?_⟩, by simp; omega⟩ <;> simp [PyNum.le]
  have e2 := newtonStep_vec hr (hnum.jacobian res x M hM) e1 { param := vec x } rfl
  generalize hs1 : (NewtonState.mk (vec (x + d)) _ _ _ _ _ : NewtonState Flt) = s1 at e2
  have p1 : s1.param = vec (x + d) := by rw [← hs1]
  have p2 : s1.n = 1 := by rw [← hs1]
  obtain ⟨s, f1, f2⟩ := stationary_loop hnum.lstsq h1 (hnum.jacobian res _ N hN) (by simp) (fin a) (fin b) maxIter
    maxIter.toNat s1 p1 (by rw [p2]; omega)
  refine ⟨s, d, ?_, f2, hd'⟩
  simp only [newtonLoop, hc, if_true, e2]
  exact f1

end Solver

end MplLayout
