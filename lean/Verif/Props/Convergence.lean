import Verif.Spec.Convergence
import Verif.Lemmas.NewtonLayout
import Verif.Props.Smooth

/-!
# C82: Newton's method converges quadratically near regular solutions
-/

namespace MplLayout.Props

open Solver Flt

/-- C82 for routines that compute Jacobian matrices near the solution. -/
theorem quadratic_of (id : Nat) (ops : List (LayoutOp Flt))
    (l : Layout Flt) (hl : l = (Layout.empty id).run ops) (p : Prim Flt) (hok : PrimOK p)
    (hfin : p.Finite) (hops : ∀ op ∈ ops, op.Uses (Shipped.SmoothAt p)) (hreg : l.RegularSolution p)
    {d : Nat} {x : Fin d → ℝ} (hx : globalParam { l with prim := p } = .ok (vec x)) {S : Set (Fin d → ℝ)}
    (hS : S ∈ nhds x) :
    ∃ C > 0, ∀ r0, PrimOK r0 → SameStructure p r0 → r0.Finite → ∀ ps t0, Represents p ps →
      Moved ps p r0 t0 → C * t0 < 1 → ∀ (num : Numerics Flt) base,
      (∀ {m n : Nat} (M : Matrix (Fin m) (Fin n) ℝ) (b : Fin m → ℝ),
        ∃ d, IsLstsq M b d ∧ num.lstsq n (mat M) (vec b) = .ok (vec d)) →
      (∀ {m : Nat} (y : Fin d → ℝ) (M : Matrix (Fin m) (Fin d) ℝ), y ∈ S →
        IsJacobian (globalRes { l with prim := r0 } base) y M →
        num.jacobian (globalRes { l with prim := r0 } base) (vec y) = .ok (mat M)) →
      ∀ absTol relTol maxIter, ∃ r info t,
        solveNewton num { l with prim := r0 } base absTol relTol maxIter = .ok (r, info) ∧
        SameStructure p r ∧ Moved ps p r t ∧ C * t ≤ (C * t0) ^ 2 ^ info.absErrs.length ∧
        ∀ e, info.absErrs.getLast? = some (fin e) → t ≤ C * e ^ 4 := by
  obtain ⟨⟨v, hv, hv0⟩, ps, c, ε, hps, hc, hε, hgrow⟩ := hreg
  have hnip : AllN NIP l.cons := by rw [hl]; exact run_nip hops id
  let ls : Layout Flt := { l with prim := p }
  have hoks : PrimOK ls.prim := hok
  obtain rfl : d = dim ls := by
    obtain ⟨x', hx'⟩ := finite_param (l := ls) hoks hfin
    have := congrArg List.length (Except.ok.inj (hx.symm.trans hx'))
    simpa [vec] using this
  obtain ⟨m, F, hF, hD⟩ := smooth_residual id 0 (l := ls) (q := p) (by rw [← hl]) rfl hops hok hx hv (by
    intro a ha
    obtain ⟨y, _, rfl⟩ := List.mem_map.mp ha
    exact ⟨y, rfl⟩)
  obtain ⟨q, e1, e2⟩ := rebuild_self ls hoks 0 hx
  have hq : q.WF := (rebuild_primOK ls hoks 0 _ (vec_length x) e1).wf
  have hres : l.residual p = .ok (vec (F x)) := by
    rw [residual_geometry hnip hok.wf hq e2]
    have := hF.self_of_nhds
    simp only [globalRes, e1, bind, Except.bind] at this
    exact this
  have hF0 : F x = 0 := sq_zero.mp ((misfit_vec hres 0).mp ⟨v, hv, hv0⟩).symm
  have hnear : ∀ᶠ y in nhds x, c * sq (y - x) ≤ sq (F y) := by
    have hd : ∀ᶠ y in nhds x, sq (y - x) < ε := by
      have hc : Continuous fun y : Fin (dim ls) → ℝ => sq (y - x) := by
        unfold sq
        fun_prop
      have : (fun y => sq (y - x)) x < ε := by simpa [sq] using hε
      exact hc.continuousAt.eventually_lt_const this
    filter_upwards [hF, hd] with y hy hd
    obtain ⟨ry, f1, f2⟩ := rebuild_structure ls hoks 0 (vec y) (vec_length y)
    have hyo := rebuild_primOK ls hoks 0 _ (vec_length y) f1
    have hyf := rebuild_finite ls hoks 0 y f1
    obtain ⟨t, ht⟩ := moved_exists hps (SameStructure.refl hok.wf) hfin f2 hyf
    have hte := moved_eq ls hoks 0 hps e1 (SameGeometry.symm e2) f1 (SameGeometry.refl hyo.wf) ht
    have hry : l.residual ry = .ok (vec (F y)) := by
      simp only [globalRes, f1, bind, Except.bind] at hy
      exact hy
    rw [← hte]
    exact hgrow ry t _ hyo f2 hyf ht (by rw [hte]; exact hd) ((misfit_vec hry _).mpr rfl)
  obtain ⟨C0, hC0, hcontr⟩ := newton_contract hD hF0
    (regular_injective (hD.differentiableAt (by norm_num)) hF0 hc hnear)
  have hdiff : ∀ᶠ y in nhds x, DifferentiableAt ℝ F y :=
    (hD.eventually (by simp)).mono fun y hy => hy.differentiableAt (by norm_num)
  obtain ⟨δ, hδ, hball⟩ := Metric.eventually_nhds_iff.mp
    (hF.eventually_nhds.and (hdiff.and (hcontr.and (hnear.and hS))))
  refine ⟨C0 + C0 / c ^ 2 + 1 / δ ^ 2, by positivity, ?_⟩
  set C := C0 + C0 / c ^ 2 + 1 / δ ^ 2 with hCdef
  have hC : 0 < C := by positivity
  have hCa : C0 ≤ C := by
    have : 0 ≤ C0 / c ^ 2 := by positivity
    have : 0 ≤ 1 / δ ^ 2 := by positivity
    linarith
  have hCb : C0 / c ^ 2 ≤ C := by
    have : 0 ≤ 1 / δ ^ 2 := by positivity
    linarith
  have hCc : 1 / δ ^ 2 ≤ C := by
    have : 0 ≤ C0 / c ^ 2 := by positivity
    linarith
  intro r0 hok0 hs0 hfin0 ps' t0 hps' ht0 hsmall num base hnum hjac absTol relTol maxIter
  let l0 : Layout Flt := { l with prim := r0 }
  obtain ⟨hreb, hdim⟩ := rebuild_same (l := l0) (l' := ls) hok0 hoks (SameStructure.symm' hs0)
  obtain ⟨x0, hx0⟩ : ∃ x0 : Fin (dim ls) → ℝ, globalParam l0 = .ok (vec x0) := by
    have := finite_param (l := l0) hok0 hfin0
    rwa [hdim] at this
  obtain ⟨q0, g1, g2⟩ := rebuild_self l0 hok0 base hx0
  rw [hreb] at g1
  obtain ⟨qs, k1, k2⟩ := rebuild_self ls hoks base hx
  have ht0e := moved_eq ls hoks base hps' k1 (SameGeometry.symm k2) g1 (SameGeometry.symm g2) ht0
  have hglob : ∀ y : Fin (dim ls) → ℝ, globalRes l0 base (vec y) = globalRes ls 0 (vec y) := by
    intro y
    obtain ⟨r1, r2, i1, i2, i3, i4, i5⟩ := rebuild_base hoks (vec_length y) base 0
    simp only [globalRes, hreb, i1, i2, bind, Except.bind]
    exact residual_geometry hnip i3 i4 i5
  have hgood : ∀ y, C * sq (y - x) < 1 → globalRes l0 base (vec y) = .ok (vec (F y)) ∧
      ∃ M : Matrix (Fin m) (Fin (dim ls)) ℝ, num.jacobian (globalRes l0 base) (vec y) = .ok (mat M) ∧ ∀ d, IsLstsq M (- F y) d →
        sq (y + d - x) ≤ C * sq (y - x) ^ 2 ∧ sq (y + d - x) ≤ C * sq (F y) ^ 2 := by
    intro y hy
    have hin : dist y x < δ := by
      rw [dist_eq_norm]
      have h1 := norm_sq_le (y - x)
      have h2 : 1 / δ ^ 2 * ‖y - x‖ ^ 2 < 1 := by
        refine lt_of_le_of_lt ?_ hy
        gcongr
      rw [one_div, inv_mul_lt_iff₀ (by positivity), mul_one] at h2
      exact lt_of_pow_lt_pow_left₀ 2 hδ.le h2
    obtain ⟨b1, b2, b3, b4, b5⟩ := hball hin
    refine ⟨by rw [hglob]; exact b1.self_of_nhds,
      LinearMap.toMatrix' (fderiv ℝ F y).toLinearMap, hjac y _ b5 ⟨F, ?_, ?_⟩, fun d hd => ?_⟩
    · filter_upwards [b1] with z hz
      rw [hglob, hz]
    · have e : LinearMap.toContinuousLinearMap
          (LinearMap.toMatrix' (fderiv ℝ F y).toLinearMap).mulVecLin = fderiv ℝ F y := by
        apply ContinuousLinearMap.ext
        intro w
        show (LinearMap.toMatrix' (fderiv ℝ F y).toLinearMap).mulVec w = fderiv ℝ F y w
        rw [LinearMap.toMatrix'_mulVec]
        rfl
      rw [e]
      exact b2.hasFDerivAt
    · have h1 := b3 d hd
      refine ⟨h1.trans (by gcongr), h1.trans ?_⟩
      have h2 : sq (y - x) ≤ sq (F y) / c := by rw [le_div_iff₀ hc]; linarith
      have h0 := sq_nonneg' (y - x)
      calc C0 * sq (y - x) ^ 2 ≤ C0 * (sq (F y) / c) ^ 2 := by gcongr
        _ = C0 / c ^ 2 * sq (F y) ^ 2 := by ring
        _ ≤ _ := by gcongr
  obtain ⟨s', x', k, h1, h2, h3, h4, h5⟩ := local_loop hnum hC hgood absTol relTol maxIter
    (maxIter.toNat + 1) { param := vec x0 } x0 rfl (by rw [← ht0e]; exact hsmall) (by intro e he; cases he) (by simp)
  obtain ⟨r, f1, f2⟩ := rebuild_structure ls hoks base (vec x') (vec_length x')
  have hr := rebuild_primOK ls hoks base _ (vec_length x') f1
  obtain ⟨t, ht⟩ := moved_exists hps' (SameStructure.refl hok.wf) hfin f2 (rebuild_finite ls hoks base x' f1)
  have hte := moved_eq ls hoks base hps' k1 (SameGeometry.symm k2) f1 (SameGeometry.refl hr.wf) ht
  refine ⟨r, _, t, solveNewton_eq hx0 h1 (by rw [h2, hreb]; exact f1), f2, ht, ?_, ?_⟩
  · have : s'.absErrs.length = k := by rw [h3]; simp
    simp only [this, hte, ht0e]
    exact h4
  · intro e he
    rw [hte]
    exact h5 e he

/-- C82: let a layout be made by any calls that add shipped constraints, and let `p` be a geometry that
satisfies all of them, at which they are differentiable and which is regular (no coordinate can be moved
a little without violating some constraint in proportion).  Then there is a constant `C` such that, with
exact numerics, from every geometry `r0` with the structure of `p` whose squared distance `t0` from `p` is
less than `1 / C`, with all tolerances and numbers of iterations, the Newton method succeeds and returns
a geometry whose squared distance `t` from `p` satisfies `C t ≤ (C t0) ^ (2 ^ n)` for the number `n` of
iterations done, and is at most `C` times the fourth power of the last reported error. -/
theorem C82_quadratic (num : Numerics Flt) (hnum : Exact num) (id : Nat) (ops : List (LayoutOp Flt))
    (l : Layout Flt) (hl : l = (Layout.empty id).run ops) (p : Prim Flt) (hok : PrimOK p)
    (hfin : p.Finite) (hops : ∀ op ∈ ops, op.Uses (Shipped.SmoothAt p)) (hreg : l.RegularSolution p) :
    ∃ C > 0, ∀ r0, PrimOK r0 → SameStructure p r0 → r0.Finite → ∀ ps t0, Represents p ps →
      Moved ps p r0 t0 → C * t0 < 1 → ∀ base absTol relTol maxIter, ∃ r info t,
        solveNewton num { l with prim := r0 } base absTol relTol maxIter = .ok (r, info) ∧
        SameStructure p r ∧ Moved ps p r t ∧ C * t ≤ (C * t0) ^ 2 ^ info.absErrs.length ∧
        ∀ e, info.absErrs.getLast? = some (fin e) → t ≤ C * e ^ 4 := by
  obtain ⟨x, hx⟩ := finite_param (l := { l with prim := p }) hok hfin
  obtain ⟨C, hC, h⟩ := quadratic_of id ops l hl p hok hfin hops hreg hx Filter.univ_mem
  exact ⟨C, hC, fun r0 h1 h2 h3 ps t0 h4 h5 h6 base => h r0 h1 h2 h3 ps t0 h4 h5 h6 num base hnum.lstsq
    fun y M _ hM => hnum.jacobian _ y M hM⟩

/-! ## Example -/

/-- Two lines from a fixed point: one has length 5 and reaches 3 to the right, the other one has a fixed
end point. -/
noncomputable def elbowOps : List (LayoutOp Flt) :=
  [.addPrim (sLn 4 (sPt 1 0 0) (sPt 2 3 3)) k!"U",
   .addPrim (sLn 5 (sPt 1 0 0) (sPt 3 0 2)) k!"V",
   .addConstraint ((Shipped.fix.build).toOption.getD ct.coincident) [k!"U/Point0"] [.arr [fin 0, fin 0]] k!"a",
   .addConstraint ((Shipped.fix.build).toOption.getD ct.coincident) [k!"V/Point1"] [.arr [fin 0, fin 1]] k!"b",
   .addConstraint ((Shipped.length.build).toOption.getD ct.coincident) [k!"U"] [.num (fin 5)] k!"c",
   .addConstraint ((Shipped.xLength.build).toOption.getD ct.coincident) [k!"U"] [.num (fin 3)] k!"d"]

/-- The layout of `elbowOps`. -/
noncomputable def elbowL : Layout Flt := (Layout.empty 0).run elbowOps

theorem elbowL_residual (r u v p q s : Nat) (a b c d e f : ℝ) :
    elbowL.residual (forkTree r u v p q s a b c d e f)
      = .ok [fin (a + -1 * 0), fin (b + -1 * 0), fin (e + -1 * 0), fin (f + -1 * 1),
          PyNum.sqrt (fin (0 + (c - a) * (c - a) + (d - b) * (d - b))) + fin (-1 * 5),
          fin (0 + (c - a) * 1 + (d - b) * 0 + -1 * 3)] := by
  rfl

/-- The corner. -/
noncomputable def elbowP : Prim Flt := forkTree 0 4 5 1 2 3 0 0 3 4 0 1

theorem elbowL_misfit (r u v p q s : Nat) (a b c d e f : ℝ) :
    elbowL.Misfit (forkTree r u v p q s a b c d e f)
      (a ^ 2 + b ^ 2 + e ^ 2 + (f - 1) ^ 2 + (Real.sqrt ((c - a) ^ 2 + (d - b) ^ 2) - 5) ^ 2 + (c - a - 3) ^ 2) := by
  refine ⟨[a, b, e, f - 1, Real.sqrt ((c - a) ^ 2 + (d - b) ^ 2) - 5, c - a - 3], ?_, by simp; ring⟩
  rw [elbowL_residual, show 0 + (c - a) * (c - a) + (d - b) * (d - b) = (c - a) ^ 2 + (d - b) ^ 2 by ring,
    fin_sqrt (by positivity), fin_add]
  simp only [List.map_cons, List.map_nil]
  ring_nf

theorem elbowL_rebuild (base : Nat) (y : Fin 6 → ℝ) :
    rebuild { elbowL with prim := elbowP } base (vec y) = .ok (forkTree (base + 0) (base + 1) (base + 4)
      (base + 2) (base + 3) (base + 5) (y 0) (y 1) (y 2) (y 3) (y 4) (y 5)) := by
  rfl

theorem elbowP_ok : PrimOK elbowP := forkTree_ok (by decide) _ _ _ _ _ _

theorem elbowOps_uses : ∀ op ∈ elbowOps, op.Uses (Shipped.SmoothAt elbowP) := by
  have hw : ∀ (i j k : Nat) (a b c d : ℝ), (sLn i (sPt j a b) (sPt k c d)).WF := fun i j k a b c d =>
    ((Node.goodB_iff _).mp (show Node.goodB (sLn i (sPt j a b) (sPt k c d)) = true from rfl)).1
  have hs : Shipped.SmoothAt elbowP .length := by
    refine ⟨fun _ k t ht path n x y hn hv w e => ?_, fun h => by cases h⟩
    refine forkTree_lines (Q := fun w => w = [] ∨ ∃ x ∈ w, x ≠ fin 0) (.inl rfl) ?_ ?_ ht hn hv e
    · exact .inr ⟨fin (3 - 0), by simp, by simp⟩
    · exact .inr ⟨fin (1 - 0), by simp, by simp⟩
  intro op h
  simp only [elbowOps, List.mem_cons, List.not_mem_nil, or_false] at h
  rcases h with rfl | rfl | rfl | rfl | rfl | rfl
  · exact hw _ _ _ _ _ _ _
  · exact hw _ _ _ _ _ _ _
  · exact ⟨.fix, rfl, trivial, nofun, nofun⟩
  · exact ⟨.fix, rfl, trivial, nofun, nofun⟩
  · exact ⟨.length, rfl, trivial, hs⟩
  · exact ⟨.xLength, rfl, trivial, nofun, nofun⟩

theorem elbow_grow {a b u v e f w : ℝ} (h : a ^ 2 + b ^ 2 + (u + a) ^ 2 + (v + b) ^ 2 + e ^ 2 + f ^ 2 < 1 / 4)
    (hw : 0 ≤ 5 + w) (hl : (5 + w) ^ 2 = (3 + u) ^ 2 + (4 + v) ^ 2) :
    1 / 100 * (a ^ 2 + b ^ 2 + (u + a) ^ 2 + (v + b) ^ 2 + e ^ 2 + f ^ 2)
      ≤ a ^ 2 + b ^ 2 + e ^ 2 + f ^ 2 + w ^ 2 + u ^ 2 := by
  have A : (u + a) ^ 2 ≤ 2 * u ^ 2 + 2 * a ^ 2 := by linarith [sq_nonneg (u - a)]
  have B : (v + b) ^ 2 ≤ 2 * v ^ 2 + 2 * b ^ 2 := by linarith [sq_nonneg (v - b)]
  have ea := sq_nonneg a
  have eb := sq_nonneg b
  have ee := sq_nonneg e
  have ef := sq_nonneg f
  have eu := sq_nonneg u
  have ew := sq_nonneg w
  have e1 := sq_nonneg (u + a)
  have e2 := sq_nonneg (v + b)
  have hu : u ^ 2 ≤ 1 := by linarith [sq_nonneg (u + 2 * a)]
  have hv : v ^ 2 ≤ 1 := by linarith [sq_nonneg (v + 2 * b)]
  have hu' := abs_le.mp ((sq_le_one_iff_abs_le_one u).mp hu)
  have hv' := abs_le.mp ((sq_le_one_iff_abs_le_one v).mp hv)
  have hw1 : w ≤ 2 := by
    by_contra hc
    have : (7 : ℝ) ^ 2 < (5 + w) ^ 2 := by gcongr; linarith
    linarith [hu'.1, hu'.2, hv'.1, hv'.2]
  have hw2 : -2 ≤ w := by
    by_contra hc
    have h3 : (5 + w) ^ 2 ≤ 3 ^ 2 := by gcongr; linarith
    have h4 : (3 : ℝ) ^ 2 ≤ (4 + v) ^ 2 := by gcongr; linarith [hv'.1]
    have h5 : (2 : ℝ) ^ 2 ≤ (3 + u) ^ 2 := by gcongr; linarith [hu'.1]
    linarith
  have key : v * (8 + v) = w * (10 + w) - u * (6 + u) := by linarith
  have h7 : 49 * v ^ 2 ≤ (v * (8 + v)) ^ 2 := by
    rw [mul_pow, mul_comm]
    have : (7 : ℝ) ^ 2 ≤ (8 + v) ^ 2 := by gcongr; linarith [hv'.1]
    exact mul_le_mul_of_nonneg_left (by linarith) (sq_nonneg v)
  have h8 : (w * (10 + w)) ^ 2 ≤ 144 * w ^ 2 := by
    rw [mul_pow, mul_comm]
    have : (10 + w) ^ 2 ≤ (12 : ℝ) ^ 2 := by gcongr <;> linarith
    exact mul_le_mul_of_nonneg_right (by linarith) ew
  have h9 : (u * (6 + u)) ^ 2 ≤ 49 * u ^ 2 := by
    rw [mul_pow, mul_comm]
    have : (6 + u) ^ 2 ≤ (7 : ℝ) ^ 2 := by gcongr <;> linarith [hu'.1, hu'.2]
    exact mul_le_mul_of_nonneg_right (by linarith) eu
  have h10 : (w * (10 + w) - u * (6 + u)) ^ 2 ≤ 2 * (w * (10 + w)) ^ 2 + 2 * (u * (6 + u)) ^ 2 := by
    linarith [sq_nonneg (w * (10 + w) + u * (6 + u))]
  rw [key] at h7
  have h11 : v ^ 2 ≤ 6 * w ^ 2 + 2 * u ^ 2 := by linarith
  linarith

theorem elbowP_regular : elbowL.RegularSolution elbowP := by
  obtain ⟨ps, hps⟩ := C70_representable { elbowL with prim := elbowP } elbowP_ok
  refine ⟨?_, ps, 1 / 100, 1 / 4, hps, by norm_num, by norm_num, fun r' t s' h1 h2 h3 h4 h5 h6 => ?_⟩
  · have := elbowL_misfit 0 4 5 1 2 3 0 0 3 4 0 1
    rw [show ((3 : ℝ) - 0) ^ 2 + (4 - 0) ^ 2 = 5 ^ 2 by norm_num, Real.sqrt_sq (by norm_num)] at this
    norm_num at this
    exact this
  · obtain ⟨y, r, e1, e2, e3⟩ : ∃ (y : Fin 6 → ℝ) (r : Prim Flt),
        rebuild { elbowL with prim := elbowP } 10 (vec y) = .ok r ∧ r.WF ∧ SameGeometry r r' :=
      exists_param { elbowL with prim := elbowP } elbowP_ok 10 h1 h2 h3
    have e4 := elbowL_rebuild 10 y
    have ht : t = (y 0) ^ 2 + (y 1) ^ 2 + (y 2 - 3) ^ 2 + (y 3 - 4) ^ 2 + (y 4) ^ 2 + (y 5 - 1) ^ 2 := by
      have hx : globalParam { elbowL with prim := elbowP } = .ok (vec ![0, 0, 3, 4, 0, 1]) := by rfl
      obtain ⟨q, f1, f2⟩ := rebuild_self { elbowL with prim := elbowP } elbowP_ok 10 hx
      have := moved_eq { elbowL with prim := elbowP } elbowP_ok 10 hps (x := ![0, 0, 3, 4, 0, 1]) (y := y)
        f1 (SameGeometry.symm f2) e1 e3 h4
      have e : sq (y - ![0, 0, 3, 4, 0, 1]) = (y 0) ^ 2 + (y 1) ^ 2 + (y 2 - 3) ^ 2 + (y 3 - 4) ^ 2 + (y 4) ^ 2 + (y 5 - 1) ^ 2 := by
        rw [sq, Fin.sum_univ_six]
        simp
      exact this.trans e
    obtain rfl := Except.ok.inj (e1.symm.trans e4)
    have hm := elbowL_misfit (10 + 0) (10 + 1) (10 + 4) (10 + 2) (10 + 3) (10 + 5) (y 0) (y 1) (y 2) (y 3)
      (y 4) (y 5)
    obtain ⟨v, i1, i2⟩ := hm
    obtain ⟨w, j1, j2⟩ := h6
    have hr := residual_geometry (l := elbowL) (run_nip elbowOps_uses 0) e2 h1.wf e3
    rw [← hr, i1] at j1
    rw [← map_fin_inj (Except.ok.inj j1), ← i2] at j2
    rw [j2, ht]
    rw [ht] at h5
    have := elbow_grow (a := y 0) (b := y 1) (u := y 2 - y 0 - 3) (v := y 3 - y 1 - 4) (e := y 4) (f := y 5 - 1)
      (w := Real.sqrt ((y 2 - y 0) ^ 2 + (y 3 - y 1) ^ 2) - 5) (by ring_nf at h5 ⊢; linarith)
      (by have := Real.sqrt_nonneg ((y 2 - y 0) ^ 2 + (y 3 - y 1) ^ 2); linarith)
      (by rw [add_sub_cancel, Real.sq_sqrt (by positivity)]; ring)
    ring_nf at this ⊢
    linarith

/-- C82 holds of a layout with a length constraint: the corner is found from nearby. -/
example : ∃ C > 0, ∀ r0, PrimOK r0 → SameStructure elbowP r0 → r0.Finite → ∀ ps t0, Represents elbowP ps →
    Moved ps elbowP r0 t0 → C * t0 < 1 → ∀ base absTol relTol maxIter, ∃ r info t,
      solveNewton exactNum { elbowL with prim := r0 } base absTol relTol maxIter = .ok (r, info) ∧
      SameStructure elbowP r ∧ Moved ps elbowP r t ∧ C * t ≤ (C * t0) ^ 2 ^ info.absErrs.length ∧
      ∀ e, info.absErrs.getLast? = some (fin e) → t ≤ C * e ^ 4 :=
  C82_quadratic exactNum exactNum_exact 0 elbowOps elbowL rfl elbowP elbowP_ok
    (forkTree_finite _ _ _ _ _ _ _ _ _ _ _ _) elbowOps_uses elbowP_regular

end MplLayout.Props
