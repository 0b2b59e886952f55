import Verif.Lemmas.Gradient
import Verif.Props.JacfwdNewton
import Mathlib.Analysis.Calculus.Deriv.Prod

/-!
# C97: the gradient that `jax.value_and_grad` returns is the gradient of the sum of squares
-/

namespace MplLayout.Props

open Solver Flt

/-- C97, soundness: let a layout be made by any calls that add trees and shipped constraints.  If the value
and the gradient that `jax.value_and_grad` returns for `x` are finite, then the sum of squared residuals
is differentiable at `x` and the gradient is its gradient.  (If the layout has an angle constraint, no
line points to the left at `x`.) -/
theorem C97_finite_is_gradient (id : Nat) (prog : List BuildCall) (base : Nat) {n : Nat} (x : Fin n → ℝ)
    (hleft : ∀ root, rebuild (builtLayout id prog) base (vec x) = .ok root →
      Uses prog fun s => s = .angle → ∀ k q, root.getChild k = .ok q → Prim.NoLeftLines q)
    (v : ℝ) (G : Fin n → ℝ)
    (hG : valueAndGrad (objective (tapedLayout id prog) base) (vec x) = .ok (fin v, vec G)) :
    IsGradient (objective (builtLayout id prog) base) x G :=
  grad_sound id prog base
    (∀ root, rebuild (builtLayout id prog) base (vec x) = .ok root → ∀ k q, root.getChild k = .ok q →
      Prim.NoLeftLines q)
    (fun s ks ps key h hs root e => hleft root e s ks ps key h hs)
    (fun root e k q hq h => h root e k q hq) ((rev_iff id prog base x (fin v) G).mp hG)

/-- C97, completeness: wherever the residual vector is finite and every constraint of the layout is
differentiable, `jax.value_and_grad` returns the sum of its squares and a finite vector, and this is the
gradient of the sum of squares. -/
theorem C97_gradient (id : Nat) (prog : List BuildCall) (base : Nat) {m n : Nat} (x : Fin n → ℝ)
    (hsm : ∀ root, rebuild (builtLayout id prog) base (vec x) = .ok root → Uses prog (Shipped.SmoothAt root))
    (b : Fin m → ℝ) (hb : globalRes (builtLayout id prog) base (vec x) = .ok (vec b)) :
    ∃ G : Fin n → ℝ, valueAndGrad (objective (tapedLayout id prog) base) (vec x) = .ok (fin (∑ i, b i ^ 2), vec G) ∧
      IsGradient (objective (builtLayout id prog) base) x G := by
  obtain ⟨G, hG⟩ := grad_finite id prog base
    (∀ root, rebuild (builtLayout id prog) base (vec x) = .ok root → ∀ k q, root.getChild k = .ok q →
      Prim.NoZeroLines q)
    (∀ root, rebuild (builtLayout id prog) base (vec x) = .ok root → ∀ k q, root.getChild k = .ok q →
      Prim.NoLeftLines q)
    (fun s ks ps key h => ⟨fun hs root e => (hsm root e s ks ps key h).1 hs,
      fun hs root e => (hsm root e s ks ps key h).2 hs⟩)
    (fun root e k q hq => ⟨fun h => h root e k q hq, fun h => h root e k q hq⟩) (objective_vec hb)
  have hG := (rev_iff id prog base x _ G).mpr hG
  exact ⟨G, hG, C97_finite_is_gradient id prog base x (fun root e s ks ps key h => (hsm root e s ks ps key h).2)
    _ G hG⟩

/-- C97, the two solvers agree: at such a geometry the gradient of `minimize` is twice the residual vector
times the matrix of `newton`. -/
theorem C97_transposed (id : Nat) (prog : List BuildCall) (base : Nat) {m n : Nat} (x : Fin n → ℝ)
    (hsm : ∀ root, rebuild (builtLayout id prog) base (vec x) = .ok root → Uses prog (Shipped.SmoothAt root))
    (b : Fin m → ℝ) (hb : globalRes (builtLayout id prog) base (vec x) = .ok (vec b)) :
    ∃ M : Matrix (Fin m) (Fin n) ℝ, jacfwd (globalRes (tracedLayout id prog) base) (vec x) = .ok (mat M) ∧
      valueAndGrad (objective (tapedLayout id prog) base) (vec x)
        = .ok (fin (∑ i, b i ^ 2), vec fun j => 2 * ∑ i, b i * M i j) := by
  obtain ⟨M, h1, h2⟩ := C96_smooth id prog base x hsm b hb
  obtain ⟨G, h3, h4⟩ := C97_gradient id prog base x hsm b hb
  refine ⟨M, h1, ?_⟩
  rw [h3, h4.unique (jacobian_gradient h2 hb)]

/-- C97, values: for every program and every array `x` (finite or not), `jax.value_and_grad` raises the
exception that the objective raises, or it returns the value of the objective and one number for each
coordinate. -/
theorem C97_values (id : Nat) (prog : List BuildCall) (base : Nat) (x : List Flt) :
    (∀ e, objective (builtLayout id prog) base x = .error e →
      valueAndGrad (objective (tapedLayout id prog) base) x = .error e) ∧
    (∀ v, objective (builtLayout id prog) base x = .ok v →
      ∃ G, valueAndGrad (objective (tapedLayout id prog) base) x = .ok (v, G) ∧ G.length = x.length) := by
  have h := tape_val_obj id prog base x
  constructor
  · intro e he
    rw [he] at h
    cases hy : objective (tapedLayout id prog) base (Tape.inputs x) with
    | ok y => rw [hy] at h; exact h.elim
    | error e' =>
      rw [hy] at h
      have h : e = e' := h
      simp only [valueAndGrad, hy, bind, Except.bind, h]
  · intro v hv
    obtain ⟨y, hy, hyv⟩ := h.ok_left hv
    have hyv : y.val = v := hyv
    refine ⟨_, by simp only [valueAndGrad, hy, bind, Except.bind, hyv]; rfl, ?_⟩
    cases y.lin <;> simp

/-- C97, downhill: if the gradient at `x` is not zero, all short enough steps against the gradient make the
sum of squares smaller. -/
theorem C97_downhill (id : Nat) (prog : List BuildCall) (base : Nat) {n : Nat} (x : Fin n → ℝ)
    (hsm : ∀ root, rebuild (builtLayout id prog) base (vec x) = .ok root → Uses prog (Shipped.SmoothAt root))
    (v : ℝ) (G : Fin n → ℝ)
    (hG : valueAndGrad (objective (tapedLayout id prog) base) (vec x) = .ok (fin v, vec G)) (hne : G ≠ 0) :
    ∃ ε > 0, ∀ t, 0 < t → t < ε → ∃ v' < v,
      objective (builtLayout id prog) base (vec fun j => x j - t * G j) = .ok (fin v') := by
  have hg := C97_finite_is_gradient id prog base x (fun root e s ks ps key h => (hsm root e s ks ps key h).2) v G hG
  obtain ⟨Φ, h1, h2⟩ := hg
  have hv : Φ x = v := by
    have e := h1.self_of_nhds
    obtain ⟨G', e', -⟩ := (C97_values id prog base (vec x)).2 _ e
    rw [hG] at e'
    exact (fin_inj.mp (Prod.ext_iff.mp (Except.ok.inj e')).1).symm
  let c : ℝ → Fin n → ℝ := fun t j => x j - t * G j
  have hc0 : c 0 = x := by funext j; simp [c]
  have hc : HasDerivAt c (fun j => -G j) 0 := by
    rw [hasDerivAt_pi]
    intro j
    simpa [c] using ((hasDerivAt_id (0 : ℝ)).mul_const (G j)).const_sub (x j)
  have hd : HasDerivAt (fun t => Φ (c t)) (-∑ j, G j ^ 2) 0 := by
    have h2' := h2
    rw [← hc0] at h2'
    have := h2'.comp_hasDerivAt (0 : ℝ) hc
    simpa [Function.comp_def, pow_two, Finset.sum_neg_distrib] using this
  have hpos : 0 < ∑ j, G j ^ 2 := by
    obtain ⟨j, hj⟩ := Function.ne_iff.mp hne
    have hj : G j ≠ 0 := hj
    exact Finset.sum_pos' (fun i _ => sq_nonneg _) ⟨j, Finset.mem_univ j, by positivity⟩
  have hslope := hd.tendsto_slope
  have hneg : ∀ᶠ t in nhdsWithin (0 : ℝ) {0}ᶜ, slope (fun t => Φ (c t)) 0 t < 0 :=
    hslope.eventually_lt_const (by linarith)
  have hct : Filter.Tendsto c (nhds 0) (nhds x) := by
    have := hc.continuousAt.tendsto
    rwa [hc0] at this
  have hall := (eventually_nhdsWithin_iff.mp hneg).and (hct.eventually h1)
  obtain ⟨ε, hε, hball⟩ := Metric.eventually_nhds_iff.mp hall
  refine ⟨ε, hε, fun t ht hte => ⟨Φ (c t), ?_, ?_⟩⟩
  · have hb := (hball (y := t) (by simpa [abs_of_pos ht] using hte)).1 (by simpa using ht.ne')
    simp only [slope_def_field, hc0, hv, sub_zero] at hb
    rcases div_neg_iff.mp hb with ⟨-, h⟩ | ⟨h, -⟩ <;> linarith
  · exact (hball (y := t) (by simpa [abs_of_pos ht] using hte)).2

/-- C97, stationary: at a layout that is locally best (and at whose geometry each of its constraints is
differentiable) the gradient is zero. -/
theorem C97_stationary (id : Nat) (prog : List BuildCall) (l : Layout Flt) (hl : l = builtLayout id prog)
    (hprog : ∀ c ∈ prog, c.OK (Shipped.SmoothAt l.prim)) (hok : PrimOK l.prim) (hfin : l.prim.Finite)
    (hbest : l.LocallyBest) (base : Nat) : ∃ (x : Fin (dim l) → ℝ) (s : ℝ), globalParam l = .ok (vec x) ∧
      l.Misfit l.prim s ∧
      valueAndGrad (objective (tapedLayout id prog) base) (vec x) = .ok (fin s, vec fun _ : Fin (dim l) => 0) := by
  obtain ⟨x, hx⟩ := finite_param hok hfin
  have hl' : l = (Layout.empty id).run (prog.filterMap BuildCall.plain) := by rw [hl, builtLayout_eq]
  obtain ⟨m, M, F, hF, hD, hmin⟩ := best_localMin hl' (plain_uses hprog) hok hfin hbest base hx
  obtain ⟨r, e1, e2⟩ := rebuild_self l hok base hx
  have hr : r.WF := (rebuild_primOK l hok base _ (vec_length x) e1).wf
  have hFx := hF.self_of_nhds
  have hres : l.residual l.prim = .ok (vec (F x)) := by
    rw [residual_geometry (by rw [hl']; exact run_nip (plain_uses hprog) id) hok.wf hr e2]
    simpa only [globalRes, e1, bind, Except.bind] using hFx
  refine ⟨x, _, hx, (misfit_vec hres _).mpr rfl, ?_⟩
  subst hl
  obtain ⟨G, h1, h2⟩ := C97_gradient id prog base x (fun root e s ks ps key hm => by
    obtain rfl := Except.ok.inj (e1.symm.trans e)
    exact smoothAt_same hok.wf hr e2 (ok_uses hprog s ks ps key hm)) (F x) hFx
  obtain ⟨G', h3⟩ : ∃ G', G' = fun j => 2 * ∑ i, F x i * M i j := ⟨_, rfl⟩
  have h4 := jacobian_gradient ⟨F, hF, hD⟩ hFx
  rw [h1]
  have : G = fun _ => 0 := by
    rw [h2.unique h4]
    funext j
    have := stationary_of_min hD hmin (Pi.single j 1)
    simpa using this
  rw [this]
  rfl

/-- C97 for `minimize`: an optimizer that stops where the gradient is zero leaves a layout alone if no
nearby geometry of the same structure has a smaller sum of squared residuals, in particular if all
constraints are satisfied; for all tolerances and numbers of iterations; and it reports nothing. -/
theorem C97_minimize_stays (id : Nat) (prog : List BuildCall) (l : Layout Flt) (hl : l = builtLayout id prog)
    (hprog : ∀ c ∈ prog, c.OK (Shipped.SmoothAt l.prim)) (hok : PrimOK l.prim) (hfin : l.prim.Finite)
    (hbest : l.LocallyBest) (base : Nat) (num : Numerics Flt) (tol : ℝ) (htol : 0 ≤ tol)
    (hnum : StopsAtGradient num tol (objective l base) (objective (tapedLayout id prog) base))
    (absTol relTol : Flt) (maxIter : Int) :
    ∃ r, solveMinimize num l base absTol relTol maxIter = .ok (r, ⟨[], []⟩) ∧ SameGeometry l.prim r := by
  obtain ⟨x, s, hx, -, hG⟩ := C97_stationary id prog l hl hprog hok hfin hbest base
  obtain ⟨r, e1, e2⟩ := rebuild_self l hok base hx
  refine ⟨r, ?_, e2⟩
  simp only [solveMinimize, hx, hnum x _ _ maxIter hG (by simpa using fun _ => htol), bind, Except.bind, runMinimize, e1]

/-! ## Where `minimize` gives up -/

/-- A line whose extent in the direction of the x axis is `a` and should be 1. -/
noncomputable def nearProg (a : ℝ) : List BuildCall :=
  [.addPrim (sLn 4 (sPt 1 0 0) (sPt 2 a 0)) k!"U",
   .addPrim (sLn 5 (sPt 1 0 0) (sPt 3 0 1)) k!"V",
   .addConstraint .xLength [k!"U"] [.num (fin 1)] k!"c"]

theorem near_prim (a : ℝ) : (builtLayout 0 (nearProg a)).prim = forkTree 0 4 5 1 2 3 0 0 a 0 0 1 := by rfl

theorem near_ok (a : ℝ) : PrimOK (builtLayout 0 (nearProg a)).prim := by
  rw [near_prim]
  exact forkTree_ok (by decide) _ _ _ _ _ _

theorem near_residual (a : ℝ) (r u v p q s : Nat) (a' b c d e f : ℝ) :
    (builtLayout 0 (nearProg a)).residual (forkTree r u v p q s a' b c d e f)
      = .ok [fin (0 + (c - a') * 1 + (d - b) * 0) + fin (-1 * 1)] := by
  rfl

theorem fork_rebuild {l : Layout Flt} (h : l.prim = forkTree 10 14 15 11 12 13 0 0 1 0 0 1) (y : Fin 6 → ℝ) :
    rebuild l 10 (vec y) = .ok (forkTree 10 11 14 12 13 15 (y 0) (y 1) (y 2) (y 3) (y 4) (y 5)) := by
  unfold rebuild primValues
  rw [h]
  rfl

theorem near_res (a : ℝ) (y : Fin 6 → ℝ) : globalRes (builtLayout 0 (nearProg a)) 10 (vec y)
    = .ok (vec ![y 2 - y 0 - 1]) := by
  have h := (rebuild_same (l := builtLayout 0 (nearProg a))
    (l' := { builtLayout 0 (nearProg a) with prim := forkTree 10 14 15 11 12 13 0 0 1 0 0 1 }) (near_ok a)
    (forkTree_ok (by decide) _ _ _ _ _ _) (by rw [near_prim]; exact forkTree_same _ _ _ _ _ _ _ _ _ _ _ _)).1
  have h' := fork_rebuild (l := { builtLayout 0 (nearProg a) with prim := forkTree 10 14 15 11 12 13 0 0 1 0 0 1 }) rfl y
  rw [← h] at h'
  simp only [globalRes, h', bind, Except.bind, near_residual, fin_add]
  rw [show 0 + (y 2 - y 0) * 1 + (y 3 - y 1) * 0 + -1 * 1 = y 2 - y 0 - 1 by ring]
  rfl

theorem near_grad (a : ℝ) (x : Fin 6 → ℝ) : ∃ v, valueAndGrad (objective (tapedLayout 0 (nearProg a)) 10) (vec x)
    = .ok (v, vec fun j : Fin 6 => 2 * (x 2 - x 0 - 1) * ((if j = 2 then 1 else 0) - (if j = 0 then 1 else 0))) := by
  obtain ⟨G, h1, h2⟩ := C97_gradient 0 (nearProg a) 10 x (fun root _ s ks ps key h => by
    simp only [nearProg, List.mem_cons, reduceCtorEq, List.not_mem_nil, or_false, false_or,
      BuildCall.addConstraint.injEq] at h
    rw [h.1]
    exact ⟨nofun, nofun⟩) _ (near_res a x)
  refine ⟨fin (∑ i, ![x 2 - x 0 - 1] i ^ 2), ?_⟩
  have hg : IsGradient (objective (builtLayout 0 (nearProg a)) 10) x fun j : Fin 6 =>
      2 * (x 2 - x 0 - 1) * ((if j = 2 then 1 else 0) - (if j = 0 then 1 else 0)) := by
    refine ⟨fun y => (y 2 - y 0 - 1) ^ 2, .of_forall fun y => ?_, ?_⟩
    · rw [objective_vec (near_res a y)]
      simp [sq]
    · have h2 := hasFDerivAt_apply (𝕜 := ℝ) (F' := fun _ : Fin 6 => ℝ) 2 x
      have h0 := hasFDerivAt_apply (𝕜 := ℝ) (F' := fun _ : Fin 6 => ℝ) 0 x
      have h := ((h2.sub h0).sub_const 1).pow 2
      rw [clm_sum _ _ fun j => ?_]
      · exact h
      · simp [Pi.single_apply, eq_comm]
  rw [h1, h2.unique hg]

/-- C97, the tolerance of the optimizer: let an optimizer stop where no entry of the gradient exceeds `tol`
(`scipy`'s L-BFGS-B does so with `tol = 1e-5`).  There is a layout whose only constraint, the extent of a
line, is linear and is not satisfied, and `minimize` returns it as it is, for all tolerances and numbers of
iterations that the user asks for, and reports nothing. -/
theorem C97_tolerance_counterexample (tol : ℝ) (htol : 0 < tol) : ∃ (prog : List BuildCall) (s : ℝ),
    s ≠ 0 ∧ (builtLayout 0 prog).Misfit (builtLayout 0 prog).prim s ∧
    ∀ (num : Numerics Flt), StopsAtGradient num tol (objective (builtLayout 0 prog) 10)
      (objective (tapedLayout 0 prog) 10) → ∀ absTol relTol maxIter, ∃ r,
        solveMinimize num (builtLayout 0 prog) 10 absTol relTol maxIter = .ok (r, ⟨[], []⟩) ∧
        SameGeometry (builtLayout 0 prog).prim r := by
  have hx : ∀ a, globalParam (builtLayout 0 (nearProg a)) = .ok (vec ![0, 0, a, 0, 0, 1]) := fun a => by rfl
  refine ⟨nearProg (1 + tol / 2), (tol / 2) ^ 2, by positivity, ⟨[tol / 2], ?_, by simp⟩,
    fun num hnum absTol relTol maxIter => ?_⟩
  · rw [near_prim, near_residual, fin_add]
    simp only [List.map_cons, List.map_nil]
    congr 3
    ring
  · obtain ⟨v, hG⟩ := near_grad (1 + tol / 2) ![0, 0, 1 + tol / 2, 0, 0, 1]
    obtain ⟨r, e1, e2⟩ := rebuild_self _ (near_ok (1 + tol / 2)) 10 (hx (1 + tol / 2))
    refine ⟨r, ?_, e2⟩
    have hit := hnum _ _ v maxIter hG (fun j => by
      have : 2 * (tol / 2) = tol := by ring
      fin_cases j <;> simp [abs_of_pos htol, htol.le, this])
    simp only [solveMinimize, hx (1 + tol / 2), hit, bind, Except.bind, runMinimize, e1]

/-- C97, forward and reverse: the matrix product in forward mode and the backward pass return the same
numbers if they are finite. -/
theorem C97_forward (id : Nat) (prog : List BuildCall) (base : Nat) {n : Nat} (x G : Fin n → ℝ) (v : Flt) :
    valueAndGrad (objective (tapedLayout id prog) base) (vec x) = .ok (v, vec G) ↔
    ∃ y, objective (tracedLayout id prog) base ((vec x).map Dual.const) = .ok y ∧ y.val = v ∧
      ∀ j : Fin n, ∃ d, objective (tracedLayout id prog) base (Dual.seed (vec x) j) = .ok d ∧ d.slope = fin (G j) := by
  rw [rev_iff]
  constructor
  · intro h
    simp only [fwdGrad, py_bind_ok] at h
    obtain ⟨y, hy, cols, hcols, e⟩ := h
    obtain ⟨e1, e2⟩ := Prod.ext_iff.mp (Except.ok.inj e)
    refine ⟨y, hy, e1, fun j => ?_⟩
    have hr := pyMap_ok.mp hcols
    have hlen : cols.length = n := by
      have := hr.length_eq
      simpa [vec] using this.symm
    have hj := (List.forall₂_iff_get.mp hr).2 j.1 (by simp [vec]) (by rw [hlen]; exact j.2)
    simp only [List.get_eq_getElem, List.getElem_range] at hj
    refine ⟨_, hj, ?_⟩
    have : (cols.map Dual.slope)[j.1]? = (vec G)[j.1]? := congrArg (·[j.1]?) e2
    simpa [vec, hlen] using this
  · rintro ⟨y, hy, rfl, h⟩
    choose d hd hs using h
    rw [fwdGrad_ok hy hd]
    simp only [hs]
    rfl

theorem dot_taped (a b c d e f : Tape) :
    globalRes (tapedLayout 0 dotProg) 10 [a, b, c, d, e, f] = .ok
    [PyNum.sqrt (0 + (c - a) * (c - a) + (d - b) * (d - b)) + Tape.const (fin (-1 * 0))] := by
  rfl

/-- C97, the other exception: where a line is a single point and its length is measured, the gradient is not
finite in the coordinates of the line, even if the constraint is satisfied; the other coordinates
are not affected. -/
theorem C97_dot : ∃ (prog : List BuildCall) (x : Fin 6 → ℝ),
    objective (builtLayout 0 prog) 10 (vec x) = .ok (fin 0) ∧
    valueAndGrad (objective (tapedLayout 0 prog) 10) (vec x) = .ok (fin 0, [bad, bad, bad, bad, fin 0, fin 0]) := by
  let i (k : Nat) (a : ℝ) : Tape := ⟨fin a, some (.input k)⟩
  have hin : Tape.inputs (vec ![0, 0, 0, 0, 0, 1]) = [i 0 0, i 1 0, i 2 0, i 3 0, i 4 0, i 5 1] := by
    simp [Tape.inputs, vec, i, List.ofFn_succ]
  let x : Lin := .add (.input 2) (.neg (.input 0))
  let y : Lin := .add (.input 3) (.neg (.input 1))
  let d := fin 0 - fin 0
  let w := 0 + d * d + d * d
  let l : Lin := .scale (fin (1 / 2) / PyNum.sqrt w) (.add (.add (.scale d x) (.scale d x)) (.add (.scale d y) (.scale d y)))
  let s := PyNum.sqrt w + fin (-1 * 0)
  have hobj : objective (tapedLayout 0 dotProg) 10 (Tape.inputs (vec ![0, 0, 0, 0, 0, 1]))
      = .ok ⟨0 + s * s, some (.add (.scale s l) (.scale s l))⟩ := by
    rw [hin, objective_ok (dot_taped ..)]
    rfl
  have hd : d = fin 0 := by simp [d]
  have hw : w = fin 0 := by simp [w, hd, zero_eq]
  have hk : fin (1 / 2) / PyNum.sqrt w = bad := by rw [hw, fin_sqrt le_rfl, Real.sqrt_zero, div_zero']
  have hs : s = fin 0 := by simp [s, hw, fin_sqrt le_rfl]
  have hv : (0 : Flt) + s * s = fin 0 := by simp [hs, zero_eq]
  have hgrad : valueAndGrad (objective (tapedLayout 0 dotProg) 10) (vec ![0, 0, 0, 0, 0, 1])
      = .ok (fin 0, [bad, bad, bad, bad, fin 0, fin 0]) := by
    simp only [valueAndGrad, hobj, bind, Except.bind, hv]
    congr 2
    have : ((vec ![0, 0, 0, 0, 0, 1]).map fun _ => fin 0) = [fin 0, fin 0, fin 0, fin 0, fin 0, fin 0] := by
      simp [vec, List.ofFn_succ]
    rw [this]
    simp only [Lin.pull, l, hk, mul_bad, bad_mul, x, y, neg_bad]
    simp [List.modify]
  refine ⟨dotProg, ![0, 0, 0, 0, 0, 1], ?_, hgrad⟩
  obtain ⟨h1, h2⟩ := C97_values 0 dotProg 10 (vec ![0, 0, 0, 0, 0, 1])
  rw [hgrad] at h1 h2
  generalize objective (builtLayout 0 dotProg) 10 (vec ![0, 0, 0, 0, 0, 1]) = o at h1 h2 ⊢
  cases o with
  | error e => exact nomatch h1 e rfl
  | ok a =>
    obtain ⟨G, h, -⟩ := h2 a rfl
    exact congrArg _ (Prod.ext_iff.mp (Except.ok.inj h)).1.symm

/-! ## Examples -/

open Classical in
/-- An optimizer that stops where the gradient is at most `tol`, and otherwise makes one step against it. -/
noncomputable def gradNum (tol : ℝ) (taped : List Tape → Py Tape) : Numerics Flt :=
  { exactNum with
    iterates := fun f x _ => do
      let (_, G) ← valueAndGrad taped x
      if ∀ g ∈ G, ∃ a : ℝ, g = fin a ∧ |a| ≤ tol then .ok []
      else
        let x' := List.zipWith (fun a g => a - g) x G
        let v ← f x'
        .ok [(x', v)] }

theorem gradNum_stops (tol : ℝ) (obj : List Flt → Py Flt) (taped : List Tape → Py Tape) :
    StopsAtGradient (gradNum tol taped) tol obj taped := by
  intro n x G v m h hG
  simp only [gradNum, h, bind, Except.bind]
  rw [if_pos]
  intro g hg
  obtain ⟨j, rfl⟩ := List.mem_ofFn.mp hg
  exact ⟨G j, rfl, hG j⟩

/-- `minimize` leaves the best compromise alone: the line of length 2 that should have the lengths 1 and 3. -/
example (a b : Flt) (n : Int) : ∃ r,
    solveMinimize (gradNum 0.00001 (objective (tapedLayout 0 stretchProg) 10)) stretchL 10 a b n = .ok (r, ⟨[], []⟩) ∧
      SameGeometry stretchL.prim r :=
  C97_minimize_stays 0 stretchProg stretchL rfl stretchProg_ok
    (by rw [stretchL_prim]; exact forkTree_ok (by decide) _ _ _ _ _ _)
    (by rw [stretchL_prim]; exact forkTree_finite _ _ _ _ _ _ _ _ _ _ _ _) stretchL_best 10 _ _ (by norm_num)
    (gradNum_stops _ _ _) a b n

/-- A gradient that is not zero: the extent is 3 and should be 1. -/
example : ∃ v, valueAndGrad (objective (tapedLayout 0 (nearProg 3)) 10) (vec ![0, 0, 3, 0, 0, 1])
    = .ok (v, vec ![-4, 0, 4, 0, 0, 0]) := by
  obtain ⟨v, h⟩ := near_grad 3 ![0, 0, 3, 0, 0, 1]
  refine ⟨v, h.trans ?_⟩
  congr 3
  funext j
  fin_cases j <;> simp <;> norm_num

end MplLayout.Props
