import Verif.Lemmas.Stationary
import Verif.Props.LeastSquares

/-!
# C56 and C71 for all shipped constraints
-/

namespace MplLayout.Props

open Solver Flt

theorem uses_mono {P Q : Shipped → Prop} (h : ∀ s, P s → Q s) {op : LayoutOp Flt} (ho : op.Uses P) :
    op.Uses Q := by
  cases op with
  | addPrim => exact ho
  | addPrims => exact ho
  | addConstraint =>
    obtain ⟨s, h1, h2, h3⟩ := ho
    exact ⟨s, h1, h2, h s h3⟩

/-- C56 for all shipped constraints: with exact numerics, for all tolerances and numbers of
iterations, a layout made by any calls that add shipped constraints (at a geometry where each of them
is differentiable: no line is a single point if lengths are measured, none points to the left if
angles are measured) and whose primitives satisfy all constraints is solved successfully, and the
result is the same geometry.  (Missing: geometries where a constraint is not differentiable, where
`jax` returns `nan` entries.) -/
theorem C56_shipped_partial (num : Numerics Flt) (hnum : Exact num) (id : Nat)
    (ops : List (LayoutOp Flt)) (l : Layout Flt) (hl : l = (Layout.empty id).run ops)
    (hops : ∀ op ∈ ops, op.Uses (Shipped.SmoothAt l.prim)) (hok : PrimOK l.prim) (hfin : l.prim.Finite)
    (v : List Flt) (hv : l.residual l.prim = .ok v) (hz : Zeros v) (base : Nat)
    (absTol relTol : Flt) (maxIter : Int) :
    ∃ r info, solveNewton num l base absTol relTol maxIter = .ok (r, info) ∧
      SameGeometry l.prim r :=
  C56_satisfied_partial num hnum id ops (fun op ho => uses_mono (fun _ _ => trivial) (hops op ho)) l hl
    hok hfin v hv hz base (fun _ hx => smooth_jacobian id base hl hops hok hx hv fun a ha => ⟨0, hz a ha⟩)
    absTol relTol maxIter

/-- A locally best layout is at a local minimum of the sum of squares as a function of its parameters. -/
theorem best_localMin {id : Nat} {ops : List (LayoutOp Flt)} {l : Layout Flt} (hl : l = (Layout.empty id).run ops)
    (hops : ∀ op ∈ ops, op.Uses (Shipped.SmoothAt l.prim)) (hok : PrimOK l.prim) (hfin : l.prim.Finite)
    (hbest : l.LocallyBest) (base : Nat) {x : Fin (dim l) → ℝ} (hx : globalParam l = .ok (vec x)) :
    ∃ (m : Nat) (M : Matrix (Fin m) (Fin (dim l)) ℝ) (F : (Fin (dim l) → ℝ) → Fin m → ℝ),
      (∀ᶠ y in nhds x, globalRes l base (vec y) = .ok (vec (F y))) ∧
      HasFDerivAt F (LinearMap.toContinuousLinearMap M.mulVecLin) x ∧ IsLocalMin (fun y => sq (F y)) x := by
  obtain ⟨s, ps, ε, hs, hps, hε, hmin⟩ := hbest
  obtain ⟨v, hv, hsv⟩ := hs
  obtain ⟨m, M, hM⟩ := smooth_jacobian id base hl hops hok hx hv (by
    intro a ha
    obtain ⟨y, _, rfl⟩ := List.mem_map.mp ha
    exact ⟨y, rfl⟩)
  obtain ⟨F, hF, hD⟩ := hM
  refine ⟨m, M, F, hF, hD, ?_⟩
  obtain ⟨r, e1, e2⟩ := rebuild_self l hok base hx
  have hr : r.WF := (rebuild_primOK l hok base _ (vec_length x) e1).wf
  have hFx := hF.self_of_nhds
  have hres : l.residual l.prim = .ok (vec (F x)) := by
    rw [residual_geometry (by rw [hl]; exact run_nip hops id) hok.wf hr e2]
    simpa only [globalRes, e1, bind, Except.bind] using hFx
  have hs' : s = sq (F x) := (misfit_vec hres s).mp ⟨v, hv, hsv⟩
  have hnear : ∀ᶠ y in nhds x, sq (y - x) < ε := by
    have hc : Continuous fun y : Fin (dim l) → ℝ => sq (y - x) := by
      unfold sq
      fun_prop
    have : (fun y => sq (y - x)) x < ε := by simpa [sq] using hε
    exact hc.continuousAt.eventually_lt_const this
  filter_upwards [hF, hnear] with y hy hd
  obtain ⟨ry, f1, f2⟩ := rebuild_structure l hok base (vec y) (vec_length y)
  have hyo := rebuild_primOK l hok base _ (vec_length y) f1
  have hyf := rebuild_finite l hok base y f1
  obtain ⟨t, ht⟩ := moved_exists hps (SameStructure.refl hok.wf) hfin f2 hyf
  have hte := moved_eq l hok base hps e1 (SameGeometry.symm e2) f1 (SameGeometry.refl hyo.wf) ht
  have hry : l.residual ry = .ok (vec (F y)) := by
    simpa only [globalRes, f1, bind, Except.bind] using hy
  rw [← hs']
  exact hmin ry t _ hyo f2 hyf ht (by rw [hte]; exact hd) ((misfit_vec hry _).mpr rfl)

/-- C71 for routines that compute the Jacobian matrix of this residual at this geometry. -/
theorem local_best_of (num : Numerics Flt) (hnum : ∀ {m n : Nat} (M : Matrix (Fin m) (Fin n) ℝ) (b : Fin m → ℝ),
      ∃ d, IsLstsq M b d ∧ num.lstsq n (mat M) (vec b) = .ok (vec d)) (id : Nat)
    (ops : List (LayoutOp Flt)) (l : Layout Flt) (hl : l = (Layout.empty id).run ops)
    (hops : ∀ op ∈ ops, op.Uses (Shipped.SmoothAt l.prim)) (hok : PrimOK l.prim) (hfin : l.prim.Finite)
    (hbest : l.LocallyBest) (base : Nat)
    (hjac : ∀ {m : Nat} (x : Fin (dim l) → ℝ) (M : Matrix (Fin m) (Fin (dim l)) ℝ), globalParam l = .ok (vec x) →
      IsJacobian (globalRes l base) x M → num.jacobian (globalRes l base) (vec x) = .ok (mat M))
    (absTol relTol : Flt) (maxIter : Int) :
    ∃ r info, solveNewton num l base absTol relTol maxIter = .ok (r, info) ∧
      SameGeometry l.prim r := by
  obtain ⟨x, hx⟩ := finite_param hok hfin
  obtain ⟨m, M, F, hF, hD, hlm⟩ := best_localMin hl hops hok hfin hbest base hx
  obtain ⟨r, e1, e2⟩ := rebuild_self l hok base hx
  obtain ⟨st, h1, h2⟩ := stationary_loop hnum hF.self_of_nhds (hjac x M hx ⟨F, hF, hD⟩) (stationary_of_min hD hlm) absTol relTol maxIter
    (maxIter.toNat + 1) { param := vec x } rfl (by simp)
  exact ⟨r, _, solveNewton_eq hx h1 (by rw [h2, e1]), e2⟩

/-- C71: with exact numerics, for all tolerances and numbers of iterations, the Newton method leaves a
layout of shipped constraints alone (at a geometry where each of them is differentiable) if no nearby
geometry of the same structure has a smaller sum of squared residuals, whether or not the constraints
are satisfied. -/
theorem C71_local_best (num : Numerics Flt) (hnum : Exact num) (id : Nat)
    (ops : List (LayoutOp Flt)) (l : Layout Flt) (hl : l = (Layout.empty id).run ops)
    (hops : ∀ op ∈ ops, op.Uses (Shipped.SmoothAt l.prim)) (hok : PrimOK l.prim) (hfin : l.prim.Finite)
    (hbest : l.LocallyBest) (base : Nat) (absTol relTol : Flt) (maxIter : Int) :
    ∃ r info, solveNewton num l base absTol relTol maxIter = .ok (r, info) ∧
      SameGeometry l.prim r :=
  local_best_of num hnum.lstsq id ops l hl hops hok hfin hbest base
    (fun x M _ hM => hnum.jacobian _ x M hM) absTol relTol maxIter

/-! ## Examples -/

/-- Two lines from one point; the first one has length 1, they are orthogonal and the angle between
them is a quarter turn. -/
noncomputable def hingeOps : List (LayoutOp Flt) :=
  [.addPrim (sLn 4 (sPt 1 0 0) (sPt 2 1 0)) k!"U",
   .addPrim (sLn 5 (sPt 1 0 0) (sPt 3 0 1)) k!"V",
   .addConstraint ((Shipped.length.build).toOption.getD ct.coincident) [k!"U"] [.num (fin 1)] k!"a",
   .addConstraint ct.orthogonal [k!"U", k!"V"] [] k!"b",
   .addConstraint ((Shipped.angle.build).toOption.getD ct.coincident) [k!"U", k!"V"]
    [.num (fin (Real.pi / 2))] k!"c"]

/-- The layout of `hingeOps`. -/
noncomputable def hingeL : Layout Flt := (Layout.empty 0).run hingeOps

theorem hingeL_prim : hingeL.prim = forkTree 0 4 5 1 2 3 0 0 1 0 0 1 := by rfl

theorem hingeL_residual (r u v p q s : Nat) (a b c d e f : ℝ) :
    hingeL.residual (forkTree r u v p q s a b c d e f)
      = .ok [PyNum.sqrt (fin (0 + (c - a) * (c - a) + (d - b) * (d - b))) + fin (-1 * 1),
          fin (0 + (c - a) * (e - a) + (d - b) * (f - b)),
          (PyNum.atan2 (fin (f - b) / PyNum.sqrt (fin (0 + (e - a) * (e - a) + (f - b) * (f - b))))
              (fin (e - a) / PyNum.sqrt (fin (0 + (e - a) * (e - a) + (f - b) * (f - b)))) -
            PyNum.atan2 (fin (d - b) / PyNum.sqrt (fin (0 + (c - a) * (c - a) + (d - b) * (d - b))))
              (fin (c - a) / PyNum.sqrt (fin (0 + (c - a) * (c - a) + (d - b) * (d - b))))) +
            fin (-1 * (Real.pi / 2))] := by
  rfl

/-- The lines of the fork. -/
theorem forkTree_lines {r u v p q s : Nat} {a b c d e f : ℝ} {Q : List Flt → Prop} (hnil : Q [])
    (h1 : Q [fin (c - a), fin (d - b)]) (h2 : Q [fin (e - a), fin (f - b)]) {k : Str} {t : Prim Flt}
    (ht : (forkTree r u v p q s a b c d e f).getChild k = .ok t) {path : List Str} {n x y : Prim Flt}
    (hn : t.At path n) (hv : n.values = [x, y]) {w : List Flt}
    (e : Arr.sub (.vec y.value.arr) (.vec x.value.arr) = .ok (.vec w)) : Q w := by
  rw [Node.getChild_ok_iff] at ht
  have hn' := (Node.At_of_find ht).trans hn
  rcases forkTree_at hn' with ⟨e1, rfl⟩ | ⟨e1, rfl⟩ | ⟨e1, rfl⟩ | ⟨e1, rfl⟩ | ⟨e1, rfl⟩ | ⟨e1, rfl⟩ | ⟨e1, rfl⟩
  · cases hv; cases e; exact hnil
  · cases hv; cases e; exact h1
  · cases hv
  · cases hv
  · cases hv; cases e; exact h2
  · cases hv
  · cases hv

theorem hingeOps_smooth : ∀ op ∈ hingeOps, op.Uses (Shipped.SmoothAt hingeL.prim) := by
  have hw : ∀ (i j k : Nat) (a b c d : ℝ), (sLn i (sPt j a b) (sPt k c d)).WF := fun i j k a b c d =>
    ((Node.goodB_iff _).mp (show Node.goodB (sLn i (sPt j a b) (sPt k c d)) = true from rfl)).1
  have hs : ∀ s, Shipped.SmoothAt hingeL.prim s := by
    intro s
    rw [hingeL_prim]
    refine ⟨fun _ k t ht path n x y hn hv w e => ?_, fun _ k t ht path n x y hn hv w rest e => ?_⟩
    · refine forkTree_lines (Q := fun w => w = [] ∨ ∃ x ∈ w, x ≠ fin 0) (.inl rfl) ?_ ?_ ht hn hv e
      · exact .inr ⟨fin (1 - 0), by simp, by simp⟩
      · exact .inr ⟨fin (1 - 0), by simp, by simp⟩
    · refine forkTree_lines (Q := fun v => ∀ x rest, v = fin x :: fin 0 :: rest → 0 < x) (by simp) ?_ ?_
        ht hn hv e w rest rfl
      · intro x rest h
        simp only [List.cons.injEq, fin_inj] at h
        linarith
      · intro x rest h
        simp only [List.cons.injEq, fin_inj] at h
        linarith
  intro op h
  simp only [hingeOps, List.mem_cons, List.not_mem_nil, or_false] at h
  rcases h with rfl | rfl | rfl | rfl | rfl
  · exact hw _ _ _ _ _ _ _
  · exact hw _ _ _ _ _ _ _
  · exact ⟨.length, rfl, trivial, hs _⟩
  · exact ⟨.orthogonal, rfl, trivial, hs _⟩
  · exact ⟨.angle, rfl, trivial, hs _⟩

/-- C56 holds of a layout with a length, an angle and an orthogonality constraint. -/
example (a b : Flt) (n : Int) : ∃ r info, solveNewton exactNum hingeL 10 a b n = .ok (r, info) ∧
    SameGeometry hingeL.prim r := by
  refine C56_shipped_partial exactNum exactNum_exact 0 hingeOps hingeL rfl hingeOps_smooth
    (by rw [hingeL_prim]; exact forkTree_ok (by decide) _ _ _ _ _ _)
    (by rw [hingeL_prim]; exact forkTree_finite _ _ _ _ _ _ _ _ _ _ _ _) _
    (by rw [hingeL_prim]; exact hingeL_residual _ _ _ _ _ _ _ _ _ _ _ _) ?_ 10 a b n
  have h1 : PyNum.sqrt (fin (0 + (1 - 0) * (1 - 0) + (0 - 0) * (0 - 0))) = fin 1 := by
    rw [fin_sqrt (by norm_num)]; norm_num
  have h2 : PyNum.sqrt (fin (0 + (0 - 0) * (0 - 0) + (1 - 0) * (1 - 0))) = fin 1 := by
    rw [fin_sqrt (by norm_num)]; norm_num
  rw [h1, h2]
  intro x hx
  simp only [List.mem_cons, List.not_mem_nil, or_false] at hx
  rcases hx with rfl | rfl | rfl
  · rw [fin_add]; norm_num
  · norm_num
  · simp only [fin_div one_ne_zero, fin_atan2, fin_sub, fin_add, fin_inj]
    have e1 : Complex.arg ⟨(0 - 0) / 1, (1 - 0) / 1⟩ = Real.pi / 2 := by
      rw [show (⟨(0 - 0) / 1, (1 - 0) / 1⟩ : ℂ) = Complex.I by apply Complex.ext <;> simp]
      exact Complex.arg_I
    have e2 : Complex.arg ⟨(1 - 0) / 1, (0 - 0) / 1⟩ = 0 := by
      rw [show (⟨(1 - 0) / 1, (0 - 0) / 1⟩ : ℂ) = 1 by apply Complex.ext <;> simp]
      exact Complex.arg_one
    rw [e1, e2]
    ring

/-- A line of length 2 that should have the lengths 1 and 3. -/
noncomputable def stretchOps : List (LayoutOp Flt) :=
  [.addPrim (sLn 4 (sPt 1 0 0) (sPt 2 2 0)) k!"U",
   .addPrim (sLn 5 (sPt 1 0 0) (sPt 3 0 1)) k!"V",
   .addConstraint ((Shipped.length.build).toOption.getD ct.coincident) [k!"U"] [.num (fin 1)] k!"a",
   .addConstraint ((Shipped.length.build).toOption.getD ct.coincident) [k!"U"] [.num (fin 3)] k!"b"]

/-- The layout of `stretchOps`. -/
noncomputable def stretchL : Layout Flt := (Layout.empty 0).run stretchOps

theorem stretchL_prim : stretchL.prim = forkTree 0 4 5 1 2 3 0 0 2 0 0 1 := by rfl

theorem stretchOps_uses : ∀ op ∈ stretchOps, op.Uses (Shipped.SmoothAt stretchL.prim) := by
  have hw : ∀ (i j k : Nat) (a b c d : ℝ), (sLn i (sPt j a b) (sPt k c d)).WF := fun i j k a b c d =>
    ((Node.goodB_iff _).mp (show Node.goodB (sLn i (sPt j a b) (sPt k c d)) = true from rfl)).1
  have hs : Shipped.SmoothAt stretchL.prim .length := by
    rw [stretchL_prim]
    refine ⟨fun _ k t ht path n x y hn hv w e => ?_, fun h => by cases h⟩
    refine forkTree_lines (Q := fun w => w = [] ∨ ∃ x ∈ w, x ≠ fin 0) (.inl rfl) ?_ ?_ ht hn hv e
    · exact .inr ⟨fin (2 - 0), by simp, by simp⟩
    · exact .inr ⟨fin (1 - 0), by simp, by simp⟩
  intro op h
  simp only [stretchOps, List.mem_cons, List.not_mem_nil, or_false] at h
  rcases h with rfl | rfl | rfl | rfl
  · exact hw _ _ _ _ _ _ _
  · exact hw _ _ _ _ _ _ _
  · exact ⟨.length, rfl, trivial, hs⟩
  · exact ⟨.length, rfl, trivial, hs⟩

theorem stretchL_residual (r u v p q s : Nat) (a b c d e f : ℝ) :
    stretchL.residual (forkTree r u v p q s a b c d e f)
      = .ok [PyNum.sqrt (fin (0 + (c - a) * (c - a) + (d - b) * (d - b))) + fin (-1 * 1),
          PyNum.sqrt (fin (0 + (c - a) * (c - a) + (d - b) * (d - b))) + fin (-1 * 3)] := by
  rfl

theorem stretchL_misfit (r u v p q s : Nat) (a b c d e f : ℝ) :
    stretchL.Misfit (forkTree r u v p q s a b c d e f)
      ((Real.sqrt ((c - a) ^ 2 + (d - b) ^ 2) - 1) ^ 2 + (Real.sqrt ((c - a) ^ 2 + (d - b) ^ 2) - 3) ^ 2) := by
  refine ⟨[Real.sqrt ((c - a) ^ 2 + (d - b) ^ 2) - 1, Real.sqrt ((c - a) ^ 2 + (d - b) ^ 2) - 3], ?_, by simp⟩
  rw [stretchL_residual, show 0 + (c - a) * (c - a) + (d - b) * (d - b) = (c - a) ^ 2 + (d - b) ^ 2 by ring,
    fin_sqrt (by positivity), fin_add, fin_add]
  simp only [List.map_cons, List.map_nil]
  ring_nf

theorem stretchL_rebuild (base : Nat) (y : Fin 6 → ℝ) :
    rebuild stretchL base (vec y) = .ok (forkTree (base + 0) (base + 1) (base + 4) (base + 2) (base + 3)
      (base + 5) (y 0) (y 1) (y 2) (y 3) (y 4) (y 5)) := by
  rfl

theorem stretchL_best : stretchL.LocallyBest := by
  have hok : PrimOK stretchL.prim := by rw [stretchL_prim]; exact forkTree_ok (by decide) _ _ _ _ _ _
  obtain ⟨ps, hps⟩ := C70_representable stretchL hok
  refine ⟨2, ps, 1, ?_, hps, one_pos, fun r' t s' h1 h2 h3 _ _ h6 => ?_⟩
  · have := stretchL_misfit 0 4 5 1 2 3 0 0 2 0 0 1
    rw [stretchL_prim]
    rw [show ((2 : ℝ) - 0) ^ 2 + (0 - 0) ^ 2 = 2 ^ 2 by norm_num, Real.sqrt_sq (by norm_num)] at this
    norm_num at this
    exact this
  · obtain ⟨y, r, e1, e2, e3⟩ : ∃ (y : Fin 6 → ℝ) (r : Prim Flt), rebuild stretchL 10 (vec y) = .ok r ∧
        r.WF ∧ SameGeometry r r' := exists_param stretchL hok 10 h1 h2 h3
    have e4 := stretchL_rebuild 10 y
    obtain rfl := Except.ok.inj (e1.symm.trans e4)
    have hm := stretchL_misfit (10 + 0) (10 + 1) (10 + 4) (10 + 2) (10 + 3) (10 + 5) (y 0) (y 1) (y 2) (y 3)
      (y 4) (y 5)
    obtain ⟨v, i1, i2⟩ := hm
    obtain ⟨w, j1, j2⟩ := h6
    have hr := residual_geometry (l := stretchL) (run_nip stretchOps_uses 0) e2 h1.wf e3
    rw [← hr, i1] at j1
    rw [← map_fin_inj (Except.ok.inj j1), ← i2] at j2
    rw [j2]
    nlinarith [sq_nonneg (Real.sqrt ((y 2 - y 0) ^ 2 + (y 3 - y 1) ^ 2) - 2)]

/-- C71 holds of a layout with lengths that no line has. -/
example (a b : Flt) (n : Int) : ∃ r info, solveNewton exactNum stretchL 10 a b n = .ok (r, info) ∧
    SameGeometry stretchL.prim r :=
  C71_local_best exactNum exactNum_exact 0 stretchOps stretchL rfl stretchOps_uses
    (by rw [stretchL_prim]; exact forkTree_ok (by decide) _ _ _ _ _ _)
    (by rw [stretchL_prim]; exact forkTree_finite _ _ _ _ _ _ _ _ _ _ _ _) stretchL_best 10 a b n

end MplLayout.Props
