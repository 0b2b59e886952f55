import Verif.Lemmas.DrawScale
import Verif.Props.Canonical
import Verif.Props.Drawing2

/-!
# C85: scaling a layout

A user who multiplies every coordinate of every primitive, and every length among the parameters, by
the same positive number `s` (see `Spec/Scale.lean`) gets the same layout at `s` times the size.
-/

namespace MplLayout

open Flt

namespace Props

open Solver

theorem left_of_forall₂ {α β : Type} {R : α → β → Prop} {xs : List α} {ys : List β} (h : List.Forall₂ R xs ys) :
    ∀ x ∈ xs, ∃ y, R x y := by
  induction h with
  | nil => simp
  | cons h _ ih =>
    intro x hx
    rcases List.mem_cons.mp hx with rfl | hx
    · exact ⟨_, h⟩
    · exact ih x hx

/-- C85, one constraint: any shipped constraint holds for primitives exactly when it holds, with its
lengths multiplied by `s`, for the primitives multiplied by `s`. -/
theorem C85_satisfied {s : ℝ} (hs : 0 < s) (sh : Shipped) (hsz : sh.SizeOK) (prims : List (Prim Flt))
    (params : List (Param Flt)) (hp : sh.ParamsOK params) :
    SatisfiedPy sh.build (prims.map (scalePrim s)) (sh.scaleParams s params) ↔ SatisfiedPy sh.build prims params := by
  cases e : sh.build with
  | error er => simp [SatisfiedPy]
  | ok c =>
    simp only [SatisfiedPy, Except.ok.injEq, exists_eq_left', Satisfied]
    obtain ⟨r, h1, h2, h3⟩ := call_scale hs hsz e hp prims
    rw [h1, h2]
    cases r with
    | error er => simp [Except.map]
    | ok gs =>
      simp only [Except.map, Except.ok.injEq, exists_eq_left', List.mem_map, forall_exists_index, and_imp,
        forall_apply_eq_imp_iff₂]
      exact forall₂_congr fun g hg => pos_zero (h3 gs rfl g hg)

/-- C85, calls: after any such calls the scaled layout has the same constraints on the same primitives,
its primitives are multiplied by `s`, and the next call has the same outcome. -/
theorem C85_calls {s : ℝ} (hs : 0 < s) (id : Nat) (ops ops' : List (LayoutOp Flt))
    (h : List.Forall₂ (LayoutOp.Scaled (fun _ => True) s) ops ops') (l l' : Layout Flt)
    (hl : l = (Layout.empty id).run ops) (hl' : l' = (Layout.empty id).run ops') :
    l'.prim = scalePrim s l.prim ∧ l'.cons = l.cons ∧ l'.keys = l.keys ∧
      ∀ op op', LayoutOp.Scaled (fun _ => True) s op op' → (l'.step op').2 = (l.step op).2 := by
  obtain ⟨P, Z, keys, ctr, hF, e1, e2⟩ := run_scale (suits_all hs fun _ => True) h id
  subst hl hl'
  rw [e1, e2]
  refine ⟨?_, rfl, rfl, fun op op' ho => ?_⟩
  · show P.mapV (scaleF s true) = scalePrim s (P.mapV (scaleF s false))
    rw [mapV_false]; rfl
  · obtain ⟨o, k1, rfl, rfl⟩ := opFam_scale (suits_all hs fun _ => True) ho
    obtain ⟨P', Z', keys', ctr', r, _, k2⟩ := step_fam hF ctr k1
    rw [k2 false, k2 true]

/-- C85, solutions: the geometries that satisfy all constraints of the scaled layout are exactly the
multiplied geometries that satisfy all constraints of the original one, for all shipped constraints. -/
theorem C85_solution {s : ℝ} (hs : 0 < s) (id : Nat) (ops ops' : List (LayoutOp Flt))
    (h : List.Forall₂ (LayoutOp.Scaled (fun _ => True) s) ops ops') (l l' : Layout Flt)
    (hl : l = (Layout.empty id).run ops) (hl' : l' = (Layout.empty id).run ops') :
    (∀ r, l'.Misfit (scalePrim s r) 0 ↔ l.Misfit r 0) ∧
      ∀ r', l'.Misfit r' 0 ↔ ∃ r, r' = scalePrim s r ∧ l.Misfit r 0 := by
  obtain ⟨P, Z, keys, ctr, hF, e1, e2⟩ := run_scale (suits_all hs fun _ => True) h id
  have key : ∀ r, l'.Misfit (scalePrim s r) 0 ↔ l.Misfit r 0 := by
    subst hl hl'
    rw [e1, e2]
    exact misfit_scale_zero hF ctr
  refine ⟨key, fun r' => ⟨fun h' => ⟨scalePrim s⁻¹ r', ?_, ?_⟩, ?_⟩⟩
  · have := scale_back (inv_ne_zero hs.ne') r'
    rwa [inv_inv, eq_comm] at this
  · have := scale_back (inv_ne_zero hs.ne') r'
    rw [inv_inv] at this
    rw [← key, this]
    exact h'
  · rintro ⟨r, rfl, hr⟩
    exact (key r).mpr hr

/-- C85, solved geometry: for affine constraints and exact numerics, the solved geometry of the scaled
layout is the solved geometry multiplied by `s`, whether or not the constraints can be satisfied, and
whether or not they determine the geometry; and the sum of the squared residuals left over is
multiplied by `s ^ 2`. -/
theorem C85_solved {s : ℝ} (hs : 0 < s) (num num' : Numerics Flt) (hnum : Exact num) (hnum' : Exact num') (id : Nat)
    (ops ops' : List (LayoutOp Flt)) (h : List.Forall₂ (LayoutOp.Scaled Shipped.IsAffine s) ops ops')
    (l l' : Layout Flt) (hl : l = (Layout.empty id).run ops) (hl' : l' = (Layout.empty id).run ops')
    (hok : PrimOK l.prim) (hfin : l.prim.Finite) (m0 : ℝ) (h0 : l.Misfit l.prim m0) (base base' : Nat)
    (a b a' b' : ℝ) (maxIter maxIter' : Int) (hmax : 1 ≤ maxIter) (hmax' : 1 ≤ maxIter') :
    ∃ r info r' info' m, solveNewton num l base (fin a) (fin b) maxIter = .ok (r, info) ∧
      solveNewton num' l' base' (fin a') (fin b') maxIter' = .ok (r', info') ∧
      SameGeometry r' (scalePrim s r) ∧ l.Misfit r m ∧ l'.Misfit (scalePrim s r) (s ^ 2 * m) := by
  obtain ⟨P, Z, keys, ctr, hF, e1, e2⟩ := run_scale (suits_affine s) h id
  have hprim : l'.prim = scalePrim s l.prim := by
    rw [hl, hl', e1, e2]
    show P.mapV (scaleF s true) = scalePrim s (P.mapV (scaleF s false))
    rw [mapV_false]; rfl
  have hmis : ∀ r m, l'.Misfit (scalePrim s r) (s ^ 2 * m) ↔ l.Misfit r m := by
    rw [hl, hl', e1, e2]
    exact misfit_scale hs.ne' hF ctr
  have hk : (0 : ℝ) < s ^ 2 := by positivity
  have hback : ∀ r, scalePrim s (scalePrim s⁻¹ r) = r := fun r => by
    have := scale_back (inv_ne_zero hs.ne') r
    rwa [inv_inv] at this
  have hops : ∀ op ∈ ops, op.Uses Shipped.IsAffine := by
    intro op ho
    obtain ⟨op', h'⟩ := left_of_forall₂ h op ho
    cases op with
    | addPrim p k => exact h'.1
    | addPrims ps => exact h'.1
    | addConstraint c ks ps k => obtain ⟨sh, g1, g2, _, g4, _⟩ := h'; exact ⟨sh, g1, g2, g4⟩
  have hok' : PrimOK l'.prim := by rw [hprim]; exact scale_ok hok
  have hfin' : l'.prim.Finite := by rw [hprim]; exact scale_finite hfin
  have hstr : SameStructure l.prim l'.prim := by rw [hprim]; exact scale_same hok.wf
  have g1 : ∀ u r, GoodGeo l r → GoodGeo l' (scalePrim u r) := fun u r h =>
    ⟨scale_ok h.ok, SameStructure.trans' (SameStructure.symm' hstr) (SameStructure.trans' h.str (scale_same h.ok.wf)),
      scale_finite h.fin⟩
  have g2 : ∀ u r, GoodGeo l' r → GoodGeo l (scalePrim u r) := fun u r h =>
    ⟨scale_ok h.ok, SameStructure.trans' hstr (SameStructure.trans' h.str (scale_same h.ok.wf)), scale_finite h.fin⟩
  have mφ : ∀ r, GoodGeo l r → Least l r → Least l' (scalePrim s r) := by
    rintro r hr ⟨m, k1, k2⟩
    refine ⟨s ^ 2 * m, (hmis _ _).mpr k1, fun q hq => ?_⟩
    obtain ⟨m', k3, k4⟩ := k2 (scalePrim s⁻¹ q) (g2 _ _ hq)
    refine ⟨s ^ 2 * m', ?_, mul_le_mul_of_nonneg_left k4 hk.le⟩
    have := (hmis _ _).mpr k3
    rwa [hback] at this
  have mψ : ∀ r, GoodGeo l' r → Least l' r → Least l (scalePrim s⁻¹ r) := by
    rintro r hr ⟨m, k1, k2⟩
    have e0 : ∀ x : ℝ, s ^ 2 * (x / s ^ 2) = x := fun x => by field_simp
    refine ⟨m / s ^ 2, (hmis _ _).mp (by rw [hback, e0]; exact k1), fun q hq => ?_⟩
    obtain ⟨m', k3, k4⟩ := k2 (scalePrim s q) (g1 _ _ hq)
    exact ⟨m' / s ^ 2, (hmis _ _).mp (by rw [e0]; exact k3), div_le_div_of_nonneg_right k4 hk.le⟩
  obtain ⟨ps, hps⟩ := represents_exists hok
  have gp : GoodGeo l l.prim := ⟨hok, SameStructure.refl hok.wf, hfin⟩
  obtain ⟨r, info, k1, hb⟩ := newton_best hnum hops (congrArg Layout.cons hl) hok hfin gp h0 base a b maxIter hmax
  have gp' : GoodGeo l' l'.prim := ⟨hok', SameStructure.refl hok'.wf, hfin'⟩
  have hcons : l'.cons = ((Layout.empty id).run ops).cons := by rw [hl', e2, e1]; rfl
  obtain ⟨r', info', k2, hb'⟩ := newton_best hnum' hops hcons hok' hfin' gp' (by rw [hprim]; exact (hmis _ _).mpr h0)
    base' a' b' maxIter' hmax'
  obtain ⟨m, hm, _⟩ := hb.2.1
  refine ⟨r, info, r', info', m, k1, k2, Best.transfer_scale (φ := scalePrim s) (ψ := scalePrim s⁻¹) hk hok hok'
    (g1 s) (g2 s⁻¹) mφ mψ hps (represents_str hstr hps) (fun r t _ ht => ?_) (fun r t _ ht => ?_) hb hb', hm,
    (hmis _ _).mpr hm⟩
  · rw [hprim]; exact moved_scale ht
  · have := moved_scale (s := s⁻¹) ht
    rw [hprim, scale_back hs.ne', inv_pow, inv_mul_cancel_left₀ hk.ne'] at this
    exact this

/-- C85, drawing: drawing the multiplied geometry makes the same calls in the same order, in particular
it puts axes, labels and ticks at the same places relative to the figure, except that the figure is `s`
times as large; and the same axes are returned. -/
theorem C85_drawing {s : ℝ} (hs : 0 < s) (root : Prim Flt) (figKey : Str) :
    (∀ axs, updateSubplots (scalePrim s root) figKey axs
      = (updateSubplots root figKey axs).map (List.map (growFigure s))) ∧
    ∀ keys, subplots (scalePrim s root) figKey keys
      = (subplots root figKey keys).map fun r => (r.1.map (growFigure s), r.2) :=
  ⟨updateSubplots_scale hs root figKey, subplots_scale hs root figKey⟩

/-! ## The hypotheses are met -/

/-- A line from (0, 0) to (3, 4) has length 5; multiplied by 2 it has length 10. -/
example : SatisfiedPy Shipped.length.build [scalePrim 2 (realLine (0, 0) (3, 4))] [.num (fin 2 * fin 5)] :=
  (C85_satisfied two_pos .length trivial [realLine (0, 0) (3, 4)] [.num (fin 5)] trivial).mpr
    ((C34_length (isLine_realLine (0, 0) (3, 4)) 5).mpr (by
      rw [dist2, Real.sqrt_eq_iff_mul_self_eq (by norm_num) (by norm_num)]; norm_num))

/-- The calls of `clashOps` at twice the size. -/
noncomputable def clashOps2 : List (LayoutOp Flt) :=
  [.addPrim (sLn 4 (sPt 1 0 0) (sPt 2 6 0)) k!"U",
   .addPrim (sLn 5 (sPt 1 0 0) (sPt 3 6 0)) k!"V",
   .addConstraint ((Shipped.xLength.build).toOption.getD ct.coincident) [k!"U"] [.num (fin 2)] k!"a",
   .addConstraint ((Shipped.xLength.build).toOption.getD ct.coincident) [k!"V"] [.num (fin 2)] k!"b",
   .addConstraint ((Shipped.xLength.build).toOption.getD ct.coincident) [k!"U"] [.num (fin 6)] k!"c"]

theorem clashOps2_scaled : List.Forall₂ (LayoutOp.Scaled Shipped.IsAffine 2) clashOps clashOps2 := by
  have hw : ∀ (i j k : Nat) (a b c d : ℝ), (sLn i (sPt j a b) (sPt k c d)).WF := fun i j k a b c d =>
    ((Node.goodB_iff _).mp (show Node.goodB (sLn i (sPt j a b) (sPt k c d)) = true from rfl)).1
  have hp : ∀ (i j k : Nat) (a b c d : ℝ), scalePrim 2 (sLn i (sPt j a b) (sPt k c d))
    = sLn i (sPt j (2 * a) (2 * b)) (sPt k (2 * c) (2 * d)) := fun i j k a b c d => rfl
  have hx : ∀ x : ℝ, Shipped.xLength.scaleParams 2 [.num (fin x)] = [.num (fin (2 * x))] := fun x => rfl
  simp only [clashOps, forkOps, clashOps2, List.cons_append, List.nil_append]
  refine .cons ⟨hw _ _ _ _ _ _ _, ?_⟩ (.cons ⟨hw _ _ _ _ _ _ _, ?_⟩ (.cons ⟨.xLength, rfl, trivial, trivial, trivial, ?_⟩
    (.cons ⟨.xLength, rfl, trivial, trivial, trivial, ?_⟩ (.cons ⟨.xLength, rfl, trivial, trivial, trivial, ?_⟩ .nil)))) <;>
    simp only [hp, hx] <;> norm_num

/-- The clashing lines at twice the size. -/
example : ∃ r info r' info' m,
    solveNewton exactNum clashL 10 (fin 0) (fin 0) 1 = .ok (r, info) ∧
    solveNewton exactNum ((Layout.empty 0).run clashOps2) 20 (fin 1) (fin 0) 5 = .ok (r', info') ∧
    SameGeometry r' (scalePrim 2 r) ∧ clashL.Misfit r m ∧
      ((Layout.empty 0).run clashOps2).Misfit (scalePrim 2 r) (2 ^ 2 * m) :=
  C85_solved two_pos exactNum exactNum exactNum_exact exactNum_exact 0 clashOps clashOps2 clashOps2_scaled clashL _ rfl rfl
    (by rw [clashL_prim]; exact forkTree_ok (by decide) _ _ _ _ _ _)
    (by rw [clashL_prim]; exact forkTree_finite _ _ _ _ _ _ _ _ _ _ _ _) _
    (by rw [clashL_prim]; exact clashL_misfit _ _ _ _ _ _ _ _ _ _ _ _) 10 20 0 0 1 0 1 5 (by norm_num) (by norm_num)

/-- `C85_calls` and `C85_solution` apply to the same calls. -/
example : ((Layout.empty 0).run clashOps2).prim = scalePrim 2 clashL.prim ∧
    ∀ r, ((Layout.empty 0).run clashOps2).Misfit (scalePrim 2 r) 0 ↔ clashL.Misfit r 0 := by
  have h : List.Forall₂ (LayoutOp.Scaled (fun _ => True) 2) clashOps clashOps2 := by
    refine clashOps2_scaled.imp fun op op' h => ?_
    cases op with
    | addPrim p k => exact h
    | addPrims ps => exact h
    | addConstraint c ks ps k => obtain ⟨sh, g1, g2, g3, _, g5⟩ := h; exact ⟨sh, g1, g2, g3, trivial, g5⟩
  exact ⟨(C85_calls two_pos 0 _ _ h clashL _ rfl rfl).1, (C85_solution two_pos 0 _ _ h clashL _ rfl rfl).1⟩

/-- Drawing a figure `[1, 6] × [1, 5]` at three times the size: the figure is 15 × 12, the axes are where they
were. -/
example : ∃ calls, updateSubplots (scalePrim 3 (oneFigure ⟨1, 1, 6, 5⟩ ⟨2, 2, 4, 3⟩ ⟨2, 1, 4, 2⟩ (3, 1))) k!"Figure"
      [(k!"Axes", 0)] = .ok calls ∧
    .setSize (fin 15) (fin 12) ∈ calls ∧
    .setPosition 0 (fin (1/5), fin (1/4), fin (2/5), fin (1/4)) ∈ calls := by
  obtain ⟨calls, h1, h2, h3⟩ := C62_positions
    (root := oneFigure ⟨1, 1, 6, 5⟩ ⟨2, 2, 4, 3⟩ ⟨2, 1, 4, 2⟩ (3, 1)) (figKey := k!"Figure")
    (axs := [(k!"Axes", 0)]) rfl (isRect_realRect _) (by norm_num) (by norm_num)
    (by simp only [List.mem_singleton, forall_eq]; exact ⟨_, _, _, _, oneFigure_shape _ _ _ _⟩) (by simp)
  refine ⟨_, by rw [(C85_drawing (s := 3) (by norm_num) _ _).1, h1]; rfl, List.mem_map.mpr ⟨DrawCall.setSize (fin 5) (fin 4),
    (h2 _ _).mpr ⟨?_, ?_⟩, ?_⟩, List.mem_map.mpr ⟨DrawCall.setPosition 0 (up4 (1/5, 1/4, 2/5, 1/4)),
    (h3 _ _ _ _ _ _ (by simp) (oneFigure_shape _ _ _ _) _).mpr ⟨_, rfl, ?_⟩, rfl⟩⟩
  · congr 1; norm_num
  · congr 1; norm_num
  · simp only [growFigure, fin_mul]; norm_num
  · refine ⟨?_, ?_, ?_, ?_⟩ <;> norm_num

end Props

end MplLayout
