import Verif.Lemmas.LeastSquares
import Verif.Props.Solver
import Verif.Props.EndToEnd

/-!
# C70: layouts of affine constraints that cannot all be satisfied
-/

namespace MplLayout.Props

open Solver Flt

/-- C70, for any geometry that shows that the residuals are finite. -/
theorem least_squares_of (num : Numerics Flt) (hnum : Exact num) (id : Nat)
    (ops : List (LayoutOp Flt)) (hops : ∀ op ∈ ops, op.Uses Shipped.IsAffine) (l : Layout Flt)
    (hcons : l.cons = ((Layout.empty id).run ops).cons) (hok : PrimOK l.prim) (hfin : l.prim.Finite)
    (r0 : Prim Flt) (hok0 : PrimOK r0)
    (hs0 : SameStructure l.prim r0) (hf0 : r0.Finite) (s0 : ℝ) (h0 : l.Misfit r0 s0) (base : Nat) (a b : ℝ) (maxIter : Int) (hmax : 1 ≤ maxIter) :
    ∃ r info s, solveNewton num l base (fin a) (fin b) maxIter = .ok (r, info) ∧
      SameStructure l.prim r ∧ r.Finite ∧ l.Misfit r s ∧
      ∀ r', PrimOK r' → SameStructure l.prim r' → r'.Finite →
        ∃ s', l.Misfit r' s' ∧ s ≤ s' ∧ (s' = s → ∀ ps, Represents l.prim ps →
          ∃ t t', Moved ps l.prim r t ∧ Moved ps l.prim r' t' ∧ t ≤ t' ∧
            (t' = t → SameGeometry r r')) := by
  obtain ⟨x, hx⟩ := finite_param hok hfin
  obtain ⟨v0, hv0, _⟩ := h0
  obtain ⟨m, M, c, _, h1, _⟩ := affine_residual_finite hops id base hcons hok hok0
    hs0 hf0 hv0 (by
      intro a ha
      obtain ⟨x, _, rfl⟩ := List.mem_map.mp ha
      exact ⟨x, rfl⟩)
  obtain ⟨s, d, e1, e2, e3, e4⟩ := least_newton hnum h1 a b maxIter hmax x
  obtain ⟨r, f1, hrw, _⟩ := rebuild_at l hok base (vec (x + d)) (vec_length _)
  obtain ⟨p0, g1, g2⟩ := rebuild_self l hok base hx
  have hsol := solveNewton_eq hx e1 (by rw [e2, f1])
  have hstr := C58_newton num l hok base _ _ _ r _ hsol
  have hrf := rebuild_finite l hok base (x + d) f1
  have hres : l.residual r = .ok (vec (M.mulVec (x + d) + c)) := by
    have := h1 (x + d)
    simpa only [globalRes, f1, bind, Except.bind] using this
  refine ⟨r, _, _, hsol, hstr, hrf, (misfit_vec hres _).mpr rfl, fun r' hr' hs' hf' => ?_⟩
  obtain ⟨y, r1, k1, k2, k3⟩ := exists_param l hok base hr' hs' hf'
  have hres' : l.residual r' = .ok (vec (M.mulVec y + c)) := by
    rw [← residual_geometry (by rw [hcons]; exact run_nip hops id) k2 hr'.wf k3]
    have := h1 y
    simpa only [globalRes, k1, bind, Except.bind] using this
  refine ⟨_, (misfit_vec hres' _).mpr rfl, e3 y, fun heq ps hps => ?_⟩
  obtain ⟨t, ht⟩ := moved_exists hps (SameStructure.refl hok.wf) hfin hstr hrf
  obtain ⟨t', ht'⟩ := moved_exists hps (SameStructure.refl hok.wf) hfin hs' hf'
  have g3 : SameGeometry p0 l.prim := SameGeometry.symm g2
  have q1 := moved_eq l hok base hps g1 g3 f1 (SameGeometry.refl hrw) ht
  have q2 := moved_eq l hok base hps g1 g3 k1 k3 ht'
  rw [add_sub_cancel_left] at q1
  refine ⟨t, t', ht, ht', ?_, fun htt => ?_⟩
  · rw [q1, q2]; exact e4 y heq
  · have := nearest_unique e3 e4 heq (by rw [← q2, htt, q1])
    rw [this, f1] at k1
    cases k1
    exact k3

/-- C70: with exact numerics, the Newton method with at least one iteration solves every layout made
by calls that add shipped affine constraints, whether or not the constraints can be satisfied and
whether or not they determine the geometry (assumed: numbers that are not finite do not occur in the
residual).  No geometry of the same structure has a smaller sum of squared residuals than the result.
Of the geometries that have the same sum none is nearer to the layout's own geometry, and none but
the result is as near. -/
theorem C70_least_squares (num : Numerics Flt) (hnum : Exact num) (id : Nat)
    (ops : List (LayoutOp Flt)) (hops : ∀ op ∈ ops, op.Uses Shipped.IsAffine) (l : Layout Flt)
    (hl : l = (Layout.empty id).run ops) (hok : PrimOK l.prim) (hfin : l.prim.Finite)
    (s0 : ℝ) (h0 : l.Misfit l.prim s0) (base : Nat) (a b : ℝ) (maxIter : Int) (hmax : 1 ≤ maxIter) :
    ∃ r info s, solveNewton num l base (fin a) (fin b) maxIter = .ok (r, info) ∧
      SameStructure l.prim r ∧ r.Finite ∧ l.Misfit r s ∧
      ∀ r', PrimOK r' → SameStructure l.prim r' → r'.Finite →
        ∃ s', l.Misfit r' s' ∧ s ≤ s' ∧ (s' = s → ∀ ps, Represents l.prim ps →
          ∃ t t', Moved ps l.prim r t ∧ Moved ps l.prim r' t' ∧ t ≤ t' ∧
            (t' = t → SameGeometry r r')) :=
  least_squares_of num hnum id ops hops l (congrArg Layout.cons hl) hok hfin l.prim hok (SameStructure.refl hok.wf) hfin s0 h0
    base a b maxIter hmax

/-- C70, the measure of distance exists: for every layout's tree there is a list of paths with one
path for each array. -/
theorem C70_representable (l : Layout Flt) (hok : PrimOK l.prim) : ∃ ps, Represents l.prim ps :=
  represents_exists hok

/-- C70 for programs: the trees and the sharing are those of any program with finite numbers. -/
theorem C70_program (num : Numerics Flt) (hnum : Exact num) (prog : List (Stmt Flt)) (hp : Plain prog)
    (l : Layout Flt) (hl : l = ((Session.start : Session Flt).run prog).layout)
    (s0 : ℝ) (h0 : l.Misfit l.prim s0) (base : Nat) (a b : ℝ) (maxIter : Int) (hmax : 1 ≤ maxIter) :
    ∃ r info s, solve num l base (fin a) (fin b) maxIter k!"newton" = .ok (r, info) ∧
      SameStructure l.prim r ∧ r.Finite ∧ l.Misfit r s ∧
      ∀ r', PrimOK r' → SameStructure l.prim r' → r'.Finite →
        ∃ s', l.Misfit r' s' ∧ s ≤ s' ∧ (s' = s → ∀ ps, Represents l.prim ps →
          ∃ t t', Moved ps l.prim r t ∧ Moved ps l.prim r' t' ∧ t ≤ t' ∧
            (t' = t → SameGeometry r r')) := by
  have hops : l = (Layout.empty 0).run ((Session.start : Session Flt).ops prog) := by
    rw [hl, Session.run_ops]; rfl
  have hok : PrimOK l.prim := by rw [hl]; exact (plain_ok hp).primOK
  have hfin : l.prim.Finite := by rw [hl]; exact plain_finite hp
  rw [(C59_dispatch num l base (fin a) (fin b) maxIter).1]
  refine C70_least_squares num hnum 0 _ ?_ l hops hok hfin s0 h0 base a b maxIter hmax
  exact Session.ops_all (P := fun op => op.Uses Shipped.IsAffine) finite_consts (fun _ _ h => h)
    (fun _ h => h) ProgOK.start (fun st hs => (hp st hs).1)
    (fun st hs => finite_all (hp st hs).2.1) fun c ks ps key h => by
      obtain ⟨_, s, h1, h2, _, h4⟩ := (hp _ h).2.2
      exact ⟨s, h1, h2, h4⟩

/-! ## An example that cannot be satisfied -/

/-- Two lines from one point; the first one should have the widths 1 and 3, the second one 1. -/
noncomputable def clashOps : List (LayoutOp Flt) :=
  forkOps ++ [.addConstraint ((Shipped.xLength.build).toOption.getD ct.coincident) [k!"U"]
    [.num (fin 3)] k!"c"]

theorem clashOps_affine : ∀ op ∈ clashOps, op.Uses Shipped.IsAffine := by
  intro op h
  rcases List.mem_append.mp h with h | h
  · exact forkOps_affine op h
  · rw [List.mem_singleton] at h
    subst h
    exact ⟨.xLength, rfl, trivial, trivial⟩

/-- The layout of `clashOps`. -/
noncomputable def clashL : Layout Flt := (Layout.empty 0).run clashOps

theorem clashL_prim : clashL.prim = forkTree 0 4 5 1 2 3 0 0 3 0 3 0 := by rfl

theorem clashL_residual (r u v p q s : Nat) (a b c d e f : ℝ) :
    clashL.residual (forkTree r u v p q s a b c d e f)
      = .ok [fin (0 + (c - a) * 1 + (d - b) * 0 + -1 * 1), fin (0 + (e - a) * 1 + (f - b) * 0 + -1 * 1),
        fin (0 + (c - a) * 1 + (d - b) * 0 + -1 * 3)] := by
  rfl

theorem clashL_misfit (r u v p q s : Nat) (a b c d e f : ℝ) :
    clashL.Misfit (forkTree r u v p q s a b c d e f)
      ((c - a - 1) ^ 2 + (e - a - 1) ^ 2 + (c - a - 3) ^ 2) :=
  ⟨[c - a - 1, e - a - 1, c - a - 3], by
    rw [clashL_residual]
    simp only [List.map_cons, List.map_nil]
    ring_nf, by simp; ring⟩

/-- The hypotheses of C70 hold of this layout, whose constraints no lines satisfy; its result is as
good as lines of width 2 and 1, with a misfit of at most 2. -/
example : (∀ r u v p q s : Nat, ∀ a b c d e f : ℝ,
      ¬ clashL.Misfit (forkTree r u v p q s a b c d e f) 0) ∧
    ∃ r info s, solveNewton exactNum clashL 10 (fin 0) (fin 0) 1 = .ok (r, info) ∧
      clashL.Misfit r s ∧ s ≤ 2 := by
  constructor
  · rintro r u v p q s a b c d e f ⟨z, h1, h2⟩
    obtain ⟨w, h3, h4⟩ := clashL_misfit r u v p q s a b c d e f
    rw [h1] at h3
    rw [map_fin_inj (Except.ok.inj h3), ← h4] at h2
    nlinarith [sq_nonneg (c - a - 2), sq_nonneg (e - a - 1)]
  · obtain ⟨r, info, s, h1, _, _, h4, h5⟩ := C70_least_squares exactNum exactNum_exact 0 clashOps
      clashOps_affine clashL rfl (by rw [clashL_prim]; exact forkTree_ok (by decide) _ _ _ _ _ _)
      (by rw [clashL_prim]; exact forkTree_finite _ _ _ _ _ _ _ _ _ _ _ _) _
      (by rw [clashL_prim]; exact clashL_misfit _ _ _ _ _ _ _ _ _ _ _ _) 10 0 0 1 (by norm_num)
    obtain ⟨s', k1, k2, _⟩ := h5 (forkTree 10 14 15 11 12 13 0 0 2 0 1 0)
      (forkTree_ok (by decide) _ _ _ _ _ _)
      (by rw [clashL_prim]; exact forkTree_same _ _ _ _ _ _ _ _ _ _ _ _)
      (forkTree_finite _ _ _ _ _ _ _ _ _ _ _ _)
    obtain ⟨v, e1, e2⟩ := clashL_misfit 10 14 15 11 12 13 0 0 2 0 1 0
    obtain ⟨w, e3, e4⟩ := k1
    rw [e3] at e1
    rw [map_fin_inj (Except.ok.inj e1), ← e2] at e4
    norm_num at e4
    exact ⟨r, info, s, h1, h4, by linarith⟩

end MplLayout.Props
