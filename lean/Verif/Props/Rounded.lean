import Verif.Lemmas.Rounded
import Verif.Props.Canonical

/-!
# C89: rounding errors of the linear algebra
-/

namespace MplLayout.Props

open Solver Flt

theorem distance_moved {ps : List (List Str)} {a b : Prim Flt} {n : Nat} {x : Fin n → ℝ} {t : ℝ}
    (h : Moved ps a b t) (e : t = sq x) : Distance ps a b (len x) := by
  refine ⟨len_nonneg _, ?_⟩
  rw [len_sq, ← e]; exact h

/-- C89: the layout is made by calls that add shipped affine constraints.  Solve it once with exact
numerics, which gives `r0`, and once with numerics that deliver every Newton step with a relative error
of at most `ε < 1` and an absolute error of at most `δ` (at least one iteration each).  The second
solution succeeds too.  Let `D` be how far exact numerics moves the layout and `N` the number of
iterations with errors.  Then the result `r` differs
from a geometry with the smallest possible sum of squared residuals by at most `ε ^ N D + δ / (1 - ε)`
(so errors do not accumulate), and from `r0` by at most `(ε D + N δ) / (1 - ε)`, or also by at most
`ε ^ N D + δ / (1 - ε)` if there is only one best geometry. -/
theorem C89_rounding (num0 : Numerics Flt) (hnum0 : Exact num0) (ε δ : ℝ) (hε : 0 ≤ ε) (hε1 : ε < 1)
    (hδ : 0 ≤ δ) (num : Numerics Flt) (hnum : Rounded ε δ num) (id : Nat)
    (ops : List (LayoutOp Flt)) (hops : ∀ op ∈ ops, op.Uses Shipped.IsAffine) (l : Layout Flt)
    (hl : l = (Layout.empty id).run ops) (hok : PrimOK l.prim) (hfin : l.prim.Finite)
    (s0 : ℝ) (h0 : l.Misfit l.prim s0) (base base0 : Nat) (a b a0 b0 : ℝ) (maxIter maxIter0 : Int)
    (hmax : 1 ≤ maxIter) (hmax0 : 1 ≤ maxIter0) :
    ∃ r0 info0 r info, solveNewton num0 l base0 (fin a0) (fin b0) maxIter0 = .ok (r0, info0) ∧
      solveNewton num l base (fin a) (fin b) maxIter = .ok (r, info) ∧
      PrimOK r ∧ SameStructure l.prim r ∧ r.Finite ∧ l.BestFit r0 ∧ 1 ≤ info.absErrs.length ∧
      ∀ ps, Represents l.prim ps → ∃ D e, Distance ps l.prim r0 D ∧ Distance ps r r0 e ∧
        e ≤ (ε * D + info.absErrs.length * δ) / (1 - ε) ∧
        (∃ p d, l.BestFit p ∧ Distance ps r p d ∧ d ≤ ε ^ info.absErrs.length * D + δ / (1 - ε)) ∧
        ((∀ p, l.BestFit p → SameGeometry r0 p) → e ≤ ε ^ info.absErrs.length * D + δ / (1 - ε)) := by
  have hcons := congrArg Layout.cons hl
  obtain ⟨x, hx⟩ := finite_param hok hfin
  obtain ⟨v0, hv0, hs0⟩ := h0
  have aff : ∀ base, ∃ m M c, (∀ x : Fin (dim l) → ℝ,
      globalRes l base (vec x) = .ok (vec (Matrix.mulVec (m := Fin m) M x + c))) := by
    intro base
    obtain ⟨m, M, c, _, h1, _⟩ := affine_residual_finite hops id base hcons hok hok
      (SameStructure.refl hok.wf) hfin hv0 (by
        intro a ha
        obtain ⟨x, _, rfl⟩ := List.mem_map.mp ha
        exact ⟨x, rfl⟩)
    exact ⟨m, M, c, h1⟩
  obtain ⟨m, M, c, h1⟩ := aff base
  obtain ⟨r0, info0, hr0, hbest⟩ := newton_best hnum0 hops hcons hok hfin
    ⟨hok, SameStructure.refl hok.wf, hfin⟩ ⟨v0, hv0, hs0⟩ base0 a0 b0 maxIter0 hmax0
  have hnip := by
    have := run_nip hops id
    rw [← hcons] at this
    exact this
  have geo : ∀ {r' : Prim Flt}, GoodGeo l r' → ∃ y r1, rebuild l base (vec y) = .ok r1 ∧ SameGeometry r1 r' ∧
      l.residual r' = .ok (vec (M.mulVec y + c)) := by
    intro r' hr'
    obtain ⟨y, r1, k1, k2, k3⟩ := exists_param l hok base hr'.ok hr'.str hr'.fin
    refine ⟨y, r1, k1, k3, ?_⟩
    rw [← residual_geometry hnip k2 hr'.ok.wf k3]
    have := h1 y
    simpa only [globalRes, k1, bind, Except.bind] using this
  have tree : ∀ y, ∃ r1, rebuild l base (vec y) = .ok r1 ∧ GoodGeo l r1 ∧
      l.residual r1 = .ok (vec (M.mulVec y + c)) := by
    intro y
    obtain ⟨r1, f1, hrw, _⟩ := rebuild_at l hok base (vec y) (vec_length _)
    refine ⟨r1, f1, ⟨rebuild_primOK l hok base _ (vec_length _) f1,
      (by
        obtain ⟨r2, f2, q⟩ := rebuild_structure l hok base (vec y) (vec_length _)
        rw [f1] at f2; cases f2; exact q), rebuild_finite l hok base y f1⟩, ?_⟩
    have := h1 y
    simpa only [globalRes, f1, bind, Except.bind] using this
  have least_iff : ∀ {r' : Prim Flt} {y}, l.residual r' = .ok (vec (M.mulVec y + c)) →
      (Least l r' ↔ Opt M c y) := by
    intro r' y hr
    constructor
    · rintro ⟨s, k1, k2⟩ z
      obtain ⟨r2, _, g2, e2⟩ := tree z
      obtain ⟨s', k3, k4⟩ := k2 r2 g2
      rw [(misfit_vec hr _).mp k1, (misfit_vec e2 _).mp k3] at k4
      exact k4
    · intro ho
      refine ⟨_, (misfit_vec hr _).mpr rfl, fun r2 g2 => ?_⟩
      obtain ⟨z, _, _, _, e2⟩ := geo g2
      exact ⟨_, (misfit_vec e2 _).mpr rfl, ho z⟩
  have fit : ∀ {r'}, GoodGeo l r' → Least l r' → l.BestFit r' := by
    rintro r' hg ⟨s, k1, k2⟩
    exact ⟨hg.ok, hg.str, hg.fin, s, k1, fun r2 q1 q2 q3 => k2 r2 ⟨q1, q2, q3⟩⟩
  obtain ⟨p0, g1, g2⟩ := rebuild_self l hok base hx
  have g3 : SameGeometry p0 l.prim := SameGeometry.symm g2
  obtain ⟨ps0, hps0⟩ := represents_exists hok
  obtain ⟨hg0, hl0, hn0⟩ := hbest
  obtain ⟨y0, r0', k1, k2, k3⟩ := geo hg0
  have hq : Proj M c x y0 := by
    refine ⟨(least_iff k3).mp hl0, fun p hp => ?_⟩
    obtain ⟨r2, f2, q2, e2⟩ := tree p
    obtain ⟨t, t', m1, m2, m3, _⟩ := hn0 r2 q2 ((least_iff e2).mpr hp) ps0 hps0
    rw [moved_eq l hok base hps0 g1 g3 k1 k2 m1,
      moved_eq l hok base hps0 g1 g3 f2 (SameGeometry.refl q2.ok.wf) m2] at m3
    exact m3
  obtain ⟨s, x', e1, e2, hnear⟩ := rounded_newton hε hε1 hδ hnum h1 a b maxIter hmax hq
  obtain ⟨r, f1, hgr, _⟩ := tree x'
  have hsol := solveNewton_eq hx e1 (by rw [e2, f1])
  refine ⟨r0, info0, r, _, hr0, hsol, hgr.ok, hgr.str, hgr.fin, fit hg0 hl0, hnear.pos, fun ps hps => ?_⟩
  have dist : ∀ {u v : Fin (dim l) → ℝ} {ru ru' rv rv' : Prim Flt}, rebuild l base (vec u) = .ok ru →
      SameGeometry ru ru' → rebuild l base (vec v) = .ok rv → SameGeometry rv rv' →
      SameStructure l.prim ru' → ru'.Finite → SameStructure l.prim rv' → rv'.Finite →
      Distance ps ru' rv' (len (v - u)) := by
    intro u v ru ru' rv rv' a1 a2 a3 a4 a5 a6 a7 a8
    obtain ⟨t, ht⟩ := moved_exists hps a5 a6 a7 a8
    exact distance_moved ht (moved_eq l hok base hps a1 a2 a3 a4 ht)
  have hself := SameStructure.refl hok.wf
  have hgeo := SameGeometry.refl hgr.ok.wf
  refine ⟨len (y0 - x), len (y0 - x'), dist g1 g3 k1 k2 hself hfin hg0.str hg0.fin,
    dist f1 hgeo k1 k2 hgr.str hgr.fin hg0.str hg0.fin, ?_, ?_, ?_⟩
  · rw [len_comm]
    exact hnear.drift.trans (drift_le hε hε1 (len_nonneg _) _)
  · obtain ⟨p, hp, hb⟩ := hnear.best
    obtain ⟨r2, f2, q2, e3⟩ := tree p
    refine ⟨r2, _, fit q2 ((least_iff e3).mpr hp), dist f1 hgeo f2 (SameGeometry.refl q2.ok.wf) hgr.str
      hgr.fin q2.str q2.fin, ?_⟩
    rw [len_comm]; exact hb
  · intro huniq
    obtain ⟨p, hp, hb⟩ := hnear.best
    obtain ⟨r2, f2, q2, e3⟩ := tree p
    have hsame := huniq r2 (fit q2 ((least_iff e3).mpr hp))
    obtain ⟨t, ht⟩ := moved_exists hps hgr.str hgr.fin hg0.str hg0.fin
    have h3 := moved_eq l hok base hps f1 hgeo f2 (SameGeometry.symm hsame) ht
    have h4 := moved_eq l hok base hps f1 hgeo k1 k2 ht
    have : len (y0 - x') = len (p - x') := by unfold len; rw [← h4, h3]
    rw [this, len_comm]; exact hb

/-! ## An example -/

/-- Numerics whose Newton steps are too long, or too short, by a part of their length. -/
noncomputable def roughNum (e : ℝ) : Numerics Flt :=
  { exactNum with lstsq := fun n A b => (exactNum.lstsq n A b).map (List.map (fin (1 + e) * ·)) }

theorem roughNum_rounded (e : ℝ) : Rounded |e| 0 (roughNum e) where
  step res x M r hJ hr := by
    obtain ⟨d, h1, h2⟩ := exactNum_exact.lstsq M (-r)
    refine ⟨mat M, d, (1 + e) • d, exactNum_exact.jacobian res x M hJ, ?_, h1, ?_⟩
    · simp only [roughNum, h2, Except.map]
      congr 1
      simp [vec, List.map_ofFn, Function.comp_def]
    · rw [show (1 + e) • d - d = e • d by rw [add_smul, one_smul, add_sub_cancel_left], add_zero, len_eq, len_eq,
        WithLp.toLp_smul, norm_smul, Real.norm_eq_abs]

/-- Such numerics are not exact. -/
theorem roughNum_not_exact : ¬ Exact (roughNum (1 / 2)) := by
  intro h
  obtain ⟨d, h1, h2⟩ := h.lstsq (m := 1) (n := 1) 1 (fun _ => 1)
  obtain ⟨d', h3, h4⟩ := exactNum_exact.lstsq (m := 1) (n := 1) 1 (fun _ => 1)
  have one : ∀ {d : Fin 1 → ℝ}, IsLstsq (1 : Matrix (Fin 1) (Fin 1) ℝ) (fun _ => 1) d → d 0 = 1 := by
    intro d hd
    have := hd.least (fun _ => 1)
    simp [sq] at this
    nlinarith
  simp only [roughNum, h4, Except.map] at h2
  have := Except.ok.inj h2
  simp only [vec, List.ofFn_succ, List.ofFn_zero, List.map_cons, List.map_nil, List.cons.injEq,
    and_true, fin_mul] at this
  have := Flt.fin.inj this
  rw [one h1, one h3] at this
  norm_num at this

/-- The layout of two widths that cannot both hold, solved with the rough numerics. -/
example : ∃ r0 info0 r info, solveNewton exactNum clashL 10 (fin 0) (fin 0) 1 = .ok (r0, info0) ∧
    solveNewton (roughNum (1 / 2)) clashL 10 (fin 0) (fin 0) 20 = .ok (r, info) ∧
    ∀ ps, Represents clashL.prim ps → ∃ D e, Distance ps clashL.prim r0 D ∧ Distance ps r r0 e ∧
      e ≤ (1 / 2 * D + info.absErrs.length * 0) / (1 - 1 / 2) := by
  have hr := roughNum_rounded (1 / 2)
  rw [abs_of_pos (by norm_num : (0 : ℝ) < 1 / 2)] at hr
  obtain ⟨r0, info0, r, info, h1, h2, _, _, _, _, _, h3⟩ := C89_rounding exactNum exactNum_exact (1 / 2) 0
    (by norm_num) (by norm_num) le_rfl (roughNum (1 / 2)) hr 0 clashOps
    clashOps_affine clashL rfl (by rw [clashL_prim]; exact forkTree_ok (by decide) ..) (by rw [clashL_prim]; apply forkTree_finite)
    _ (by rw [clashL_prim]; exact clashL_misfit ..) 10 10 0 0 0 0 20 1 (by norm_num) (by norm_num)
  refine ⟨r0, info0, r, info, h1, h2, fun ps hps => ?_⟩
  obtain ⟨D, e, q1, q2, q3, _⟩ := h3 ps hps
  exact ⟨D, e, q1, q2, q3⟩

end MplLayout.Props
