import Verif.Lemmas.Restart
import Verif.Spec.Restart

/-!
# C83: solving from other geometries, and solving again
-/

namespace MplLayout.Props

open Solver Flt

theorem restart_best (num : Numerics Flt) (hnum : Exact num) (id : Nat)
    (ops : List (LayoutOp Flt)) (hops : ∀ op ∈ ops, op.Uses Shipped.IsAffine) (l : Layout Flt)
    (hl : l = (Layout.empty id).run ops) (r0 : Prim Flt) (hr0 : GoodGeo l r0) (s0 : ℝ)
    (h0 : l.Misfit r0 s0) (p : Prim Flt) (hp : GoodGeo l p) (base : Nat) (a b : ℝ) (maxIter : Int)
    (hmax : 1 ≤ maxIter) :
    ∃ r info, solveNewton num (startAt l p) base (fin a) (fin b) maxIter = .ok (r, info) ∧
      Best (startAt l p) r :=
  newton_best (l := startAt l p) hnum hops (id := id) (by rw [← hl]; rfl) hp.ok hp.fin (r0 := r0)
    ⟨hr0.ok, SameStructure.trans' (SameStructure.symm' hp.str) hr0.str, hr0.fin⟩ h0 base a b maxIter hmax

/-- C83, any start: with exact numerics, solving a layout of affine shipped constraints from any finite
geometry `p` of the same structure (the layout's own geometry replaced) succeeds.  No geometry has a
smaller sum of squared residuals than the result; of those with the same sum none is nearer to `p`, and
none but the result as near. -/
theorem C83_anywhere (num : Numerics Flt) (hnum : Exact num) (id : Nat)
    (ops : List (LayoutOp Flt)) (hops : ∀ op ∈ ops, op.Uses Shipped.IsAffine) (l : Layout Flt)
    (hl : l = (Layout.empty id).run ops) (p : Prim Flt) (hp : PrimOK p) (hs : SameStructure l.prim p)
    (hf : p.Finite) (s0 : ℝ) (h0 : l.Misfit p s0) (base : Nat) (a b : ℝ) (maxIter : Int)
    (hmax : 1 ≤ maxIter) :
    ∃ r info s, solveNewton num (startAt l p) base (fin a) (fin b) maxIter = .ok (r, info) ∧
      SameStructure l.prim r ∧ r.Finite ∧ l.Misfit r s ∧
      ∀ r', PrimOK r' → SameStructure l.prim r' → r'.Finite →
        ∃ s', l.Misfit r' s' ∧ s ≤ s' ∧ (s' = s → ∀ ps, Represents l.prim ps →
          ∃ t t', Moved ps p r t ∧ Moved ps p r' t' ∧ t ≤ t' ∧ (t' = t → SameGeometry r r')) := by
  obtain ⟨r, info, s, h1, h2, h3, h4, h5⟩ := least_squares_of num hnum id ops hops (startAt l p)
    (by rw [← hl]; rfl) hp hf p hp (SameStructure.refl hp.wf) hf s0 h0 base a b maxIter hmax
  refine ⟨r, info, s, h1, SameStructure.trans' hs h2, h3, h4, fun r' k1 k2 k3 => ?_⟩
  obtain ⟨s', e1, e2, e3⟩ := h5 r' k1 (SameStructure.trans' (SameStructure.symm' hs) k2) k3
  exact ⟨s', e1, e2, fun e ps hps => e3 e ps (represents_str hs hps)⟩

/-- C83, again: solving, putting the result into the layout and solving again, with the same or other
tolerances and numbers of iterations, gives the same geometry, even if the constraints cannot be
satisfied. -/
theorem C83_again (num : Numerics Flt) (hnum : Exact num) (num' : Numerics Flt) (hnum' : Exact num')
    (id : Nat) (ops : List (LayoutOp Flt)) (hops : ∀ op ∈ ops, op.Uses Shipped.IsAffine) (l : Layout Flt)
    (hl : l = (Layout.empty id).run ops) (hok : PrimOK l.prim) (hfin : l.prim.Finite)
    (s0 : ℝ) (h0 : l.Misfit l.prim s0) (base base' : Nat) (a b a' b' : ℝ) (maxIter maxIter' : Int)
    (hmax : 1 ≤ maxIter) (hmax' : 1 ≤ maxIter') :
    ∃ r info r' info', solveNewton num l base (fin a) (fin b) maxIter = .ok (r, info) ∧
      solveNewton num' (startAt l r) base' (fin a') (fin b') maxIter' = .ok (r', info') ∧
      SameGeometry r r' := by
  have g0 : GoodGeo l l.prim := ⟨hok, SameStructure.refl hok.wf, hfin⟩
  obtain ⟨r, info, e1, hb⟩ := newton_best hnum hops (congrArg Layout.cons hl) hok hfin g0 h0 base a b
    maxIter hmax
  obtain ⟨r', info', e2, hb'⟩ := restart_best num' hnum' id ops hops l hl _ g0 s0 h0 r hb.1 base' a' b'
    maxIter' hmax'
  refine ⟨r, info, r', info', e1, e2, ?_⟩
  obtain ⟨g', m', k'⟩ := hb'
  obtain ⟨ps, hps⟩ := represents_exists hok
  have hstr := hb.1.str
  have gr : GoodGeo (startAt l r) r := ⟨hb.1.ok, SameStructure.refl hb.1.ok.wf, hb.1.fin⟩
  have lr : Least (startAt l r) r := by
    obtain ⟨s, h1, h2⟩ := hb.2.1
    exact ⟨s, h1, fun q hq => h2 q ⟨hq.ok, SameStructure.trans' hstr hq.str, hq.fin⟩⟩
  obtain ⟨t, t', a1, a2, a3, a4⟩ := k' r gr lr ps (represents_str hstr hps)
  obtain ⟨xs, ys, c1, c2, c3⟩ := a2
  have z : t' = 0 := by
    rw [c3, coords_unique hb.1.ok.wf c2 c1]
    have : ∀ xs : List ℝ, (List.zipWith (fun x y => (y - x) ^ 2) xs xs).sum = 0 := by
      intro xs
      induction xs with
      | nil => rfl
      | cons x xs ih => simp
    exact this xs
  have nn : 0 ≤ t := by
    obtain ⟨us, vs, _, _, rfl⟩ := a1
    apply List.sum_nonneg
    intro x hx
    obtain ⟨i, hi, rfl⟩ := List.mem_iff_getElem.mp hx
    simp only [List.getElem_zipWith]
    exact sq_nonneg _
  exact SameGeometry.symm (a4 (by linarith))

/-- C83, stability: the results from two starts are equally good, and not farther apart than the
starts. -/
theorem C83_stable (num : Numerics Flt) (hnum : Exact num) (num' : Numerics Flt) (hnum' : Exact num')
    (id : Nat) (ops : List (LayoutOp Flt)) (hops : ∀ op ∈ ops, op.Uses Shipped.IsAffine) (l : Layout Flt)
    (hl : l = (Layout.empty id).run ops) (hok : PrimOK l.prim) (p q : Prim Flt) (hp : PrimOK p)
    (hsp : SameStructure l.prim p) (hfp : p.Finite) (hq : PrimOK q) (hsq : SameStructure l.prim q)
    (hfq : q.Finite) (s0 : ℝ) (h0 : l.Misfit p s0) (base base' : Nat) (a b a' b' : ℝ)
    (maxIter maxIter' : Int) (hmax : 1 ≤ maxIter) (hmax' : 1 ≤ maxIter') :
    ∃ r info r' info', solveNewton num (startAt l p) base (fin a) (fin b) maxIter = .ok (r, info) ∧
      solveNewton num' (startAt l q) base' (fin a') (fin b') maxIter' = .ok (r', info') ∧
      (∃ s, l.Misfit r s ∧ l.Misfit r' s) ∧
      ∀ ps, Represents l.prim ps → ∃ t t', Moved ps p q t ∧ Moved ps r r' t' ∧ t' ≤ t := by
  have gp : GoodGeo l p := ⟨hp, hsp, hfp⟩
  have gq : GoodGeo l q := ⟨hq, hsq, hfq⟩
  obtain ⟨r, info, e1, hb⟩ := restart_best num hnum id ops hops l hl p gp s0 h0 p gp base a b
    maxIter hmax
  obtain ⟨r', info', e2, hb'⟩ := restart_best num' hnum' id ops hops l hl p gp s0 h0 q gq base' a' b'
    maxIter' hmax'
  have gr : GoodGeo l r := ⟨hb.1.ok, SameStructure.trans' hsp hb.1.str, hb.1.fin⟩
  have gr' : GoodGeo l r' := ⟨hb'.1.ok, SameStructure.trans' hsq hb'.1.str, hb'.1.fin⟩
  refine ⟨r, info, r', info', e1, e2, ?_, fun ps hps => ?_⟩
  · obtain ⟨s, h1, h2⟩ := hb.2.1
    obtain ⟨s', h1', h2'⟩ := hb'.2.1
    obtain ⟨u, h3, h4⟩ := h2 r' ⟨gr'.ok, SameStructure.trans' (SameStructure.symm' hsp) gr'.str, gr'.fin⟩
    obtain ⟨u', h3', h4'⟩ := h2' r ⟨gr.ok, SameStructure.trans' (SameStructure.symm' hsq) gr.str, gr.fin⟩
    have q1 : u = s' := misfit_unique (l := l) h3 h1'
    have q2 : u' = s := misfit_unique (l := l) h3' h1
    rw [q1] at h4
    rw [q2] at h4'
    have : s = s' := le_antisymm h4 h4'
    exact ⟨s, h1, this ▸ h1'⟩
  · obtain ⟨v0, hv0, _⟩ := h0
    obtain ⟨m, M, c, _, hM, _⟩ := affine_residual_finite hops id 0 (congrArg Layout.cons hl) hok hp hsp hfp
      hv0 (by
        intro a ha
        obtain ⟨x, _, rfl⟩ := List.mem_map.mp ha
        exact ⟨x, rfl⟩)
    obtain ⟨x, p1, x1, _, x3⟩ := exists_param l hok 0 hp hsp hfp
    obtain ⟨x', q1, x1', _, x3'⟩ := exists_param l hok 0 hq hsq hfq
    obtain ⟨y, r1, y1, _, y3⟩ := exists_param l hok 0 gr.ok gr.str gr.fin
    obtain ⟨y', r1', y1', _, y3'⟩ := exists_param l hok 0 gr'.ok gr'.str gr'.fin
    obtain ⟨k1, k2⟩ := best_coords hops (congrArg Layout.cons hl) hok hM gp hb x1 x3 y1 y3
    obtain ⟨k1', k2'⟩ := best_coords hops (congrArg Layout.cons hl) hok hM gq hb' x1' x3' y1' y3'
    obtain ⟨t, ht⟩ := moved_exists hps hsp hfp hsq hfq
    obtain ⟨t', ht'⟩ := moved_exists hps gr.str gr.fin gr'.str gr'.fin
    refine ⟨t, t', ht, ht', ?_⟩
    rw [moved_eq l hok 0 hps x1 x3 x1' x3' ht, moved_eq l hok 0 hps y1 y3 y1' y3' ht']
    exact nearest_nonexpansive k1 k1' k2 k2'

/-- The hypotheses hold of a layout whose constraints contradict each other, and solving it again
changes nothing. -/
example : ∃ r info r' info', solveNewton exactNum clashL 10 (fin 0) (fin 0) 1 = .ok (r, info) ∧
    solveNewton exactNum (startAt clashL r) 20 (fin 0) (fin 0) 5 = .ok (r', info') ∧ SameGeometry r r' :=
  C83_again exactNum exactNum_exact exactNum exactNum_exact 0 clashOps
    clashOps_affine clashL rfl (by rw [clashL_prim]; exact forkTree_ok (by decide) _ _ _ _ _ _)
    (by rw [clashL_prim]; exact forkTree_finite _ _ _ _ _ _ _ _ _ _ _ _) _
    (by rw [clashL_prim]; exact clashL_misfit _ _ _ _ _ _ _ _ _ _ _ _) 10 20 0 0 0 0 1 5 (by norm_num)
    (by norm_num)

/-- The same lines put elsewhere. -/
example : ∃ r info r' info',
    solveNewton exactNum (startAt clashL (forkTree 10 14 15 11 12 13 0 0 3 0 3 0)) 10 (fin 0) (fin 0) 1
      = .ok (r, info) ∧
    solveNewton exactNum (startAt clashL (forkTree 10 14 15 11 12 13 0 0 7 0 3 8)) 20 (fin 0) (fin 0) 5
      = .ok (r', info') ∧ ∃ s, clashL.Misfit r s ∧ clashL.Misfit r' s := by
  obtain ⟨r, info, r', info', h1, h2, h3, _⟩ := C83_stable exactNum exactNum_exact exactNum exactNum_exact
    0 clashOps clashOps_affine clashL rfl (by rw [clashL_prim]; exact forkTree_ok (by decide) _ _ _ _ _ _)
    (forkTree 10 14 15 11 12 13 0 0 3 0 3 0) (forkTree 10 14 15 11 12 13 0 0 7 0 3 8)
    (forkTree_ok (by decide) _ _ _ _ _ _)
    (by rw [clashL_prim]; exact forkTree_same _ _ _ _ _ _ _ _ _ _ _ _)
    (forkTree_finite _ _ _ _ _ _ _ _ _ _ _ _) (forkTree_ok (by decide) _ _ _ _ _ _)
    (by rw [clashL_prim]; exact forkTree_same _ _ _ _ _ _ _ _ _ _ _ _)
    (forkTree_finite _ _ _ _ _ _ _ _ _ _ _ _) _ (clashL_misfit _ _ _ _ _ _ _ _ _ _ _ _) 10 20 0 0 0 0 1 5
    (by norm_num) (by norm_num)
  exact ⟨r, info, r', info', h1, h2, h3⟩

end MplLayout.Props
