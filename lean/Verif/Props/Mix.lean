import Verif.Lemmas.Mix
import Verif.Props.Canonical
import Verif.Props.Drawing2

/-!
# C86: the solved geometry depends linearly on positions and lengths
-/

namespace MplLayout.Props

open Solver Flt

/-- C86: take two histories of calls with affine constraints that differ only in coordinates and lengths, and
mix their numbers with weights `1 - t` and `t` for any `t` (also outside of `[0, 1]`): the calls lead to the same
constraints on the same primitives, and the solved geometry is the mixture of the two solved geometries, whether
or not the constraints can be satisfied and whether or not they determine the geometry.  So when a length is
moved like a slider all points move along straight lines, with constant speed. -/
theorem C86_mixture (t : ℝ) (num : Fin 3 → Numerics Flt) (hnum : ∀ i, Exact (num i)) (id : Nat)
    (ops : List (Fin 3 → LayoutOp Flt)) (hops : ∀ o ∈ ops, LayoutOp.Mixed t o) (l : Fin 3 → Layout Flt)
    (hl : ∀ i, l i = (Layout.empty id).run (ops.map (· i)))
    (hok0 : PrimOK (l 0).prim) (hok1 : PrimOK (l 1).prim) (s0 s1 : ℝ)
    (h0 : (l 0).Misfit (l 0).prim s0) (h1 : (l 1).Misfit (l 1).prim s1) (base : Fin 3 → Nat) (a b : Fin 3 → ℝ)
    (maxIter : Fin 3 → Int) (hmax : ∀ i, 1 ≤ maxIter i) :
    Prim.Mixed t (l 0).prim (l 1).prim (l 2).prim ∧
    ∃ (r : Fin 3 → Prim Flt) (info : Fin 3 → SolverInfo Flt),
      (∀ i, solveNewton (num i) (l i) (base i) (fin (a i)) (fin (b i)) (maxIter i) = .ok (r i, info i)) ∧
      Prim.Mixed t (r 0) (r 1) (r 2) := by
  obtain ⟨P, Z, keys, ctr, hF, hrun⟩ := run_mix hops id
  have hli : ∀ i, l i = famL (mixF t) P Z keys ctr i := fun i => (hl i).trans (hrun i)
  have hprim : ∀ i, (l i).prim = P.mapV (mixF t i) := fun i => by rw [hli]; rfl
  have hok : ∀ i, PrimOK (l i).prim := by
    have : PrimOK (l 2).prim := by
      rw [hprim]
      exact mix_ok (by rw [← hprim]; exact hok0) (by rw [← hprim]; exact hok1)
    intro i
    match i with
    | 0 => exact hok0
    | 1 => exact hok1
    | 2 => exact this
  have hPW : P.WF := WF_of_mapV (f := mixF t 0) (by rw [← hprim]; exact hok0.wf)
  have hstr : ∀ i j, SameStructure (l i).prim (l j).prim := fun i j => by
    rw [hprim, hprim]
    exact mapV_same (f := mixF t i) (g := mixF t j) (fun _ => rfl) (fun v => by simp [mixF]) hPW
  have hfin : ∀ i, (l i).prim.Finite := by
    intro i p m hm x hx
    rw [hprim] at hm
    obtain ⟨m0, _, rfl⟩ := (At_mapV _).mp hm
    rw [Node.value_mapV] at hx
    obtain ⟨ab, _, rfl⟩ := List.mem_map.mp hx
    exact ⟨_, rfl⟩
  have hu : ∀ i, ∀ op ∈ ops.map (· i), op.Uses Shipped.IsAffine := by
    intro i op ho
    obtain ⟨o, ho', rfl⟩ := List.mem_map.mp ho
    exact mixed_uses (hops o ho') i
  have hcons : ∀ i, (l i).cons = ((Layout.empty id).run (ops.map (· i))).cons := fun i => by rw [hl]
  have hnip : ∀ i, AllN NIP (l i).cons := fun i => by rw [hcons]; exact run_nip (hu i) id
  -- the residuals are mixed
  have hres : ∀ R : Node PrimType (Nat × List (ℝ × ℝ)), ∃ rr : Py (List (Fin 3 → Flt)),
      (∀ i, (l i).residual (R.mapV (mixF t i)) = rr.map (List.map (· i))) ∧ ∀ gs, rr = .ok gs → ∀ g ∈ gs, MX t g := by
    intro R
    obtain ⟨rr, k1, k2⟩ := residual_fam hF ctr R
    exact ⟨rr, fun i => by rw [hli]; exact k1 i, k2⟩
  have hmis : ∀ i, ∃ v : List ℝ, (l i).residual (l i).prim = .ok (v.map fin) := by
    obtain ⟨rr, k1, k2⟩ := hres P
    obtain ⟨v0, e0, _⟩ := h0
    obtain ⟨v1, e1, _⟩ := h1
    have : ∃ v : List ℝ, (l 2).residual (l 2).prim = .ok (v.map fin) := by
      rw [hprim] at e0 e1 ⊢
      rw [k1] at e0 e1 ⊢
      cases rr with
      | error e => cases e0
      | ok gs =>
        simp only [Except.map, Except.ok.injEq] at e0 e1 ⊢
        obtain ⟨v, hv⟩ := (map_fin_iff (xs := gs.map (· 2))).mpr (by
          intro x hx
          obtain ⟨g, hg, rfl⟩ := List.mem_map.mp hx
          have a0 : g 0 ∈ v0.map fin := by rw [← e0]; exact List.mem_map.mpr ⟨g, hg, rfl⟩
          have a1 : g 1 ∈ v1.map fin := by rw [← e1]; exact List.mem_map.mpr ⟨g, hg, rfl⟩
          obtain ⟨x0, _, y0⟩ := List.mem_map.mp a0
          obtain ⟨x1, _, y1⟩ := List.mem_map.mp a1
          have := k2 gs rfl g hg
          rw [MX, ← y0, ← y1] at this
          exact ⟨_, this⟩)
        exact ⟨v, hv⟩
    intro i
    match i with
    | 0 => exact ⟨v0, e0⟩
    | 1 => exact ⟨v1, e1⟩
    | 2 => exact this
  have gp : ∀ i, GoodGeo (l i) (l i).prim := fun i => ⟨hok i, SameStructure.refl (hok i).wf, hfin i⟩
  have sol : ∀ i, ∃ r info, solveNewton (num i) (l i) (base i) (fin (a i)) (fin (b i)) (maxIter i) = .ok (r, info) ∧
      Best (l i) r := by
    intro i
    obtain ⟨v, hv⟩ := hmis i
    exact newton_best (hnum i) (hu i) (hcons i) (hok i) (hfin i) (gp i) ⟨v, hv, rfl⟩ (base i) (a i) (b i) (maxIter i) (hmax i)
  choose r info e hb using sol
  -- everything in the coordinates of the first layout
  have hk : ∀ i, ∃ (m : Nat) (M : Matrix (Fin m) (Fin (dim (l 0))) ℝ) (c : Fin m → ℝ),
      ∀ x q, rebuild (l 0) 0 (vec x) = .ok q → (l i).residual q = .ok (vec (M.mulVec x + c)) := by
    intro i
    obtain ⟨v, hv⟩ := hmis i
    obtain ⟨m, M, c, _, k1, _⟩ := affine_residual_finite (l := { l i with prim := (l 0).prim }) (hu i) id 0 (hcons i) hok0
      (hok i) (hstr 0 i) (hfin i) (v := v.map fin) hv (by
        intro a ha
        obtain ⟨x, _, rfl⟩ := List.mem_map.mp ha
        exact ⟨x, rfl⟩)
    refine ⟨m, M, c, fun x q hq => ?_⟩
    have hg : (rebuild (l 0) 0 (vec x) >>= (l i).residual) = .ok (vec (M.mulVec x + c)) := k1 x
    rw [hq] at hg
    exact hg
  obtain ⟨m0, M0, c0, k0⟩ := hk 0
  obtain ⟨m1, M1, c1, k1⟩ := hk 1
  obtain ⟨m2, M2, c2, k2⟩ := hk 2
  have vals : ∀ u v : Fin (dim (l 0)) → ℝ, ∃ gs : List (Fin 3 → Flt), vec (M0.mulVec u + c0) = gs.map (· 0) ∧
      vec (M1.mulVec v + c1) = gs.map (· 1) ∧ vec (M2.mulVec ((1 - t) • u + t • v) + c2) = gs.map (· 2) ∧
      ∀ g ∈ gs, MX t g := by
    intro u v
    obtain ⟨R, f0, f1, f2⟩ := rebuild_mix (t := t) (l 0) hok0 0 u v
    obtain ⟨rr, g1, g2⟩ := hres R
    have a0 := (k0 u _ f0).symm.trans (g1 0)
    have a1 := (k1 v _ f1).symm.trans (g1 1)
    have a2 := (k2 _ _ f2).symm.trans (g1 2)
    cases rr with
    | error er => cases a0
    | ok gs => exact ⟨gs, Except.ok.inj a0, Except.ok.inj a1, Except.ok.inj a2, g2 gs rfl⟩
  obtain ⟨rfl, rfl⟩ : m1 = m0 ∧ m2 = m0 := by
    obtain ⟨gs, b0, b1, b2, _⟩ := vals 0 0
    have d0 := congrArg List.length b0
    have d1 := congrArg List.length b1
    have d2 := congrArg List.length b2
    rw [vec_length, List.length_map] at d0 d1 d2
    omega
  have hM : ∀ u v, M2.mulVec ((1 - t) • u + t • v) + c2 = (1 - t) • (M0.mulVec u + c0) + t • (M1.mulVec v + c1) := by
    intro u v
    obtain ⟨gs, b0, b1, b2, b3⟩ := vals u v
    generalize M0.mulVec u + c0 = A0 at *
    generalize M1.mulVec v + c1 = A1 at *
    generalize M2.mulVec ((1 - t) • u + t • v) + c2 = A2 at *
    refine funext fun i => ?_
    have get : ∀ (A : Fin _ → ℝ) (j : Fin 3), vec A = gs.map (· j) → gs[i.1]?.map (· j) = some (fin (A i)) := by
      intro A j h
      rw [← List.getElem?_map, ← h]
      simp [vec]
    have q0 := get A0 0 b0
    have q1 := get A1 1 b1
    have q2 := get A2 2 b2
    cases hg : gs[i.1]? with
    | none => rw [hg] at q0; cases q0
    | some g =>
      rw [hg] at q0 q1 q2
      simp only [Option.map_some, Option.some.injEq] at q0 q1 q2
      have := b3 g (List.mem_of_getElem? hg)
      rw [MX, q0, q1, q2] at this
      simpa using this
  obtain ⟨x0, y0, rx0, ry0, p0, q0, p0', q0', n0⟩ := Best.nearest hok0 (hok 0) (hfin 0) (hstr 0 0) (hnip 0) 0 k0 (hb 0)
  obtain ⟨x1, y1, rx1, ry1, p1, q1, p1', q1', n1⟩ := Best.nearest hok0 (hok 1) (hfin 1) (hstr 0 1) (hnip 1) 0 k1 (hb 1)
  obtain ⟨x2, y2, rx2, ry2, p2, q2, p2', q2', n2⟩ := Best.nearest hok0 (hok 2) (hfin 2) (hstr 0 2) (hnip 2) 0 k2 (hb 2)
  have hx : x2 = (1 - t) • x0 + t • x1 := by
    obtain ⟨R, f0, f1, f2⟩ := rebuild_mix (t := t) (l 0) hok0 0 x0 x1
    rw [f0] at p0; cases p0
    rw [f1] at p1; cases p1
    rw [hprim] at q0 q1
    refine coords_inj (l 0) hok0 0 p2 f2 q2 ?_ (hstr 0 2) (hfin 2)
    rw [hprim 2]
    exact mix_geometry q0 q1
  have hy := nearest_mix hM hx n0 n1 n2
  obtain ⟨R, f0, f1, f2⟩ := rebuild_mix (t := t) (l 0) hok0 0 y0 y1
  rw [f0] at p0'; cases p0'
  rw [f1] at p1'; cases p1'
  rw [hy, f2] at p2'; cases p2'
  have hRW : R.WF := by
    obtain ⟨q, g1, g2, _⟩ := rebuild_at (l 0) hok0 0 (vec y0) (vec_length y0)
    rw [f0] at g1; cases g1
    exact WF_of_mapV g2
  refine ⟨mixed_of (t := t) (r := fun i => (l i).prim) hPW (fun i => by rw [hprim]; exact SameGeometry.refl (WF_mapV _ hPW)) fun i => hstr 0 i, r, info, e,
    mixed_of hRW (fun i => ?_) fun i => ?_⟩
  · match i with
    | 0 => exact q0'
    | 1 => exact q1'
    | 2 => exact q2'
  · exact SameStructure.trans' (SameStructure.symm' (hb 0).1.str) (SameStructure.trans' (hstr 0 i) (hb i).1.str)

/-! ## The hypotheses are met -/

/-- A line between `a` and `b` in the first history and between `c` and `d` in the second. -/
def twoLn (i j k : Nat) (a c b d : ℝ × ℝ) : Node PrimType (Nat × List (ℝ × ℝ)) :=
  .mk .line (i, []) [(k!"Point0", .mk .point (j, [(a.1, c.1), (a.2, c.2)]) []),
    (k!"Point1", .mk .point (k, [(b.1, d.1), (b.2, d.2)]) [])]

/-- The clashing lines, whose widths should be 1, 1 and 3, and the same calls with other points and with the
widths 2, 1 and 8. -/
noncomputable def sliderOps (t : ℝ) : List (Fin 3 → LayoutOp Flt) :=
  [fun i => .addPrim ((twoLn 4 1 2 (0, 0) (1, 0) (3, 0) (5, 2)).mapV (mixF t i)) k!"U",
   fun i => .addPrim ((twoLn 5 1 3 (0, 0) (1, 0) (3, 0) (3, 0)).mapV (mixF t i)) k!"V",
   fun i => .addConstraint ((Shipped.xLength.build).toOption.getD ct.coincident) [k!"U"]
    ([fun i => Param.num (fin (mix t i (1, 2)))].map (· i)) k!"a",
   fun i => .addConstraint ((Shipped.xLength.build).toOption.getD ct.coincident) [k!"V"]
    ([fun i => Param.num (fin (mix t i (1, 1)))].map (· i)) k!"b",
   fun i => .addConstraint ((Shipped.xLength.build).toOption.getD ct.coincident) [k!"U"]
    ([fun i => Param.num (fin (mix t i (3, 8)))].map (· i)) k!"c"]

theorem sliderOps_mixed (t : ℝ) : ∀ o ∈ sliderOps t, LayoutOp.Mixed t o := by
  have hw : ∀ i j k a b c d, (twoLn i j k a b c d).WF := fun i j k a b c d =>
    ((Node.goodB_iff _).mp (show Node.goodB (twoLn i j k a b c d) = true from rfl)).1
  have hx : ∀ (k key : Str) (ab : ℝ × ℝ), LayoutOp.Mixed t fun i =>
      .addConstraint ((Shipped.xLength.build).toOption.getD ct.coincident) [k]
        ([fun i => Param.num (fin (mix t i ab))].map (· i)) key := fun k key ab =>
    .addConstraint .xLength trivial trivial _ rfl [k] _ trivial (by
      intro i q hq
      match i with
      | 0 => cases hq; exact .num ab
      | i + 1 => cases hq) key
  intro o ho
  simp only [sliderOps, List.mem_cons, List.not_mem_nil, or_false] at ho
  rcases ho with rfl | rfl | rfl | rfl | rfl
  · exact .addPrim _ (hw _ _ _ _ _ _ _) _
  · exact .addPrim _ (hw _ _ _ _ _ _ _) _
  · exact hx _ _ _
  · exact hx _ _ _
  · exact hx _ _ _

/-- The three layouts. -/
noncomputable def sliderL (t : ℝ) (i : Fin 3) : Layout Flt := (Layout.empty 0).run ((sliderOps t).map (· i))

/-- The second history. -/
noncomputable def clashOps3 : List (LayoutOp Flt) :=
  [.addPrim (sLn 4 (sPt 1 1 0) (sPt 2 5 2)) k!"U",
   .addPrim (sLn 5 (sPt 1 1 0) (sPt 3 3 0)) k!"V",
   .addConstraint ((Shipped.xLength.build).toOption.getD ct.coincident) [k!"U"] [.num (fin 2)] k!"a",
   .addConstraint ((Shipped.xLength.build).toOption.getD ct.coincident) [k!"V"] [.num (fin 1)] k!"b",
   .addConstraint ((Shipped.xLength.build).toOption.getD ct.coincident) [k!"U"] [.num (fin 8)] k!"c"]

/-- Its layout. -/
noncomputable def clashL3 : Layout Flt := (Layout.empty 0).run clashOps3

theorem clashL3_prim : clashL3.prim = forkTree 0 4 5 1 2 3 1 0 5 2 3 0 := by rfl

theorem clashL3_misfit : ∃ s, clashL3.Misfit clashL3.prim s := by
  rw [clashL3_prim]
  exact ⟨_, [0 + (5 - 1) * 1 + (2 - 0) * 0 + -1 * 2, 0 + (3 - 1) * 1 + (0 - 0) * 0 + -1 * 1,
    0 + (5 - 1) * 1 + (2 - 0) * 0 + -1 * 8], by rfl, rfl⟩

theorem sliderL_0 (t : ℝ) : sliderL t 0 = clashL := congrArg (Layout.run (Layout.empty 0)) rfl

theorem sliderL_1 (t : ℝ) : sliderL t 1 = clashL3 := congrArg (Layout.run (Layout.empty 0)) rfl

/-- C86 applies to the slider, for every `t`. -/
example (t : ℝ) : ∃ (r : Fin 3 → Prim Flt) (info : Fin 3 → SolverInfo Flt),
    (∀ i, solveNewton exactNum (sliderL t i) 10 (fin 0) (fin 0) 1 = .ok (r i, info i)) ∧
      Prim.Mixed t (r 0) (r 1) (r 2) := by
  obtain ⟨s1, h1⟩ := clashL3_misfit
  exact (C86_mixture t (fun _ => exactNum) (fun _ => exactNum_exact) 0 (sliderOps t) (sliderOps_mixed t) (sliderL t)
    (fun _ => rfl) (by rw [sliderL_0, clashL_prim]; exact forkTree_ok (by decide) _ _ _ _ _ _)
    (by rw [sliderL_1, clashL3_prim]; exact forkTree_ok (by decide) _ _ _ _ _ _) _ s1
    (by rw [sliderL_0, clashL_prim]; exact clashL_misfit _ _ _ _ _ _ _ _ _ _ _ _) (by rw [sliderL_1]; exact h1)
    (fun _ => 10) (fun _ => 0) (fun _ => 0) (fun _ => 1) (fun _ => by norm_num)).2

end MplLayout.Props
