import Verif.Lemmas.TwoStepFam

/-!
# Two Newton steps solve a figure with labels
-/

namespace MplLayout

open Flt

namespace Solver

/-- The Jacobian matrix of a list of differentiable functions. -/
theorem list_jacobian {n : Nat} {res : List Flt → Py (List Flt)} {x : Fin n → ℝ} {gs : List ((Fin n → ℝ) → ℝ)}
    (hres : ∀ᶠ y in nhds x, res (vec y) = .ok (gs.map fun g => fin (g y)))
    (hdiff : ∀ g ∈ gs, DifferentiableAt ℝ g x) :
    ∃ M : Matrix (Fin gs.length) (Fin n) ℝ, IsJacobian res x M ∧
      res (vec x) = .ok (vec fun i : Fin gs.length => gs[i] x) ∧
      ∀ e, M.mulVec e = -(fun i : Fin gs.length => gs[i] x) ↔ ∀ g ∈ gs, TanZero fun t => g (x + t • e) := by
  let F : (Fin n → ℝ) → Fin gs.length → ℝ := fun y i => gs[i] y
  have hF : DifferentiableAt ℝ F x := differentiableAt_pi.mpr fun i => hdiff _ (List.getElem_mem _)
  let M : Matrix (Fin gs.length) (Fin n) ℝ := LinearMap.toMatrix' (fderiv ℝ F x).toLinearMap
  have hM : LinearMap.toContinuousLinearMap M.mulVecLin = fderiv ℝ F x := by
    ext1 v
    show M.mulVec v = _
    rw [← Matrix.toLin'_apply, Matrix.toLin'_toMatrix']
    rfl
  have hvec : ∀ y, (gs.map fun g => fin (g y)) = vec (F y) := by
    intro y
    apply List.ext_getElem
    · simp [vec]
    · intro i h1 h2
      simp [vec, F]
  have hfd : HasFDerivAt F (LinearMap.toContinuousLinearMap M.mulVecLin) x := by rw [hM]; exact hF.hasFDerivAt
  refine ⟨M, ⟨F, hres.mono fun y hy => by rw [hy, hvec], hfd⟩, by rw [hres.self_of_nhds, hvec], fun e => ?_⟩
  have hline : HasDerivAt (fun t : ℝ => x + t • e) e 0 := by
    have := ((hasDerivAt_id (0 : ℝ)).smul_const e).const_add x
    simpa using this
  have hx0 : x + (0 : ℝ) • e = x := by simp
  have h3 : HasDerivAt (fun t : ℝ => F (x + t • e)) (M.mulVec e) 0 := by
    have h2' : HasFDerivAt F (LinearMap.toContinuousLinearMap M.mulVecLin) (x + (0 : ℝ) • e) := by rwa [hx0]
    exact h2'.comp_hasDerivAt 0 hline
  have h4 : ∀ i, HasDerivAt (fun t : ℝ => F (x + t • e) i) (M.mulVec e i) 0 := hasDerivAt_pi.mp h3
  constructor
  · intro h g hg
    obtain ⟨i, hi, rfl⟩ := List.getElem_of_mem hg
    refine (tanZero_iff (h4 ⟨i, hi⟩)).mpr ?_
    rw [h, hx0]
    simp [F]
  · intro h
    funext i
    have := (tanZero_iff (h4 i)).mp (h _ (List.getElem_mem _))
    rw [hx0] at this
    simp only [Pi.neg_apply]
    have e : F x i = gs[i] x := rfl
    rw [e] at this
    linarith

theorem le_norm2 {v : List ℝ} {a : ℝ} (h : a ∈ v) : |a| ≤ norm2 v := by
  apply Real.abs_le_sqrt
  exact List.single_le_sum (by intro x hx; obtain ⟨y, _, rfl⟩ := List.mem_map.mp hx; exact sq_nonneg y) _
    (List.mem_map.mpr ⟨a, h, rfl⟩)

/-- A step that satisfies the equations is taken if there is one, then another one, and then the geometry stays. -/
theorem twostep_loop {m n : Nat} {num : Numerics Flt} (hnum : Exact num)
    {res : List Flt → Py (List Flt)} {x : Fin n → ℝ} {M : Matrix (Fin m) (Fin n) ℝ} {r : Fin m → ℝ}
    (hM : IsJacobian res x M) (hr : res (vec x) = .ok (vec r)) {e : Fin n → ℝ} (he : M.mulVec e = -r)
    {good : (Fin n → ℝ) → Prop}
    (hstep : ∀ d, M.mulVec d = -r → ∃ (m' : Nat) (N : Matrix (Fin m') (Fin n) ℝ) (r' : Fin m' → ℝ) (e' : Fin n → ℝ),
      IsJacobian res (x + d) N ∧ res (vec (x + d)) = .ok (vec r') ∧ N.mulVec e' = -r' ∧
      ∀ d', N.mulVec d' = -r' → good (x + d + d') ∧ ∃ (m'' : Nat) (N' : Matrix (Fin m'') (Fin n) ℝ),
        res (vec (x + d + d')) = .ok (vec (0 : Fin m'' → ℝ)) ∧ IsJacobian res (x + d + d') N')
    {a b : ℝ} {i : Fin m} (ha : a < |r i|) (ha0 : 0 ≤ a) (hb : b < 1) (maxIter : Int) (hmax : 2 ≤ maxIter) :
    ∃ s y, newtonLoop num res (fin a) (fin b) maxIter (maxIter.toNat + 1) { param := vec x } = some (.ok s) ∧
      s.param = vec y ∧ good y := by
  have exact_step : ∀ {k : Nat} (N : Matrix (Fin k) (Fin n) ℝ) (q : Fin k → ℝ) (e : Fin n → ℝ), N.mulVec e = -q →
      ∃ d, num.lstsq n (mat N) (vec (-q)) = .ok (vec d) ∧ N.mulVec d = -q := by
    intro k N q e he
    obtain ⟨d, hd, e1⟩ := hnum.lstsq N (-q)
    refine ⟨d, e1, ?_⟩
    have h0 := hd.least e
    rw [he, sub_self, sq_zero.mpr rfl] at h0
    exact sub_eq_zero.mp (sq_zero.mp (le_antisymm h0 (sq_nonneg' _)))
  obtain ⟨d, e1, hd⟩ := exact_step M r e he
  obtain ⟨m', N, r', e', hN, hr', he', hnext⟩ := hstep d hd
  obtain ⟨d', e1', hd'⟩ := exact_step N r' e' he'
  obtain ⟨hg, m'', N', h0, hN'⟩ := hnext d' hd'
  have hc : continues (fin a) (fin b) maxIter ({ param := vec x } : NewtonState Flt) = true := by
    simp only [continues, gtTol, Bool.and_eq_true, decide_eq_true_eq]
    refine ⟨⟨?_, ?_⟩, by simp; omega⟩ <;> simp [PyNum.le]
  have e2 := newtonStep_vec hr (hnum.jacobian res x M hM) e1 { param := vec x } rfl
  have hnorm : npNorm (vec r) = fin (norm2 (List.ofFn r)) := by rw [vec_eq, npNorm_fin]
  have hlt : a < norm2 (List.ofFn r) := lt_of_lt_of_le ha (le_norm2 (List.mem_ofFn.mpr ⟨i, rfl⟩))
  simp only [List.nil_append, List.headD_cons, hnorm] at e2
  have hdiv : (fin (norm2 (List.ofFn r)) / fin (norm2 (List.ofFn r)) : Flt) = fin 1 := by
    rw [fin_div (by linarith), div_self (by linarith)]
  rw [hdiv] at e2
  generalize hs1 : (NewtonState.mk (vec (x + d)) _ _ _ _ _ : NewtonState Flt) = s1 at e2
  have p1 : s1.param = vec (x + d) := by rw [← hs1]
  have p2 : s1.n = 1 := by rw [← hs1]
  have hc1 : continues (fin a) (fin b) maxIter s1 = true := by
    rw [← hs1]
    simp only [continues, gtTol, Bool.and_eq_true, decide_eq_true_eq]
    refine ⟨⟨?_, ?_⟩, by simp; omega⟩
    · simpa [PyNum.lt] using hlt
    · simpa [PyNum.lt] using hb
  have e3 := newtonStep_vec hr' (hnum.jacobian res _ N hN) e1' s1 p1
  generalize hs2 : (NewtonState.mk (vec (x + d + d')) _ _ _ _ _ : NewtonState Flt) = s2 at e3
  have q1 : s2.param = vec (x + d + d') := by rw [← hs2]
  have q2 : s2.n = 2 := by rw [← hs2, p2]
  obtain ⟨s, f1, f2⟩ := stationary_loop hnum.lstsq h0 (hnum.jacobian res _ N' hN') (by simp) (fin a) (fin b) maxIter
    (maxIter.toNat - 1) s2 q1 (by rw [q2]; omega)
  refine ⟨s, _, ?_, f2, hg⟩
  obtain ⟨k, hk⟩ : ∃ k, maxIter.toNat + 1 = (k + 1) + 1 ∧ maxIter.toNat - 1 = k := ⟨maxIter.toNat - 1, by omega, rfl⟩
  rw [hk.1]
  rw [hk.2] at f1
  simp only [newtonLoop, hc, if_true, e2, hc1, e3]
  exact f1

end Solver

namespace Props

open Solver

variable {tool : Shipped → Cons Flt} {items : List FigItem} {s : Session Flt} {ts : List (Make × Nat)}

/-- The residual, if the values of the demands are known. -/
theorem Ran.residual_at (h : Ran tool items s ts) (hF : FigOK items) (hT : ToolsFor tool items)
    (hne : figDemands items ≠ []) {base : Nat} {y : Fin (dim s.layout) → ℝ} {gs : Demand → List Flt}
    (hgs : ∀ d ∈ figDemands items, ∀ r, rebuild s.layout base (vec y) = .ok r → (d.added tool).Value r (gs d)) :
    globalRes s.layout base (vec y) = .ok ((figDemands items).flatMap gs) := by
  obtain ⟨r, e1, e2⟩ := rebuild_structure s.layout h.ok base (vec y) (vec_length y)
  have hw := (rebuild_primOK _ h.ok base _ (vec_length y) e1).wf
  simp only [globalRes, e1, bind, Except.bind]
  have hroot : ∀ k p, s.layout.prim.getChild k = .ok p → ∃ p', r.getChild k = .ok p' ∧ p'.ty = p.ty := by
    intro k p hp
    rw [Node.getChild_ok_iff, Node.find_iff_At h.ok.wf] at hp
    obtain ⟨p', hp'⟩ := (e2.paths _).mp ⟨p, hp⟩
    refine ⟨p', ?_, (e2.nodes _ _ _ hp hp').1.symm⟩
    rw [Node.getChild_ok_iff, Node.find_iff_At hw]
    exact hp'
  have := C50_residual_partial 0 _ (fun op ho => Sensible.regular (fig_sensible (tool := tool) hF hT op ho))
    (fig_topLevel hF) r (by rw [← h.layout]; exact hroot) ((figDemands items).flatMap gs)
  rw [← h.layout, h.added] at this
  rw [this]
  refine ⟨by simpa using hne, (figDemands items).map gs, ?_, ?_⟩
  · rw [List.forall₂_map_left_iff, List.forall₂_map_right_iff, List.forall₂_same]
    exact fun d hd => hgs d hd r e1
  · rw [List.flatMap_def]

/-- The Newton step at a placement. -/
theorem Ran.tangent (h : Ran tool items s ts) (hF : FigOK items) (hT : ToolsFor tool items)
    (hne : figDemands items ≠ []) (htwo : ∀ d ∈ figDemands items, d.TwoStep) {base : Nat}
    {x : Fin (dim s.layout) → ℝ} {r0 : Prim Flt} {P : Placement} (hr0 : rebuild s.layout base (vec x) = .ok r0)
    (hP : PlacedIn items P r0) (hspan : ∀ d ∈ figDemands items, d.Spans P)
    {y1 : Fin (dim s.layout) → ℝ} {r1 : Prim Flt} {P1 : Placement} (hr1 : rebuild s.layout base (vec y1) = .ok r1)
    (hP1 : PlacedIn items P1 r1) (hh : ∀ d ∈ figDemands items, d.Upright P1) :
    ∃ (m : Nat) (M : Matrix (Fin m) (Fin (dim s.layout)) ℝ) (r : Fin m → ℝ), IsJacobian (globalRes s.layout base) x M ∧
      globalRes s.layout base (vec x) = .ok (vec r) ∧
      (∀ e, M.mulVec e = -r → ∃ r' Q, rebuild s.layout base (vec (x + e)) = .ok r' ∧ PlacedIn items Q r' ∧
        ∀ d ∈ figDemands items, DemandTan P Q d) ∧
      (∀ e r' Q, rebuild s.layout base (vec (x + e)) = .ok r' → PlacedIn items Q r' →
        (∀ d ∈ figDemands items, DemandTan P Q d) → M.mulVec e = -r) ∧
      ((∀ d ∈ figDemands items, d.Upright P) → r = 0) ∧
      ∀ a kind twin v, .label a kind twin v ∈ figDemands items →
        ∃ i, r i = labelOffset a twin P kind / (labelEdge a kind).run P - v := by
  have hfam : ∀ d, ∃ gs, d ∈ figDemands items → Near tool items s.layout base x P d gs := by
    intro d
    by_cases hd : d ∈ figDemands items
    · obtain ⟨gs, hgs⟩ := h.near hF hT hr0 hP hd (htwo d hd) (hspan d hd) hr1 hP1 (hh d hd)
      exact ⟨gs, fun _ => hgs⟩
    · exact ⟨[], fun h => absurd h hd⟩
  choose gs hgs using hfam
  have hev : ∀ᶠ y in nhds x, globalRes s.layout base (vec y)
      = .ok (((figDemands items).flatMap gs).map fun g => fin (g y)) := by
    have : ∀ᶠ y in nhds x, ∀ d ∈ {d | d ∈ figDemands items}, ∀ r, rebuild s.layout base (vec y) = .ok r →
        (d.added tool).Value r ((gs d).map fun g => fin (g y)) :=
      (Filter.eventually_all_finite (List.finite_toSet _)).mpr fun d hd => (hgs d hd).value
    refine this.mono fun y hy => ?_
    have hy' : ∀ d ∈ figDemands items, ∀ r, rebuild s.layout base (vec y) = .ok r →
        (d.added tool).Value r ((fun d => (gs d).map fun g => fin (g y)) d) := fun d hd => hy d hd
    rw [h.residual_at hF hT hne hy', List.map_flatMap]
  obtain ⟨M, hM, hr, htan⟩ := list_jacobian hev (fun g hg => by
    obtain ⟨d, hd, hg⟩ := List.mem_flatMap.mp hg
    exact (hgs d hd).diff g hg)
  have htan' : ∀ e, M.mulVec e = -(fun i : Fin ((figDemands items).flatMap gs).length => ((figDemands items).flatMap gs)[i] x)
      ↔ ∀ d ∈ figDemands items, ∀ g ∈ gs d, TanZero fun t => g (x + t • e) := by
    intro e
    rw [htan e]
    constructor
    · intro hz d hd g hg
      exact hz g (List.mem_flatMap.mpr ⟨d, hd, hg⟩)
    · intro hz g hg
      obtain ⟨d, hd, hg⟩ := List.mem_flatMap.mp hg
      exact hz d hd g hg
  refine ⟨_, M, _, hM, hr, fun e he => ?_, fun e r' Q hr' hQ hz => ?_, fun hu => ?_, fun a kind twin v hd => ?_⟩
  · obtain ⟨r', hr', _⟩ := rebuild_structure s.layout h.ok base (vec (x + e)) (vec_length _)
    have ht := (htan' e).mp he
    obtain ⟨Q, hQ⟩ := h.placed hF (h.moves hr') (fun b hb q hq => (hgs _ hb).box b rfl e r' hr' (ht _ hb) q hq)
    exact ⟨r', Q, hr', hQ, fun d hd => ((hgs d hd).tan e r' Q hr' hQ).mp (ht d hd)⟩
  · exact (htan' e).mpr fun d hd => ((hgs d hd).tan e r' Q hr' hQ).mpr (hz d hd)
  · funext i
    obtain ⟨d, hd, hg⟩ := List.mem_flatMap.mp (List.getElem_mem (l := (figDemands items).flatMap gs) i.2)
    exact (hgs d hd).zero (hu d hd) _ hg
  · have hl := (hgs _ hd).label a kind twin v rfl
    obtain ⟨g, hg⟩ : ∃ g, gs (.label a kind twin v) = [g] := by
      have : (gs (.label a kind twin v)).length = 1 := by simpa using congrArg List.length hl
      exact List.length_eq_one_iff.mp this
    rw [hg] at hl
    have hm : g ∈ (figDemands items).flatMap gs := List.mem_flatMap.mpr ⟨_, hd, by rw [hg]; simp⟩
    obtain ⟨i, hi, e⟩ := List.getElem_of_mem hm
    refine ⟨⟨i, hi⟩, ?_⟩
    show ((figDemands items).flatMap gs)[i] x = _
    rw [e]
    simpa using hl

/-- The default geometry: boxes of size 1 in the lower left corner, and points there. -/
def unitPlacement : Placement := ⟨fun _ => ⟨0, 0, 1, 1⟩, fun _ => (0, 0)⟩

theorem Ran.unit (h : Ran tool items s ts) (hF : FigOK items) {base : Nat} {x : Fin (dim s.layout) → ℝ}
    (hx : globalParam s.layout = .ok (vec x)) :
    ∃ r0, rebuild s.layout base (vec x) = .ok r0 ∧ PlacedIn items unitPlacement r0 := by
  obtain ⟨r0, f1, f2⟩ := rebuild_self _ h.ok base hx
  have f3 := (rebuild_primOK _ h.ok base _ (vec_length x) f1).wf
  have wf : ∀ {u v : Prim Flt} {k : Str}, u.WF → u.getChild k = .ok v → v.WF := fun {u v k} hu hk p m hm => by
    rw [Node.getChild_ok_iff] at hk
    exact hu _ _ ((Node.At_of_find hk).trans hm)
  refine ⟨r0, f1, fun b hb => ?_, fun m hm k hk => ?_⟩
  · obtain ⟨_, _, i, _, e⟩ := h.stock.box h.slash ((h.scope hF hb).1 (show b ∈ [b] by simp))
    obtain ⟨q0, g1, g2⟩ := sameGeometry_child f3 h.ok.wf (Solver.SameGeometry.symm f2) e
    exact ⟨q0, g1, isRect_geometry (r := ⟨0, 0, 1, 1⟩) (unitQuad_WF i) (wf f3 g1) (Solver.SameGeometry.symm g2)
      (unitQuad_isQuad i)⟩
  · have hk' : k ∈ (figMakes items).flatMap Make.points := List.mem_flatMap.mpr ⟨m, hm, hk⟩
    rw [h.flat Make.points] at hk'
    obtain ⟨_, _, i, _, e⟩ := h.stock.point h.slash hk'
    obtain ⟨q0, g1, g2⟩ := sameGeometry_child f3 h.ok.wf (Solver.SameGeometry.symm f2) e
    exact ⟨q0, g1, isPoint_geometry (a := (0, 0)) (wf h.ok.wf e) (wf f3 g1) (Solver.SameGeometry.symm g2)
      ⟨.refl _, rfl⟩⟩

theorem Ran.reach (h : Ran tool items s ts) (hF : FigOK items) (hT : ToolsFor tool items) (base : Nat) (P : Placement) :
    ∃ (y : Fin (dim s.layout) → ℝ) (ry : Prim Flt), rebuild s.layout base (vec y) = .ok ry ∧ PlacedIn items P ry := by
  obtain ⟨rs, m1, m2⟩ := C93_anywhere hF hT P
  have hstr : SameStructure s.layout.prim rs := by rw [← h.does.run]; exact m1.same
  obtain ⟨y, ry, e1, e2, e3⟩ := exists_param s.layout h.ok base m1.ok hstr m1.finite
  have wf : ∀ {u v : Prim Flt} {k : Str}, u.WF → u.getChild k = .ok v → v.WF := fun {u v k} hu hk p m hm => by
    rw [Node.getChild_ok_iff] at hk
    exact hu _ _ ((Node.At_of_find hk).trans hm)
  refine ⟨y, ry, e1, fun b hb => ?_, fun m hm k hk => ?_⟩
  · obtain ⟨q, k1, k2⟩ := m2.1 b hb
    obtain ⟨q', l1, l2⟩ := sameGeometry_child e2 m1.ok.wf e3 k1
    exact ⟨q', l1, isRect_geometry (wf m1.ok.wf k1) (wf e2 l1) (Solver.SameGeometry.symm l2) k2⟩
  · obtain ⟨q, k1, k2⟩ := m2.2 m hm k hk
    obtain ⟨q', l1, l2⟩ := sameGeometry_child e2 m1.ok.wf e3 k1
    exact ⟨q', l1, isPoint_geometry (wf m1.ok.wf k1) (wf e2 l1) (Solver.SameGeometry.symm l2) k2⟩

/-- The step from the default geometry. -/
theorem tan_unit (Q : Placement) (d : Demand) : DemandTan unitPlacement Q d ↔ d.First Q := by
  cases d with
  | label a kind twin v =>
    have h1 : labelOffset a twin unitPlacement kind = 0 := by cases kind <;> simp [labelOffset, unitPlacement]
    have h2 : (labelEdge a kind).run unitPlacement = 1 := by cases kind <;> simp [labelEdge, Edge.run, unitPlacement]
    simp only [DemandTan, Demand.First, h1, h2]
    constructor <;> intro h <;> linarith
  | _ => exact Iff.rfl

theorem spans_unit (d : Demand) : d.Spans unitPlacement := by
  cases d with
  | toLine sp e rev v => 
    obtain ⟨b, side⟩ := e
    cases side <;> simp [Demand.Spans, Edge.run, unitPlacement]
  | label a kind twin v => cases kind <;> simp [Demand.Spans, labelEdge, Edge.run, unitPlacement]
  | _ => trivial

theorem upright_label {P : Placement} {a : Str} {kind : AxisKind} {twin : Bool} {v : ℝ} :
    (Demand.label a kind twin v).Upright P ↔ labelOffset a twin P kind = v * (labelEdge a kind).run P := by
  cases kind <;> simp only [Demand.Upright, Demand.Holds, labelOffset, labelEdge, Edge.run] <;>
    constructor <;> intro h <;> linarith

/-- The step from a geometry that the first step reaches. -/
theorem tan_first {P Q : Placement} {d : Demand} (h : d.First P) (hs : d.Spans P)
    (hrun : ∀ a kind twin v, d = .label a kind twin v → (labelEdge a kind).run Q = (labelEdge a kind).run P) :
    DemandTan P Q d ↔ d.Upright Q := by
  cases d with
  | label a kind twin v =>
    rw [upright_label]
    simp only [DemandTan, hrun a kind twin v rfl]
    have h : labelOffset a twin P kind = v := h
    have hs : 0 < (labelEdge a kind).run P := hs
    rw [h]
    have e : v / (labelEdge a kind).run P - v + ((labelOffset a twin Q kind - v) * (labelEdge a kind).run P -
        v * ((labelEdge a kind).run P - (labelEdge a kind).run P)) / (labelEdge a kind).run P ^ 2
        = (labelOffset a twin Q kind - v * (labelEdge a kind).run P) / (labelEdge a kind).run P := by
      field_simp
      ring
    rw [e, div_eq_zero_iff, or_iff_left hs.ne', sub_eq_zero]
  | _ => exact Iff.rfl

theorem first_upright {P : Placement} {d : Demand} (hd : ¬ d.IsLabel) : d.First P ↔ d.Upright P := by
  cases d with
  | label a kind twin v => exact absurd trivial hd
  | _ => exact Iff.rfl

/-- Two steps. -/
theorem Ran.newton2 (h : Ran tool items s ts) (num : Numerics Flt) (hnum : Exact num) (hF : FigOK items)
    (hT : ToolsFor tool items) (htwo : ∀ d ∈ figDemands items, d.TwoStep)
    {P1 P2 : Placement} (hP1 : ∀ d ∈ figDemands items, d.First P1) (hP2 : ∀ d ∈ figDemands items, d.Upright P2)
    (hspan : ∀ Q : Placement, (∀ d ∈ figDemands items, ¬ d.IsLabel → d.Upright Q) → ∀ d ∈ figDemands items, d.Spans Q)
    (hrun : ∀ Q Q' : Placement, (∀ d ∈ figDemands items, ¬ d.IsLabel → d.Upright Q) →
      (∀ d ∈ figDemands items, ¬ d.IsLabel → d.Upright Q') → ∀ a kind twin v, .label a kind twin v ∈ figDemands items →
        (labelEdge a kind).run Q = (labelEdge a kind).run Q')
    (base : Nat) {A B : ℝ} (hA : 0 ≤ A) (hB : B < 1) {ax : Str} {kind : AxisKind} {twin : Bool} {v : ℝ}
    (hl : .label ax kind twin v ∈ figDemands items) (hv : A < |v|) (maxIter : Int) (hmax : 2 ≤ maxIter) :
    ∃ r info, solve num s.layout base (fin A) (fin B) maxIter k!"newton" = .ok (r, info) ∧ Moves tool items r ∧
      ∃ Q, PlacedIn items Q r ∧ ∀ d ∈ figDemands items, d.Upright Q := by
  have hne : figDemands items ≠ [] := List.ne_nil_of_mem hl
  obtain ⟨x, hx⟩ := finite_param h.ok h.finite
  obtain ⟨r0, f1, f2⟩ := h.unit hF (base := base) hx
  obtain ⟨y1, ry1, g1, g2⟩ := h.reach hF hT base P1
  obtain ⟨y2, ry2, g3, g4⟩ := h.reach hF hT base P2
  obtain ⟨m, M, r, hM, hr, ht, ht', _, hlab⟩ := h.tangent hF hT hne htwo f1 f2 (fun d _ => spans_unit d) g3 g4 hP2
  have free1 : ∀ {Q : Placement}, (∀ d ∈ figDemands items, d.First Q) → ∀ d ∈ figDemands items, ¬ d.IsLabel → d.Upright Q :=
    fun hQ d hd hn => (first_upright hn).mp (hQ d hd)
  obtain ⟨i, hi⟩ := hlab ax kind twin v hl
  have hi : r i = -v := by
    rw [hi]
    cases kind <;> simp [labelOffset, unitPlacement]
  obtain ⟨st, y, s1, s2, r', Q, k1, k2, k3⟩ := twostep_loop hnum hM hr (e := y1 - x)
    (ht' (y1 - x) ry1 P1 (by rw [add_sub_cancel]; exact g1) g2 fun d hd => (tan_unit P1 d).mpr (hP1 d hd))
    (good := fun y => ∃ r' Q, rebuild s.layout base (vec y) = .ok r' ∧ PlacedIn items Q r' ∧
      ∀ d ∈ figDemands items, d.Upright Q)
    (fun d hd => by
      obtain ⟨r', Q, k1, k2, k3⟩ := ht d hd
      have hQ : ∀ d ∈ figDemands items, d.First Q := fun d hd => (tan_unit Q d).mp (k3 d hd)
      have hS := hspan Q (free1 hQ)
      have htan : ∀ Q' : Placement, (∀ d ∈ figDemands items, DemandTan Q Q' d) ↔ ∀ d ∈ figDemands items, d.Upright Q' := by
        intro Q'
        have key : (∀ d ∈ figDemands items, ¬ d.IsLabel → d.Upright Q') → ∀ d ∈ figDemands items,
            (DemandTan Q Q' d ↔ d.Upright Q') := fun hu d hd => tan_first (hQ d hd) (hS d hd) (by
          rintro a k t w rfl
          exact hrun Q' Q hu (free1 hQ) a k t w hd)
        constructor
        · intro hz
          have hu : ∀ d ∈ figDemands items, ¬ d.IsLabel → d.Upright Q' := by
            intro d hd hn
            have := hz d hd
            cases d with
            | label a k t w => exact absurd trivial hn
            | _ => exact this
          exact fun d hd => (key hu d hd).mp (hz d hd)
        · intro hu
          exact fun d hd => (key (fun d hd _ => hu d hd) d hd).mpr (hu d hd)
      obtain ⟨m', N, rr, hN, hrr, hn, hn', _, _⟩ := h.tangent hF hT hne htwo k1 k2 hS g3 g4 hP2
      refine ⟨m', N, rr, y2 - (x + d), hN, hrr, hn' _ ry2 P2 (by rw [add_sub_cancel]; exact g3) g4 ((htan P2).mpr hP2),
        fun d' hd' => ?_⟩
      obtain ⟨r'', Q', l1, l2, l3⟩ := hn d' hd'
      have hQ' := (htan Q').mp l3
      obtain ⟨m'', N', r3, hN', hr3, _, _, hzero, _⟩ := h.tangent hF hT hne htwo l1 l2
        (hspan Q' fun d hd _ => hQ' d hd) g3 g4 hP2
      refine ⟨⟨r'', Q', l1, l2, hQ'⟩, m'', N', ?_, hN'⟩
      rw [hr3, hzero hQ'])
    (a := A) (b := B) (i := i) (by rw [hi, abs_neg]; exact hv) hA hB maxIter hmax
  refine ⟨r', ⟨st.absErrs, st.relErrs⟩, ?_, h.moves k1, Q, k2, k3⟩
  rw [(C59_dispatch num s.layout base (fin A) (fin B) maxIter).1]
  exact solveNewton_eq hx s1 (by rw [s2]; exact k1)

end Props

end MplLayout
