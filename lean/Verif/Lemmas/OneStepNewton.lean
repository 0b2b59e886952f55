import Verif.Lemmas.OneStepFigure

/-!
# One Newton step solves a figure
-/

namespace MplLayout.Props

open Flt Solver

variable {tool : Shipped → Cons Flt} {items : List FigItem} {s : Session Flt} {ts : List (Make × Nat)}

theorem fig_uses (hF : FigOK items) (hT : ToolsFor tool items) {kind : Shipped → Prop}
    (hk : ∀ d ∈ figDemands items, kind d.kind) :
    ∀ op ∈ (Session.start : Session Flt).ops (figProgram tool 0 items), op.Uses kind :=
  Session.ops_all finite_consts (fun _ _ h => h) (fun _ h => h) ProgOK.start
    (fun st hs => (figProgram_top hF st hs).1) (fun st hs => finite_all (figProgram_top hF st hs).2)
    fun c ks ps key hm => by
      rcases figProgram_mem tool items 0 _ hm with ⟨m, _, h | ⟨i, h⟩⟩ | ⟨d, hd, h⟩
      · cases h
      · cases h
      · cases h
        exact ⟨d.kind, hT d hd, (Demand.paramsOK (hF.params d hd)).1, hk d hd⟩

theorem fig_sensible (hF : FigOK items) (hT : ToolsFor tool items) :
    ∀ op ∈ (Session.start : Session Flt).ops (figProgram tool 0 items), op.Sensible :=
  Session.ops_all finite_consts (fun _ _ h => h) (fun _ h => h) ProgOK.start
    (fun st hs => (figProgram_top hF st hs).1) (fun st hs => finite_all (figProgram_top hF st hs).2)
    fun c ks ps key hm => by
      rcases figProgram_mem tool items 0 _ hm with ⟨m, _, h | ⟨i, h⟩⟩ | ⟨d, hd, h⟩
      · cases h
      · cases h
      · cases h
        exact ⟨d.kind, hT d hd, Demand.paramsOK (hF.params d hd)⟩

theorem fig_topLevel (hF : FigOK items) :
    ∀ op ∈ (Session.start : Session Flt).ops (figProgram tool 0 items), op.TopLevel :=
  Session.ops_all finite_consts (fun _ _ _ => trivial) (fun _ _ => trivial) ProgOK.start
    (fun st hs => (figProgram_top hF st hs).1) (fun st hs => finite_all (figProgram_top hF st hs).2)
    fun c ks ps key hm => by
      rcases figProgram_mem tool items 0 _ hm with ⟨m, _, h | ⟨i, h⟩⟩ | ⟨d, hd, h⟩
      · cases h
      · cases h
      · cases h
        show '/' ∉ ([] : Str)
        simp

theorem Ran.layout (h : Ran tool items s ts) :
    s.layout = (Layout.empty 0).run ((Session.start : Session Flt).ops (figProgram tool 0 items)) := by
  rw [← h.does.run, Session.run_ops]; rfl

theorem Ran.added (h : Ran tool items s ts) :
    (Layout.empty 0).added ((Session.start : Session Flt).ops (figProgram tool 0 items))
      = (figDemands items).map (Demand.added tool) := by
  rw [← h.does.cons]
  exact (Session.constraints_ops (Session.start : Session Flt) (figProgram tool 0 items)).symm

/-- The residual is made of the values of the demands. -/
theorem Ran.residual (h : Ran tool items s ts) (hF : FigOK items) (hT : ToolsFor tool items)
    (hne : figDemands items ≠ []) {base : Nat} {gs : Demand → List ((Fin (dim s.layout) → ℝ) → Flt)}
    (hgs : ∀ d ∈ figDemands items, ∀ y r, rebuild s.layout base (vec y) = .ok r →
      (d.added tool).Value r ((gs d).map (· y))) (y : Fin (dim s.layout) → ℝ) :
    globalRes s.layout base (vec y) = .ok (((figDemands items).flatMap gs).map (· y)) := by
  obtain ⟨r, e1, e2⟩ := rebuild_structure s.layout h.ok base (vec y) (vec_length y)
  have hw := (rebuild_primOK _ h.ok base _ (vec_length y) e1).wf
  simp only [globalRes, e1, bind, Except.bind]
  have hroot : ∀ k p, s.layout.prim.getChild k = .ok p → ∃ p', r.getChild k = .ok p' ∧ p'.ty = p.ty := by
    intro k p hp
    rw [Node.getChild_ok_iff, Node.find_iff_At h.ok.wf] at hp
    obtain ⟨p', hp'⟩ := (e2.paths _).mp ⟨p, hp⟩
    refine ⟨p', ?_, (e2.nodes _ _ _ hp hp').1.symm⟩
    rw [Node.getChild_ok_iff, Node.find_iff_At hw]
    exact hp'
  have := C50_residual_partial 0 _ (fun op ho => Sensible.regular (fig_sensible (tool := tool) hF hT op ho))
    (fig_topLevel hF) r (by rw [← h.layout]; exact hroot) (((figDemands items).flatMap gs).map (· y))
  rw [← h.layout, h.added] at this
  rw [this]
  refine ⟨by simpa using hne, (figDemands items).map fun d => (gs d).map (· y), ?_, ?_⟩
  · rw [List.forall₂_map_left_iff, List.forall₂_map_right_iff, List.forall₂_same]
    exact fun d hd => hgs d hd y r e1
  · rw [List.map_flatMap, List.flatMap_def]

/-- The residual is differentiable where the values are finite and the lines that are measured are not points. -/
theorem Ran.jacobian_at (h : Ran tool items s ts) (hF : FigOK items) (hT : ToolsFor tool items)
    (hne : figDemands items ≠ []) {base : Nat} {gs : Demand → List ((Fin (dim s.layout) → ℝ) → Flt)}
    (hgs : ∀ d ∈ figDemands items, ∀ y r, rebuild s.layout base (vec y) = .ok r →
      (d.added tool).Value r ((gs d).map (· y))) {x : Fin (dim s.layout) → ℝ} {r : Prim Flt}
    (hr : rebuild s.layout base (vec x) = .ok r)
    (hz : ∀ d ∈ figDemands items, d.kind.MeasuresLength → ∀ k ∈ d.keys, ∀ q, r.getChild k = .ok q →
      Prim.NoZeroLines q)
    (hfin : ∀ d ∈ figDemands items, ∀ g ∈ gs d, ∃ a, g x = fin a) :
    ∃ (m : Nat) (M : Matrix (Fin m) (Fin (dim s.layout)) ℝ), IsJacobian (globalRes s.layout base) x M := by
  obtain ⟨T, hTr⟩ := rebuild_mapV s.layout h.ok base
  have hrT : r = T.mapV (paramVal s.layout base _ x) := Except.ok.inj (hr.symm.trans (hTr _))
  have key : ∀ d, ∃ gs' : List ((Fin (dim s.layout) → ℝ) → Flt), d ∈ figDemands items → (∀ g ∈ gs', DiffC x g) ∧
      (∀ y r, rebuild s.layout base (vec y) = .ok r → (d.added tool).Value r (gs'.map (· y))) ∧
      ∀ g ∈ gs', ∃ a, g x = fin a := by
    intro d
    by_cases hd : d ∈ figDemands items
    swap
    · exact ⟨[], fun h => absurd h hd⟩
    have hval0 := hgs d hd x r hr
    have hval := hval0
    rw [hrT] at hval
    obtain ⟨gs', f1, f2⟩ := value_family (hF.params d hd) (hT d hd)
      (smooth_tame (optVal_A (paramVal_diff s.layout base _ x)) (zero := d.kind.MeasuresLength)
        (left := False) id (fun e => absurd e (by cases d <;> simp [Demand.kind])) (hT d hd))
      (fun k p hkd hp path q hq => by
          have hk : r.getChild k = .ok (p.mapV (optVal s.layout base _ x)) := by
            rw [hrT, show T.mapV (paramVal s.layout base _ x)
              = (T.mapV some).mapV (optVal s.layout base _ x) from by rw [Node.mapV_mapV]; rfl, Node.getChild_mapV, hp]
            rfl
          have hq' := (At_mapV (optVal s.layout base _ x)).mpr ⟨q, hq, rfl⟩
          exact ⟨fun hm path' n a b hn => hz d hd hm k hkd _ hk (path ++ path') n a b (hq'.trans hn),
            fun hl => hl.elim⟩) hval
    have hv : ∀ y r, rebuild s.layout base (vec y) = .ok r → (d.added tool).Value r (gs'.map (· y)) := by
      intro y r' hr'
      rw [hTr] at hr'
      rw [← Except.ok.inj hr']
      exact f2 y
    refine ⟨gs', fun _ => ⟨f1, hv, fun g hg => ?_⟩⟩
    have := value_unique hval0 (hv x r hr)
    have hm : g x ∈ (gs d).map (· x) := by rw [this]; exact List.mem_map.mpr ⟨g, hg, rfl⟩
    obtain ⟨g', hg', e⟩ := List.mem_map.mp hm
    obtain ⟨a, ha⟩ := hfin d hd g' hg'
    exact ⟨a, e ▸ ha⟩
  choose gs' hgs' using key
  refine jacobian_of_diff (gs := (figDemands items).flatMap gs')
    (h.residual hF hT hne fun d hd => (hgs' d hd).2.1) (fun g hg => ?_) fun g hg => ?_
  · obtain ⟨d, hd, hg⟩ := List.mem_flatMap.mp hg
    exact (hgs' d hd).1 g hg
  · obtain ⟨d, hd, hg⟩ := List.mem_flatMap.mp hg
    exact (hgs' d hd).2.2 g hg

/-- One step leads to a placement that satisfies all demands. -/
theorem Ran.step (h : Ran tool items s ts) (hF : FigOK items) (hT : ToolsFor tool items)
    (hone : ∀ d ∈ figDemands items, d.OneStep) {base : Nat} {gs : Demand → List ((Fin (dim s.layout) → ℝ) → Flt)}
    (hgs : ∀ d ∈ figDemands items, Family tool s.layout base d (gs d)) {x e : Fin (dim s.layout) → ℝ}
    (hx : globalParam s.layout = .ok (vec x)) (ht : ∀ d ∈ figDemands items, ∀ g ∈ gs d, TanF x e g)
    (hsol : ∀ Q : Placement, (∀ d ∈ figDemands items, d.Straight Q) → ∀ d ∈ figDemands items, d.Solid Q) :
    ∃ r P, rebuild s.layout base (vec (x + e)) = .ok r ∧ PlacedIn items P r ∧
      (∀ d ∈ figDemands items, d.Straight P) ∧ ∀ d ∈ figDemands items, ∀ g ∈ gs d, g (x + e) = fin 0 := by
  have hr : ∀ t : ℝ, ∃ r, rebuild s.layout base (vec (x + t • e)) = .ok r := fun t => by
    obtain ⟨r, e1, _⟩ := rebuild_structure s.layout h.ok base (vec (x + t • e)) (vec_length _)
    exact ⟨r, e1⟩
  choose r hr using hr
  obtain ⟨P, hP⟩ := h.placed hF (h.moves (hr 1)) (fun b hb q hq => by
    have haff : (Demand.box b).kind.IsAffine := trivial
    obtain ⟨prims, p1, p2⟩ := (hgs _ hb).value _ _ (hr 1)
    obtain rfl : prims = [q] := prims_unique (ks := [b]) p1 (.cons hq .nil)
    refine ⟨tool .box, hT _ hb, _, p2, fun y hy => ?_⟩
    obtain ⟨g, hg, rfl⟩ := List.mem_map.mp hy
    obtain ⟨a, c, hg'⟩ := (hgs _ hb).affine haff g hg
    have := (tanF_affine hg').mp (ht _ hb g hg)
    rw [one_smul]
    exact this)
  have hst : ∀ d ∈ figDemands items, d.Straight P := fun d hd =>
    (h.family_tangent hF hT hx hr hP hd (hone d hd) (hgs d hd)).1.mp (ht d hd)
  refine ⟨r 1, P, by rw [← hr 1, one_smul], hP, hst, fun d hd =>
    (h.family_tangent hF hT hx hr hP hd (hone d hd) (hgs d hd)).2.1 (hst d hd) (hsol P hst d hd)⟩

/-- The Newton method reaches a solution in one step and stays there. -/
theorem Ran.newton (h : Ran tool items s ts) (num : Numerics Flt) (hnum : Exact num) (hF : FigOK items)
    (hT : ToolsFor tool items) (hone : ∀ d ∈ figDemands items, d.OneStep) (hne : figDemands items ≠ [])
    {P : Placement} (hP : ∀ d ∈ figDemands items, d.Straight P)
    (hsol : ∀ Q : Placement, (∀ d ∈ figDemands items, d.Straight Q) → ∀ d ∈ figDemands items, d.Solid Q)
    (hs0 : ∀ d ∈ figDemands items, Shipped.SmoothAt s.layout.prim d.kind)
    (hs1 : ∀ r Q, Moves tool items r → PlacedIn items Q r → (∀ d ∈ figDemands items, d.Straight Q) →
      ∀ d ∈ figDemands items, d.kind.MeasuresLength → ∀ k ∈ d.keys, ∀ q, r.getChild k = .ok q → Prim.NoZeroLines q)
    (base : Nat) (a b : ℝ) (maxIter : Int) (hmax : 1 ≤ maxIter) :
    ∃ r info, solve num s.layout base (fin a) (fin b) maxIter k!"newton" = .ok (r, info) ∧ Moves tool items r ∧
      ∃ Q, PlacedIn items Q r ∧ ∀ d ∈ figDemands items, d.Straight Q := by
  obtain ⟨x, hx⟩ := finite_param h.ok h.finite
  obtain ⟨r0, f1, f2⟩ := rebuild_self _ h.ok base hx
  have f3 := rebuild_primOK _ h.ok base _ (vec_length x) f1
  have hsm : ∀ d ∈ figDemands items, Shipped.SmoothAt r0 d.kind := fun d hd =>
    smoothAt_same h.ok.wf f3.wf f2 (hs0 d hd)
  -- the way to the given placement
  obtain ⟨rs, m1, m2⟩ := C93_anywhere hF hT P
  have hstr : SameStructure s.layout.prim rs := by rw [← h.does.run]; exact m1.same
  obtain ⟨y, ry, e1, e2, e3⟩ := exists_param s.layout h.ok base m1.ok hstr m1.finite
  have hPy : PlacedIn items P ry := by
    refine ⟨fun b hb => ?_, fun m hm k hk => ?_⟩
    · obtain ⟨q, k1, k2⟩ := m2.1 b hb
      obtain ⟨q', l1, l2⟩ := sameGeometry_child e2 m1.ok.wf e3 k1
      have wf : ∀ {u v : Prim Flt} {k : Str}, u.WF → u.getChild k = .ok v → v.WF := fun {u v k} hu hk p m hm => by
        rw [Node.getChild_ok_iff] at hk
        exact hu _ _ ((Node.At_of_find hk).trans hm)
      exact ⟨q', l1, isRect_geometry (wf m1.ok.wf k1) (wf e2 l1) (Solver.SameGeometry.symm l2) k2⟩
    · obtain ⟨q, k1, k2⟩ := m2.2 m hm k hk
      obtain ⟨q', l1, l2⟩ := sameGeometry_child e2 m1.ok.wf e3 k1
      have wf : ∀ {u v : Prim Flt} {k : Str}, u.WF → u.getChild k = .ok v → v.WF := fun {u v k} hu hk p m hm => by
        rw [Node.getChild_ok_iff] at hk
        exact hu _ _ ((Node.At_of_find hk).trans hm)
      exact ⟨q', l1, isPoint_geometry (wf m1.ok.wf k1) (wf e2 l1) (Solver.SameGeometry.symm l2) k2⟩
  have hr : ∀ t : ℝ, ∃ r, rebuild s.layout base (vec (x + t • (y - x))) = .ok r := fun t => by
    obtain ⟨r, e1, _⟩ := rebuild_structure s.layout h.ok base (vec (x + t • (y - x))) (vec_length _)
    exact ⟨r, e1⟩
  choose r hr using hr
  have hr1 : r 1 = ry := by
    have := hr 1
    rw [one_smul, add_sub_cancel, e1] at this
    exact (Except.ok.inj this).symm
  have hr0 : r 0 = r0 := by
    have := hr 0
    rw [zero_smul, add_zero, f1] at this
    exact (Except.ok.inj this).symm
  have hPr : PlacedIn items P (r 1) := by rw [hr1]; exact hPy
  have hfam : ∀ d, ∃ gs, d ∈ figDemands items → Family tool s.layout base d gs := by
    intro d
    by_cases hd : d ∈ figDemands items
    · obtain ⟨gs, hgs⟩ := h.family hF hT hx hr hPr hd (hone d hd) (hP d hd) (by rw [hr0]; exact hsm d hd)
      exact ⟨gs, fun _ => hgs⟩
    · exact ⟨[], fun h => absurd h hd⟩
  choose gs hgs using hfam
  have hres := h.residual hF hT hne (base := base) fun d hd => (hgs d hd).value
  have htan := fun d (hd : d ∈ figDemands items) => h.family_tangent hF hT hx hr hPr hd (hone d hd) (hgs d hd)
  obtain ⟨m, M, hM⟩ := smooth_jacobian_here 0 base h.layout h.ok f1 (fig_uses hF hT hsm) (hres x) (by
    intro v hv
    obtain ⟨g, hg, rfl⟩ := List.mem_map.mp hv
    obtain ⟨d, hd, hg⟩ := List.mem_flatMap.mp hg
    exact (htan d hd).2.2 g hg)
  have hM0 := hM
  obtain ⟨F, hF1, hF2⟩ := hM0
  have hF0 := hF1.self_of_nhds
  have tan : ∀ d, M.mulVec d = -F x ↔ ∀ g ∈ (figDemands items).flatMap gs, TanF x d g := fun d =>
    tangents hM hF0 hres
  have he : M.mulVec (y - x) = -F x := (tan _).mpr fun g hg => by
    obtain ⟨d, hd, hg⟩ := List.mem_flatMap.mp hg
    exact (htan d hd).1.mpr (hP d hd) g hg
  have hstep : ∀ d, M.mulVec d = -F x → ∃ r P, rebuild s.layout base (vec (x + d)) = .ok r ∧ PlacedIn items P r ∧
      (∀ d ∈ figDemands items, d.Straight P) ∧ ∀ d' ∈ figDemands items, ∀ g ∈ gs d', g (x + d) = fin 0 := fun d hd =>
    h.step hF hT hone hgs hx (fun d' hd' g hg => (tan d).mp hd g (List.mem_flatMap.mpr ⟨d', hd', hg⟩)) hsol
  obtain ⟨st, d, s1, s2, s3⟩ := onestep_loop (m' := ((figDemands items).flatMap gs).length) hnum hM hF0 he
    (fun d hd => by
      obtain ⟨r', Q, k1, k2, k3, k4⟩ := hstep d hd
      have hz : ∀ v ∈ ((figDemands items).flatMap gs).map (· (x + d)), v = fin 0 := by
        intro v hv
        obtain ⟨g, hg, rfl⟩ := List.mem_map.mp hv
        obtain ⟨d', hd', hg⟩ := List.mem_flatMap.mp hg
        exact k4 d' hd' g hg
      have e0 : globalRes s.layout base (vec (x + d))
          = .ok (vec (0 : Fin ((figDemands items).flatMap gs).length → ℝ)) := by
        rw [hres]
        congr 1
        apply List.ext_getElem
        · simp [vec]
        · intro i h1 h2
          rw [hz _ (List.getElem_mem _)]
          simp [vec]
      refine ⟨e0, ?_⟩
      obtain ⟨m', N, hN⟩ := h.jacobian_at hF hT hne (fun d hd => (hgs d hd).value) k1
        (hs1 r' Q (h.moves k1) k2 k3) (fun d' hd' g hg => ⟨0, k4 d' hd' g hg⟩)
      have hm' : m' = ((figDemands items).flatMap gs).length := by
        obtain ⟨F', q1, _⟩ := hN
        have := q1.self_of_nhds
        rw [e0] at this
        simpa [vec] using (congrArg List.length (Except.ok.inj this)).symm
      subst hm'
      exact ⟨N, hN⟩) a b maxIter hmax
  obtain ⟨r', Q, k1, k2, k3, k4⟩ := hstep d s3
  refine ⟨r', ⟨st.absErrs, st.relErrs⟩, ?_, h.moves k1, Q, k2, k3⟩
  rw [(C59_dispatch num s.layout base (fin a) (fin b) maxIter).1]
  exact solveNewton_eq hx s1 (by rw [s2]; exact k1)

end MplLayout.Props
