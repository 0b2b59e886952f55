import Verif.Lemmas.OneStepNewton
import Verif.Lemmas.OneStepSmooth
import Verif.Spec.FirstStep

/-!
# The first step of the Newton method, with any aspect ratios
-/

namespace MplLayout

open Flt Solver Props

/-- A box with an aspect ratio on its way. -/
theorem aspect_way {q : ℝ → Prim Flt} {r : Rect} (h : OnWay q r) (v : ℝ) :
    ∃ hs : List (ℝ → ℝ), (∀ᶠ t in nhds 0, Returns (cstr con.aspectRatio) [q t] [.num (fin v)] (hs.map (· t))) ∧
      ((∀ g ∈ hs, TanZero g) ↔ (r.x1 - r.x0) - (r.y1 - r.y0) = v - 1) := by
  have hval : ∀ t, (1 - t) + t * (r.y1 - r.y0) ≠ 0 → Returns (cstr con.aspectRatio) [q t] [.num (fin v)]
      [|(1 - t) + t * (r.x1 - r.x0)| / |(1 - t) + t * (r.y1 - r.y0)| - v] := by
    intro t ht
    have hq := h t
    have hne : (((1 - t) + t * r.x1, t * r.y0) : ℝ × ℝ) ≠ ((1 - t) + t * r.x1, (1 - t) + t * r.y1) := by
      intro e
      apply ht
      have := congrArg Prod.snd e
      simp only at this
      linarith
    have := aspect_call hq hne v
    rw [dist2_h, dist2_v] at this
    convert this using 5 <;> simp only [Rect.way] <;> ring
  have near : ∀ᶠ t : ℝ in nhds 0, 0 < (1 - t) + t * (r.y1 - r.y0) := by
    have hc : ContinuousAt (fun t : ℝ => (1 - t) + t * (r.y1 - r.y0)) 0 := by fun_prop
    have := hc.eventually_mem (IsOpen.mem_nhds isOpen_Ioi
      (show (1 - (0 : ℝ)) + 0 * (r.y1 - r.y0) ∈ Set.Ioi (0 : ℝ) by simp))
    simpa using this
  refine ⟨[fun t => |(1 - t) + t * (r.x1 - r.x0)| / |(1 - t) + t * (r.y1 - r.y0)| - v],
    near.mono fun t ht => hval t ht.ne', ?_⟩
  simp only [List.mem_singleton, forall_eq]
  have e : (fun t : ℝ => |(1 - t) + t * (r.x1 - r.x0)| / |(1 - t) + t * (r.y1 - r.y0)| - v) =ᶠ[nhds 0]
      fun t => (1 + ((r.x1 - r.x0) - 1) * t) / (1 + ((r.y1 - r.y0) - 1) * t) - v := by
    filter_upwards [abs_way (r.x1 - r.x0), abs_way (r.y1 - r.y0)] with t ht ht'
    rw [ht, ht']
  rw [tanZero_congr e]
  have hd : HasDerivAt (fun t : ℝ => (1 + ((r.x1 - r.x0) - 1) * t) / (1 + ((r.y1 - r.y0) - 1) * t) - v)
      ((r.x1 - r.x0) - (r.y1 - r.y0)) 0 := by
    have h1 := ((hasDerivAt_id (0 : ℝ)).const_mul ((r.x1 - r.x0) - 1)).const_add 1
    have h2 := ((hasDerivAt_id (0 : ℝ)).const_mul ((r.y1 - r.y0) - 1)).const_add 1
    have := (h1.fun_div h2 (by simp)).sub_const v
    simpa using this
  rw [tanZero_iff hd]
  constructor <;> intro h <;> simp at h ⊢ <;> linarith

theorem Demand.linear_affine {d : Demand} (h : d.kind.IsAffine) (P : Placement) : d.Linear P ↔ d.Holds P := by
  cases d <;> first | exact Iff.rfl | exact absurd h (by simp [kind, Shipped.IsAffine])

namespace Props

variable {tool : Shipped → Cons Flt} {items : List FigItem} {s : Session Flt} {ts : List (Make × Nat)}

/-- The value of a demand that is not affine, near the start. -/
theorem Ran.near_value (h : Ran tool items s ts) (hF : FigOK items) (hT : ToolsFor tool items) {base : Nat}
    {x e : Fin (dim s.layout) → ℝ} (hx : globalParam s.layout = .ok (vec x)) {r : ℝ → Prim Flt}
    (hr : ∀ t, rebuild s.layout base (vec (x + t • e)) = .ok (r t)) {P : Placement} (hP : PlacedIn items P (r 1))
    {d : Demand} (hd : d ∈ figDemands items) (hone : d.Steps) (hna : ¬ d.kind.IsAffine) :
    ∃ hs : List (ℝ → ℝ), (∀ᶠ t in nhds 0, (d.added tool).Value (r t) (hs.map fun g => fin (g t))) ∧
      ((∀ g ∈ hs, TanZero g) ↔ d.Linear P) := by
  cases d with
  | aspect b v =>
    obtain ⟨q, h1, h2⟩ := h.boxes_way hF hx hr hP (hF.boxed _ hd b (by simp [Demand.boxes]))
    obtain ⟨hs, e1, e2⟩ := aspect_way h2 v
    refine ⟨hs, e1.mono fun t ht => ⟨[q t], .cons (h1 t) .nil, ?_⟩, e2⟩
    have hc : tool .aspectRatio = cstr con.aspectRatio := Except.ok.inj ((hT _ hd).symm.trans ct_aspectRatio_eq)
    simp only [Demand.added, Demand.kind, hc]
    have : (hs.map (· t)).map fin = hs.map fun g => fin (g t) := by simp
    rw [← this]
    exact ht
  | _ =>
    obtain ⟨hs, e1, e2, _⟩ := h.way_value hF hT hx hr hP hd hone hna
    exact ⟨hs, e1, e2⟩

/-- There is a family for every demand. -/
theorem Ran.family_steps (h : Ran tool items s ts) (hF : FigOK items) (hT : ToolsFor tool items) {base : Nat}
    {x e : Fin (dim s.layout) → ℝ} (hx : globalParam s.layout = .ok (vec x)) {r : ℝ → Prim Flt}
    (hr : ∀ t, rebuild s.layout base (vec (x + t • e)) = .ok (r t)) {P : Placement} (hP : PlacedIn items P (r 1))
    {d : Demand} (hd : d ∈ figDemands items) (hone : d.Steps) (hst : d.Linear P)
    (hsm : Shipped.SmoothAt (r 0) d.kind) : ∃ gs, Family tool s.layout base d gs := by
  obtain ⟨T, hTr⟩ := rebuild_mapV s.layout h.ok base
  have hrT : ∀ t, r t = T.mapV (paramVal s.layout base _ (x + t • e)) := fun t =>
    Except.ok.inj ((hr t).symm.trans (hTr _))
  by_cases haff : d.kind.IsAffine
  · obtain ⟨prims, g1, g2, g3⟩ := Demand.meaning (h.moves (hr 1)).ok.wf (h.demandIn hF (h.moves (hr 1)) hP hd)
      (hF.params d hd)
    obtain ⟨v, hv, hz⟩ := satisfiedPy_call (hT d hd) ((g3 (regular_affine haff P)).mpr
      ((Demand.linear_affine haff P).mp hst))
    have hval : (d.added tool).Value (r 1) v := ⟨prims, g1, hv⟩
    rw [hrT] at hval
    obtain ⟨gs, f1, f2⟩ := value_family (hF.params d hd) (hT d hd)
      (affine_tame affF_lin (optVal_A (paramVal_aff s.layout base _)) haff (hT d hd)) (fun _ _ _ _ _ _ _ => trivial) hval
    refine ⟨gs, fun y r' hr' => ?_, fun _ g hg => ?_⟩
    · rw [hTr] at hr'
      rw [← Except.ok.inj hr']
      exact f2 y
    · rcases f1 g hg with hb | hg'
      · have := value_unique hval (f2 _)
        have := hz (g _) (by rw [this]; exact List.mem_map.mpr ⟨g, hg, rfl⟩)
        rw [hb] at this
        cases this
      · exact hg'
  · obtain ⟨hs, e1, _⟩ := h.near_value hF hT hx hr hP hd hone haff
    have hval := e1.self_of_nhds
    rw [hrT] at hval
    obtain ⟨gs, f1, f2⟩ := value_family (hF.params d hd) (hT d hd)
      (smooth_tame (optVal_A (paramVal_diff s.layout base _ x)) (zero := d.kind.MeasuresLength)
        (left := d.kind = .angle) id id (hT d hd)) (fun k p _ hp path q hq => by
          have hk : (r 0).getChild k = .ok (p.mapV (optVal s.layout base _ x)) := by
            rw [hrT, zero_smul, add_zero, show T.mapV (paramVal s.layout base _ x)
              = (T.mapV some).mapV (optVal s.layout base _ x) from by rw [Node.mapV_mapV]; rfl, Node.getChild_mapV, hp]
            rfl
          have hq' := (At_mapV (optVal s.layout base _ x)).mpr ⟨q, hq, rfl⟩
          refine ⟨fun hz path' n a b hn => hsm.1 hz k _ hk (path ++ path') n a b (hq'.trans hn),
            fun hz path' n a b hn => hsm.2 hz k _ hk (path ++ path') n a b (hq'.trans hn)⟩) hval
    refine ⟨gs, fun y r' hr' => ?_, fun ha => absurd ha haff⟩
    rw [hTr] at hr'
    rw [← Except.ok.inj hr']
    exact f2 y

/-- The tangents of a family. -/
theorem Ran.steps_tangent (h : Ran tool items s ts) (hF : FigOK items) (hT : ToolsFor tool items) {base : Nat}
    {x e : Fin (dim s.layout) → ℝ} (hx : globalParam s.layout = .ok (vec x)) {r : ℝ → Prim Flt}
    (hr : ∀ t, rebuild s.layout base (vec (x + t • e)) = .ok (r t)) {P : Placement} (hP : PlacedIn items P (r 1))
    {d : Demand} (hd : d ∈ figDemands items) (hone : d.Steps) {gs : List ((Fin (dim s.layout) → ℝ) → Flt)}
    (hgs : Family tool s.layout base d gs) :
    ((∀ g ∈ gs, TanF x e g) ↔ d.Linear P) ∧ ∀ g ∈ gs, ∃ a, g x = fin a := by
  by_cases haff : d.kind.IsAffine
  · have hone' : d.OneStep := by
      cases d with
      | aspect => exact absurd haff (by simp [Demand.kind, Shipped.IsAffine])
      | _ => exact hone
    obtain ⟨k1, _, k3⟩ := h.family_tangent hF hT hx hr hP hd hone' hgs
    refine ⟨k1.trans ?_, k3⟩
    rw [Demand.linear_affine haff, Demand.straight_affine haff]
  · obtain ⟨hs, e1, e2⟩ := h.near_value hF hT hx hr hP hd hone haff
    have eq : ∀ᶠ t in nhds (0 : ℝ), gs.map (· (x + t • e)) = hs.map fun g => fin (g t) := e1.mono fun t ht =>
      value_unique (hgs.value _ _ (hr t)) ht
    have hlen : gs.length = hs.length := by simpa using congrArg List.length eq.self_of_nhds
    have at' : ∀ (i : Nat) (h1 : i < gs.length) (h2 : i < hs.length),
        ∀ᶠ t in nhds (0 : ℝ), gs[i] (x + t • e) = fin (hs[i] t) := by
      intro i h1 h2
      refine eq.mono fun t ht => ?_
      have := congrArg (fun l => l[i]?) ht
      simpa [h1, h2] using this
    refine ⟨?_, fun g hg => ?_⟩
    · rw [← e2]
      constructor
      · intro hz g hg
        obtain ⟨i, hi, rfl⟩ := List.getElem_of_mem hg
        exact (tanF_iff (at' i (by omega) hi)).mp (hz _ (List.getElem_mem _))
      · intro hz g hg
        obtain ⟨i, hi, rfl⟩ := List.getElem_of_mem hg
        exact (tanF_iff (at' i hi (by omega))).mpr (hz _ (List.getElem_mem _))
    · obtain ⟨i, hi, rfl⟩ := List.getElem_of_mem hg
      have := (at' i hi (by omega)).self_of_nhds
      rw [zero_smul, add_zero] at this
      exact ⟨_, this⟩

/-- One step leads to a placement that satisfies the linear equations. -/
theorem Ran.first_step (h : Ran tool items s ts) (num : Numerics Flt) (hnum : Exact num) (hF : FigOK items)
    (hT : ToolsFor tool items) (hone : ∀ d ∈ figDemands items, d.Steps) (hne : figDemands items ≠ [])
    {P : Placement} (hP : ∀ d ∈ figDemands items, d.Linear P) (base : Nat) (a b : ℝ) :
    ∃ r info, solve num s.layout base (fin a) (fin b) 1 k!"newton" = .ok (r, info) ∧ Moves tool items r ∧
      ∃ Q, PlacedIn items Q r ∧ ∀ d ∈ figDemands items, d.Linear Q := by
  obtain ⟨x, hx⟩ := finite_param h.ok h.finite
  obtain ⟨r0, f1, f2⟩ := rebuild_self _ h.ok base hx
  have f3 := rebuild_primOK _ h.ok base _ (vec_length x) f1
  have hsm : ∀ d ∈ figDemands items, Shipped.SmoothAt r0 d.kind := fun d hd =>
    smoothAt_same h.ok.wf f3.wf f2 (h.smooth_start d)
  -- the way to the given placement
  obtain ⟨rs, m1, m2⟩ := C93_anywhere hF hT P
  have hstr : SameStructure s.layout.prim rs := by rw [← h.does.run]; exact m1.same
  obtain ⟨y, ry, e1, e2, e3⟩ := exists_param s.layout h.ok base m1.ok hstr m1.finite
  have hPy : PlacedIn items P ry := by
    refine ⟨fun b hb => ?_, fun m hm k hk => ?_⟩
    · obtain ⟨q, k1, k2⟩ := m2.1 b hb
      obtain ⟨q', l1, l2⟩ := sameGeometry_child e2 m1.ok.wf e3 k1
      have wf : ∀ {u v : Prim Flt} {k : Str}, u.WF → u.getChild k = .ok v → v.WF := fun {u v k} hu hk p m hm => by
        rw [Node.getChild_ok_iff] at hk
        exact hu _ _ ((Node.At_of_find hk).trans hm)
      exact ⟨q', l1, isRect_geometry (wf m1.ok.wf k1) (wf e2 l1) (Solver.SameGeometry.symm l2) k2⟩
    · obtain ⟨q, k1, k2⟩ := m2.2 m hm k hk
      obtain ⟨q', l1, l2⟩ := sameGeometry_child e2 m1.ok.wf e3 k1
      have wf : ∀ {u v : Prim Flt} {k : Str}, u.WF → u.getChild k = .ok v → v.WF := fun {u v k} hu hk p m hm => by
        rw [Node.getChild_ok_iff] at hk
        exact hu _ _ ((Node.At_of_find hk).trans hm)
      exact ⟨q', l1, isPoint_geometry (wf m1.ok.wf k1) (wf e2 l1) (Solver.SameGeometry.symm l2) k2⟩
  have hr : ∀ e : Fin (dim s.layout) → ℝ, ∀ t : ℝ, ∃ r, rebuild s.layout base (vec (x + t • e)) = .ok r :=
    fun e t => by
      obtain ⟨r, e1, _⟩ := rebuild_structure s.layout h.ok base (vec (x + t • e)) (vec_length _)
      exact ⟨r, e1⟩
  choose rr hrr using hr
  have hr := hrr (y - x)
  have hr1 : rr (y - x) 1 = ry := by
    have := hr 1
    rw [one_smul, add_sub_cancel, e1] at this
    exact (Except.ok.inj this).symm
  have hr0 : rr (y - x) 0 = r0 := by
    have := hr 0
    rw [zero_smul, add_zero, f1] at this
    exact (Except.ok.inj this).symm
  have hPr : PlacedIn items P (rr (y - x) 1) := by rw [hr1]; exact hPy
  have hfam : ∀ d, ∃ gs, d ∈ figDemands items → Family tool s.layout base d gs := by
    intro d
    by_cases hd : d ∈ figDemands items
    · obtain ⟨gs, hgs⟩ := h.family_steps hF hT hx hr hPr hd (hone d hd) (hP d hd) (by rw [hr0]; exact hsm d hd)
      exact ⟨gs, fun _ => hgs⟩
    · exact ⟨[], fun h => absurd h hd⟩
  choose gs hgs using hfam
  have hres := h.residual hF hT hne (base := base) fun d hd => (hgs d hd).value
  have htan := fun d (hd : d ∈ figDemands items) => h.steps_tangent hF hT hx hr hPr hd (hone d hd) (hgs d hd)
  obtain ⟨m, M, hM⟩ := smooth_jacobian_here 0 base h.layout h.ok f1 (fig_uses hF hT hsm) (hres x) (by
    intro v hv
    obtain ⟨g, hg, rfl⟩ := List.mem_map.mp hv
    obtain ⟨d, hd, hg⟩ := List.mem_flatMap.mp hg
    exact (htan d hd).2 g hg)
  have hM0 := hM
  obtain ⟨F, hF1, hF2⟩ := hM0
  have hF0 := hF1.self_of_nhds
  have tan : ∀ d, M.mulVec d = -F x ↔ ∀ g ∈ (figDemands items).flatMap gs, TanF x d g := fun d =>
    tangents hM hF0 hres
  have he : M.mulVec (y - x) = -F x := (tan _).mpr fun g hg => by
    obtain ⟨d, hd, hg⟩ := List.mem_flatMap.mp hg
    exact (htan d hd).1.mpr (hP d hd) g hg
  -- the step
  obtain ⟨e, hle, h1⟩ := hnum.lstsq M (-F x)
  have hstep : M.mulVec e = -F x := by
    have h0 := hle.least (y - x)
    rw [he, sub_self, sq_zero.mpr rfl] at h0
    exact sub_eq_zero.mp (sq_zero.mp (le_antisymm h0 (sq_nonneg' _)))
  have ht : ∀ d ∈ figDemands items, ∀ g ∈ gs d, TanF x e g := fun d hd g hg =>
    (tan e).mp hstep g (List.mem_flatMap.mpr ⟨d, hd, hg⟩)
  obtain ⟨Q, hQ⟩ := h.placed hF (h.moves (hrr e 1)) (fun b hb q hq => by
    have haff : (Demand.box b).kind.IsAffine := trivial
    obtain ⟨prims, p1, p2⟩ := (hgs _ hb).value _ _ (hrr e 1)
    obtain rfl : prims = [q] := prims_unique (ks := [b]) p1 (.cons hq .nil)
    refine ⟨tool .box, hT _ hb, _, p2, fun y hy => ?_⟩
    obtain ⟨g, hg, rfl⟩ := List.mem_map.mp hy
    obtain ⟨a, c, hg'⟩ := (hgs _ hb).affine haff g hg
    have := (tanF_affine hg').mp (ht _ hb g hg)
    rw [one_smul]
    exact this)
  have hlin : ∀ d ∈ figDemands items, d.Linear Q := fun d hd =>
    (h.steps_tangent hF hT hx (hrr e) hQ hd (hone d hd) (hgs d hd)).1.mp (ht d hd)
  -- the loop
  have hc : continues (fin a) (fin b) 1 ({ param := vec x } : NewtonState Flt) = true := by
    simp only [continues, gtTol, Bool.and_eq_true, decide_eq_true_eq]
    refine ⟨⟨?_, ?_⟩, by simp⟩ <;> simp [PyNum.le]
  have e2 := newtonStep_vec hF0 (hnum.jacobian _ x M hM) h1 { param := vec x } rfl
  generalize hs1 : (NewtonState.mk (vec (x + e)) _ _ _ _ _ : NewtonState Flt) = s1 at e2
  have p1 : s1.param = vec (x + e) := by rw [← hs1]
  have p2 : s1.n = 1 := by rw [← hs1]
  have hc1 : continues (fin a) (fin b) 1 s1 = false := by
    simp [continues, p2]
  have loop : newtonLoop num (globalRes s.layout base) (fin a) (fin b) 1 ((1 : Int).toNat + 1) { param := vec x }
      = some (.ok s1) := by
    show newtonLoop num (globalRes s.layout base) (fin a) (fin b) 1 (1 + 1) { param := vec x } = _
    simp only [newtonLoop, hc, if_true, e2, hc1]
    rfl
  refine ⟨rr e 1, ⟨s1.absErrs, s1.relErrs⟩, ?_, h.moves (hrr e 1), Q, hQ, hlin⟩
  rw [(C59_dispatch num s.layout base (fin a) (fin b) 1).1]
  refine solveNewton_eq hx loop ?_
  rw [p1, ← hrr e 1, one_smul]

end Props

end MplLayout
