import Verif.Lemmas.OneStepSolve

/-!
# Figures on the way from the default geometry
-/

namespace MplLayout.Props

open Flt Solver

variable {tool : Shipped → Cons Flt} {items : List FigItem} {s : Session Flt} {ts : List (Make × Nat)}

/-- If the boxes are boxes, everything has a place. -/
theorem Ran.placed (h : Ran tool items s ts) (hF : FigOK items) {r : Prim Flt} (hr : Moves tool items r)
    (hbox : ∀ b, .box b ∈ figDemands items → ∀ q, r.getChild b = .ok q → SatisfiedPy ct.box [q] []) :
    ∃ P, PlacedIn items P r := by
  have hS := h.solved hr
  have boxes : ∀ b, ∃ R : Rect, .box b ∈ figDemands items → ∃ q, r.getChild b = .ok q ∧ IsRect q R := by
    intro b
    by_cases hb : Demand.box b ∈ figDemands items
    · obtain ⟨t, ht, i, hi, e⟩ := h.stock.box h.slash ((h.scope hF hb).1 (show b ∈ [b] by simp))
      obtain ⟨at1, q, g1, at2⟩ := hS.getChild e
      obtain ⟨A, B, C, D, hq⟩ := hS.quad at1 at2 (unitQuad_isQuad i) (h.loops _ _ at1 (by
        show PrimType.IsA .quadrilateral .polygon
        exact (PrimType.sub_iff _ _).mp (by decide)))
      have hbox := hbox b hb q g1
      rw [C33_box hq] at hbox
      obtain ⟨x0, y0, x1, y1, rfl, rfl, rfl, rfl⟩ := hbox
      exact ⟨⟨x0, y0, x1, y1⟩, fun _ => ⟨q, g1, hq⟩⟩
    · exact ⟨⟨0, 0, 0, 0⟩, fun h => absurd h hb⟩
  have points : ∀ k, ∃ u : ℝ × ℝ, ∀ m ∈ figMakes items, k ∈ m.points → ∃ p, r.getChild k = .ok p ∧ IsPoint p u := by
    intro k
    by_cases hk : k ∈ (figMakes items).flatMap Make.points
    · rw [h.flat Make.points] at hk
      obtain ⟨t, ht, i, hi, e⟩ := h.stock.point h.slash hk
      obtain ⟨at1, q, g1, at2⟩ := hS.getChild e
      obtain ⟨u, hu⟩ := hS.point at1 at2 (u := (0, 0)) ⟨.refl _, rfl⟩
      exact ⟨u, fun _ _ _ => ⟨q, g1, hu⟩⟩
    · exact ⟨(0, 0), fun m hm hkm => absurd (List.mem_flatMap.mpr ⟨m, hm, hkm⟩) hk⟩
  choose R hR using boxes
  choose u hu using points
  exact ⟨⟨R, u⟩, hR, fun m hm k hk => hu k m hm hk⟩

/-- The geometry for a vector of coordinates. -/
theorem Ran.moves (h : Ran tool items s ts) {base : Nat} {x : Fin (dim s.layout) → ℝ} {r : Prim Flt}
    (hr : rebuild s.layout base (vec x) = .ok r) : Moves tool items r := by
  refine ⟨rebuild_primOK _ h.ok base _ (vec_length x) hr, ?_, rebuild_finite _ h.ok base x hr⟩
  obtain ⟨r', e1, e2⟩ := rebuild_structure s.layout h.ok base (vec x) (vec_length x)
  rw [hr] at e1
  cases e1
  rw [h.does.run]
  exact e2

theorem rect_unique {q : Prim Flt} {r r' : Rect} (h : IsRect q r) (h' : IsRect q r') : r = r' := by
  obtain ⟨a, b, c, d⟩ := isQuad_unique h h'
  cases r; cases r'
  simp only [Prod.mk.injEq] at a b c d
  simp only [Rect.mk.injEq]
  exact ⟨a.1, a.2, b.1, c.2⟩

/-- The boxes on the way. -/
theorem Ran.boxes_way (h : Ran tool items s ts) (hF : FigOK items) {base : Nat} {x d : Fin (dim s.layout) → ℝ}
    (hx : globalParam s.layout = .ok (vec x)) {r : ℝ → Prim Flt}
    (hr : ∀ t, rebuild s.layout base (vec (x + t • d)) = .ok (r t)) {P : Placement} (hP : PlacedIn items P (r 1))
    {b : Str} (hb : .box b ∈ figDemands items) :
    ∃ q : ℝ → Prim Flt, (∀ t, (r t).getChild b = .ok (q t)) ∧ OnWay q (P.box b) := by
  have key : ∀ t, ∃ q, (r t).getChild b = .ok q ∧ IsRect q ((P.box b).way t) := by
    intro t
    obtain ⟨R, e0, e1, e2⟩ := rebuild_mix (t := t) s.layout h.ok base x (x + d)
    have h2 : (1 - t) • x + t • (x + d) = x + t • d := by
      rw [sub_smul, one_smul, smul_add]; abel
    rw [h2, hr] at e2
    have h1 := hr 1
    rw [one_smul, e1] at h1
    obtain ⟨rs, f1, f2⟩ := rebuild_self _ h.ok base hx
    obtain rfl := Except.ok.inj (f1.symm.trans e0)
    have f3 := (rebuild_primOK _ h.ok base _ (vec_length x) f1).wf
    obtain ⟨_, _, i, _, e⟩ := h.stock.box h.slash ((h.scope hF hb).1 (show b ∈ [b] by simp))
    obtain ⟨q0, g1, g2⟩ := sameGeometry_child f3 h.ok.wf (Solver.SameGeometry.symm f2) e
    obtain ⟨q1, k1, k2⟩ := hP.1 b hb
    rw [← Except.ok.inj h1, Node.getChild_mapV] at k1
    rw [Node.getChild_mapV] at g1
    cases hR : R.getChild b with
    | error e => rw [hR] at g1; cases g1
    | ok m =>
      rw [hR] at g1 k1
      obtain rfl := Except.ok.inj g1
      obtain rfl := Except.ok.inj k1
      refine ⟨m.mapV (mixF t 2), by rw [Except.ok.inj e2, Node.getChild_mapV, hR]; rfl, isRect_mix ?_ k2⟩
      have hw : ∀ {p : List Str} {u v : Prim Flt}, u.WF → u.At p v → v.WF := fun hu hp p' m' hm' => hu _ _ (hp.trans hm')
      refine isRect_geometry (r := ⟨0, 0, 1, 1⟩) (unitQuad_WF i) ?_ (Solver.SameGeometry.symm g2) (unitQuad_isQuad i)
      have hq : (R.mapV (mixF t 0)).getChild b = .ok (m.mapV (mixF t 0)) := by rw [Node.getChild_mapV, hR]; rfl
      rw [Node.getChild_ok_iff] at hq
      exact hw f3 (Node.At_of_find hq)
  choose q h1 h2 using key
  exact ⟨q, h1, h2⟩

theorem satisfiedPy_call {c : Cons Flt} {e : Py (Cons Flt)} (he : e = .ok c) {prims : List (Prim Flt)}
    {ps : List (Param Flt)} (h : SatisfiedPy e prims ps) : ∃ v, c.call prims ps = .ok v ∧ ∀ x ∈ v, x = fin 0 := by
  subst he
  obtain ⟨c', e, h⟩ := h
  cases e
  exact h

theorem prims_unique {r : Prim Flt} {ks : List Str} {ps qs : List (Prim Flt)}
    (h : List.Forall₂ (fun k p => r.getChild k = .ok p) ks ps)
    (h' : List.Forall₂ (fun k p => r.getChild k = .ok p) ks qs) : ps = qs := by
  induction h generalizing qs with
  | nil => cases h'; rfl
  | cons e _ ih =>
    cases h' with
    | cons e' h' =>
      rw [e] at e'
      cases e'
      rw [ih h']

theorem value_unique {a : Added Flt} {r : Prim Flt} {v w : List Flt} (h : a.Value r v) (h' : a.Value r w) : v = w := by
  obtain ⟨p, h1, h2⟩ := h
  obtain ⟨q, h3, h4⟩ := h'
  rw [prims_unique h1 h3, h4] at h2
  exact (Except.ok.inj h2).symm

theorem regular_affine {d : Demand} (h : d.kind.IsAffine) (P : Placement) : d.Regular P := by
  cases d <;> trivial

/-- What is known of the value of a demand. -/
structure Family (tool : Shipped → Cons Flt) (l : Layout Flt) (base : Nat) (d : Demand)
    (gs : List ((Fin (dim l) → ℝ) → Flt)) : Prop where
  value : ∀ y r, rebuild l base (vec y) = .ok r → (d.added tool).Value r (gs.map (· y))
  affine : d.kind.IsAffine → ∀ g ∈ gs, ∃ (a : Fin (dim l) → ℝ) (c : ℝ), ∀ y, g y = fin (∑ i, a i * y i + c)

/-- The value of a demand that is not affine, on the way. -/
theorem Ran.way_value (h : Ran tool items s ts) (hF : FigOK items) (hT : ToolsFor tool items) {base : Nat}
    {x e : Fin (dim s.layout) → ℝ} (hx : globalParam s.layout = .ok (vec x)) {r : ℝ → Prim Flt}
    (hr : ∀ t, rebuild s.layout base (vec (x + t • e)) = .ok (r t)) {P : Placement} (hP : PlacedIn items P (r 1))
    {d : Demand} (hd : d ∈ figDemands items) (hone : d.OneStep) (hna : ¬ d.kind.IsAffine) :
    ∃ hs : List (ℝ → ℝ), (∀ᶠ t in nhds 0, (d.added tool).Value (r t) (hs.map fun g => fin (g t))) ∧
      ((∀ g ∈ hs, TanZero g) ↔ d.Straight P) ∧
      (d.Straight P → d.Solid P → (d.added tool).Value (r 1) (hs.map fun _ => fin 0)) := by
  obtain ⟨c, prims, e1, e2, hs, e3, e4, e5⟩ := Demand.tangent hone hna (hF.params d hd) (P := P) (r := r)
    (fun b hb => h.boxes_way hF hx hr hP (hF.boxed d hd b hb))
  have hc : tool d.kind = c := Except.ok.inj ((hT d hd).symm.trans e1)
  have key : ∀ {t : ℝ} {v : List ℝ}, Returns c (prims t) d.params v → (d.added tool).Value (r t) (v.map fin) := by
    intro t v hv
    refine ⟨prims t, e2 t, ?_⟩
    simp only [Demand.added, hc]
    exact hv
  refine ⟨hs, e3.mono fun t ht => ?_, e4, fun p q => ?_⟩
  · have := key ht
    rwa [List.map_map] at this
  · have := key (e5 p q)
    rwa [List.map_map] at this

/-- There is a family for every demand. -/
theorem Ran.family (h : Ran tool items s ts) (hF : FigOK items) (hT : ToolsFor tool items) {base : Nat}
    {x e : Fin (dim s.layout) → ℝ} (hx : globalParam s.layout = .ok (vec x)) {r : ℝ → Prim Flt}
    (hr : ∀ t, rebuild s.layout base (vec (x + t • e)) = .ok (r t)) {P : Placement} (hP : PlacedIn items P (r 1))
    {d : Demand} (hd : d ∈ figDemands items) (hone : d.OneStep) (hst : d.Straight P)
    (hsm : Shipped.SmoothAt (r 0) d.kind) : ∃ gs, Family tool s.layout base d gs := by
  obtain ⟨T, hTr⟩ := rebuild_mapV s.layout h.ok base
  have hrT : ∀ t, r t = T.mapV (paramVal s.layout base _ (x + t • e)) := fun t =>
    Except.ok.inj ((hr t).symm.trans (hTr _))
  by_cases haff : d.kind.IsAffine
  · obtain ⟨prims, g1, g2, g3⟩ := Demand.meaning (h.moves (hr 1)).ok.wf (h.demandIn hF (h.moves (hr 1)) hP hd)
      (hF.params d hd)
    obtain ⟨v, hv, hz⟩ := satisfiedPy_call (hT d hd) ((g3 (regular_affine haff P)).mpr
      ((Demand.straight_affine haff P).mp hst))
    have hval : (d.added tool).Value (r 1) v := ⟨prims, g1, hv⟩
    rw [hrT] at hval
    obtain ⟨gs, f1, f2⟩ := value_family (hF.params d hd) (hT d hd)
      (affine_tame affF_lin (optVal_A (paramVal_aff s.layout base _)) haff (hT d hd)) (fun _ _ _ _ _ _ _ => trivial) hval
    refine ⟨gs, fun y r' hr' => ?_, fun _ g hg => ?_⟩
    · rw [hTr] at hr'
      rw [← Except.ok.inj hr']
      exact f2 y
    · rcases f1 g hg with hb | hg'
      · have := value_unique hval (f2 _)
        have := hz (g _) (by rw [this]; exact List.mem_map.mpr ⟨g, hg, rfl⟩)
        rw [hb] at this
        cases this
      · exact hg'
  · obtain ⟨hs, e1, _, _⟩ := h.way_value hF hT hx hr hP hd hone haff
    have hval := e1.self_of_nhds
    rw [hrT] at hval
    obtain ⟨gs, f1, f2⟩ := value_family (hF.params d hd) (hT d hd)
      (smooth_tame (optVal_A (paramVal_diff s.layout base _ x)) (zero := d.kind.MeasuresLength)
        (left := d.kind = .angle) id id (hT d hd)) (fun k p _ hp path q hq => by
          have hk : (r 0).getChild k = .ok (p.mapV (optVal s.layout base _ x)) := by
            rw [hrT, zero_smul, add_zero, show T.mapV (paramVal s.layout base _ x)
              = (T.mapV some).mapV (optVal s.layout base _ x) from by rw [Node.mapV_mapV]; rfl, Node.getChild_mapV, hp]
            rfl
          have hq' := (At_mapV (optVal s.layout base _ x)).mpr ⟨q, hq, rfl⟩
          refine ⟨fun hz path' n a b hn => hsm.1 hz k _ hk (path ++ path') n a b (hq'.trans hn),
            fun hz path' n a b hn => hsm.2 hz k _ hk (path ++ path') n a b (hq'.trans hn)⟩) hval
    refine ⟨gs, fun y r' hr' => ?_, fun ha => absurd ha haff⟩
    rw [hTr] at hr'
    rw [← Except.ok.inj hr']
    exact f2 y

/-- The tangents of a family along a way. -/
theorem Ran.family_tangent (h : Ran tool items s ts) (hF : FigOK items) (hT : ToolsFor tool items) {base : Nat}
    {x e : Fin (dim s.layout) → ℝ} (hx : globalParam s.layout = .ok (vec x)) {r : ℝ → Prim Flt}
    (hr : ∀ t, rebuild s.layout base (vec (x + t • e)) = .ok (r t)) {P : Placement} (hP : PlacedIn items P (r 1))
    {d : Demand} (hd : d ∈ figDemands items) (hone : d.OneStep) {gs : List ((Fin (dim s.layout) → ℝ) → Flt)}
    (hgs : Family tool s.layout base d gs) :
    ((∀ g ∈ gs, TanF x e g) ↔ d.Straight P) ∧ (d.Straight P → d.Solid P → ∀ g ∈ gs, g (x + e) = fin 0) ∧
      ∀ g ∈ gs, ∃ a, g x = fin a := by
  by_cases haff : d.kind.IsAffine
  · obtain ⟨prims, g1, g2, g3⟩ := Demand.meaning (h.moves (hr 1)).ok.wf (h.demandIn hF (h.moves (hr 1)) hP hd)
      (hF.params d hd)
    have hv := hgs.value _ _ (hr 1)
    rw [one_smul] at hv
    have key : d.Straight P ↔ ∀ g ∈ gs, g (x + e) = fin 0 := by
      rw [Demand.straight_affine haff, ← g3 (regular_affine haff P)]
      constructor
      · intro hs g hg
        obtain ⟨v, hv', hz⟩ := satisfiedPy_call (hT d hd) hs
        have := value_unique hv ⟨prims, g1, hv'⟩
        exact hz _ (by rw [← this]; exact List.mem_map.mpr ⟨g, hg, rfl⟩)
      · intro hz
        obtain ⟨qs, q1, q2⟩ := hv
        obtain rfl := prims_unique g1 q1
        refine ⟨tool d.kind, hT d hd, _, q2, fun y hy => ?_⟩
        obtain ⟨g, hg, rfl⟩ := List.mem_map.mp hy
        exact hz g hg
    refine ⟨?_, fun p _ => key.mp p, fun g hg => ?_⟩
    · rw [key]
      refine forall₂_congr fun g hg => ?_
      obtain ⟨a, c, hg'⟩ := hgs.affine haff g hg
      exact tanF_affine hg'
    · obtain ⟨a, c, hg'⟩ := hgs.affine haff g hg
      exact ⟨_, hg' x⟩
  · obtain ⟨hs, e1, e2, e3⟩ := h.way_value hF hT hx hr hP hd hone haff
    have eq : ∀ᶠ t in nhds (0 : ℝ), gs.map (· (x + t • e)) = hs.map fun g => fin (g t) := e1.mono fun t ht =>
      value_unique (hgs.value _ _ (hr t)) ht
    have hlen : gs.length = hs.length := by simpa using congrArg List.length eq.self_of_nhds
    have at' : ∀ (i : Nat) (h1 : i < gs.length) (h2 : i < hs.length),
        ∀ᶠ t in nhds (0 : ℝ), gs[i] (x + t • e) = fin (hs[i] t) := by
      intro i h1 h2
      refine eq.mono fun t ht => ?_
      have := congrArg (fun l => l[i]?) ht
      simpa [h1, h2] using this
    refine ⟨?_, fun hst hsol g hg => ?_, fun g hg => ?_⟩
    · rw [← e2]
      constructor
      · intro hz g hg
        obtain ⟨i, hi, rfl⟩ := List.getElem_of_mem hg
        exact (tanF_iff (at' i (by omega) hi)).mp (hz _ (List.getElem_mem _))
      · intro hz g hg
        obtain ⟨i, hi, rfl⟩ := List.getElem_of_mem hg
        exact (tanF_iff (at' i hi (by omega))).mpr (hz _ (List.getElem_mem _))
    · have h1 := value_unique (hgs.value _ _ (hr 1)) (e3 hst hsol)
      rw [one_smul] at h1
      have : g (x + e) ∈ hs.map fun _ => fin 0 := by
        rw [← h1]
        exact List.mem_map.mpr ⟨g, hg, rfl⟩
      obtain ⟨_, _, h2⟩ := List.mem_map.mp this
      exact h2.symm
    · obtain ⟨i, hi, rfl⟩ := List.getElem_of_mem hg
      have := (at' i hi (by omega)).self_of_nhds
      rw [zero_smul, add_zero] at this
      exact ⟨_, this⟩

end MplLayout.Props
