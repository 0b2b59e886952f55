import Verif.Lemmas.FigureProgram

/-!
# C93: figures made of boxes and points

Every program that makes points, quadrilaterals and axes with their default coordinates and asks for things
that are stated in `Spec/Figure.lean` as equations between sides and coordinates.
-/

namespace MplLayout.Props

open Flt Solver

/-- The tree can result from moving the points of the program's layout. -/
structure Moves (tool : Shipped → Cons Flt) (items : List FigItem) (r : Prim Flt) : Prop where
  ok : PrimOK r
  same : SameStructure ((Session.start : Session Flt).run (figProgram tool 0 items)).layout.prim r
  finite : r.Finite

/-- The constraints of the layout all hold. -/
def HoldsAll (tool : Shipped → Cons Flt) (items : List FigItem) (r : Prim Flt) : Prop :=
  ∀ c ∈ (Session.start : Session Flt).constraints (figProgram tool 0 items), ∃ v, c.Value r v ∧ Zeros v

variable {tool : Shipped → Cons Flt} {items : List FigItem}

theorem figProgram_mem (tool : Shipped → Cons Flt) (items : List FigItem) : ∀ n, ∀ st ∈ figProgram tool n items,
    (∃ m ∈ figMakes items, st = .make m.expr ∨ ∃ i, st = .addPrim i m.key) ∨
    ∃ d ∈ figDemands items, st = .addConstraint (tool d.kind) d.keys d.params [] := by
  induction items with
  | nil => intro n st h; cases h
  | cons it items ih =>
    intro n st h
    cases it with
    | make m =>
      simp only [figProgram, List.mem_cons] at h
      rcases h with rfl | rfl | h
      · exact .inl ⟨m, by simp [figMakes], .inl rfl⟩
      · exact .inl ⟨m, by simp [figMakes], .inr ⟨_, rfl⟩⟩
      · rcases ih _ st h with ⟨m', h1, h2⟩ | h
        · exact .inl ⟨m', by simp [figMakes, h1], h2⟩
        · exact .inr h
    | ask d =>
      simp only [figProgram, List.mem_cons] at h
      rcases h with rfl | h
      · exact .inr ⟨d, by simp [figDemands], rfl⟩
      · rcases ih _ st h with h | ⟨d', h1, h2⟩
        · exact .inl h
        · exact .inr ⟨d', by simp [figDemands, h1], h2⟩

theorem figProgram_top (hF : FigOK items) : ∀ st ∈ figProgram tool 0 items, st.TopLevel ∧ st.Finite := by
  intro st hst
  rcases figProgram_mem tool items 0 st hst with ⟨m, hm, rfl | ⟨i, rfl⟩⟩ | ⟨d, _, rfl⟩
  · cases m <;> exact ⟨trivial, fun xs e => nomatch e⟩
  · exact ⟨hF.slash m hm, trivial⟩
  · exact ⟨trivial, trivial⟩

theorem figScope (items : List FigItem) : ∀ {B Q A : List Str}, FigInScope B Q A items → ∀ d ∈ figDemands items,
    d.boxes ⊆ B ++ (figMakes items).flatMap Make.boxes ∧ d.points ⊆ Q ++ (figMakes items).flatMap Make.points ∧
    d.axes ⊆ A ++ (figMakes items).flatMap Make.axesKeys := by
  induction items with
  | nil => intro B Q A _ d hd; cases hd
  | cons it items ih =>
    intro B Q A h d hd
    cases it with
    | make m =>
      obtain ⟨h1, h2, h3⟩ := ih h d hd
      simp only [figMakes, List.flatMap_cons, ← List.append_assoc]
      exact ⟨h1, h2, h3⟩
    | ask e =>
      simp only [figDemands, List.mem_cons] at hd
      rcases hd with rfl | hd
      · obtain ⟨⟨h1, h2, h3⟩, _⟩ := h
        exact ⟨List.subset_append_of_subset_left _ h1, List.subset_append_of_subset_left _ h2,
          List.subset_append_of_subset_left _ h3⟩
      · exact ih h.2 d hd

/-- The state after the program. -/
structure Ran (tool : Shipped → Cons Flt) (items : List FigItem) (s : Session Flt) (ts : List (Make × Nat)) :
    Prop where
  does : Does Session.start (figProgram tool 0 items) ((figDemands items).map (Demand.added tool)) s
  stock : Stocked ts s
  makes : ts.map (·.1) = figMakes items
  slash : ∀ t ∈ ts, '/' ∉ t.1.key
  ok : PrimOK s.layout.prim
  finite : s.layout.prim.Finite
  loops : ∀ p m, s.layout.prim.At p m → m.ty.IsA .polygon → ∃ pts, ClosedLoop m pts

theorem figRan (hF : FigOK items) (hT : ToolsFor tool items) : ∃ s ts, Ran tool items s ts := by
  obtain ⟨s, ts, d, hb, hts⟩ := does_items tool items Stocked.start (by simp) hF.slash
    (by simpa using hF.nodup) hF.scope hF.params hT
  have hts : ts.map (·.1) = figMakes items := hts
  have hok : ProgOK (fun x => ∃ r, x = fin r) s := by
    rw [← d.run]
    exact ProgOK.run finite_consts ProgOK.start (fun st hst => (figProgram_top hF st hst).1)
      fun st hst => finite_all (figProgram_top hF st hst).2
  obtain ⟨heap, hh⟩ := hok.heap
  refine ⟨s, ts, d, hb, hts, ?_, hok.primOK, ?_, hh.layout.loops⟩
  · intro t ht
    exact hF.slash t.1 (by rw [← hts]; exact List.mem_map_of_mem ht)
  · intro p m hm x hx
    have := hh.layout.vals p m hm
    exact hh.consts _ (List.mem_of_getElem? this) x hx

theorem Ran.flat {s : Session Flt} {ts : List (Make × Nat)} (h : Ran tool items s ts) (f : Make → List Str) :
    (figMakes items).flatMap f = ts.flatMap fun t => f t.1 := by
  rw [← h.makes, List.flatMap_map]

theorem Ran.scope {s : Session Flt} {ts : List (Make × Nat)} (h : Ran tool items s ts) (hF : FigOK items) {d : Demand}
    (hd : d ∈ figDemands items) : d.boxes ⊆ ts.flatMap (·.1.boxes) ∧ d.points ⊆ ts.flatMap (·.1.points) ∧
      d.axes ⊆ ts.flatMap (·.1.axesKeys) := by
  have := figScope items hF.scope d hd
  simp only [List.nil_append, h.flat] at this
  exact this

theorem Ran.solved {s : Session Flt} {ts : List (Make × Nat)} (h : Ran tool items s ts) {r : Prim Flt}
    (hr : Moves tool items r) : Solved s.layout.prim r :=
  ⟨h.ok, hr.ok, by rw [← h.does.run]; exact hr.same, hr.finite⟩

/-- The things that a demand is about are where the placement says. -/
theorem Ran.demandIn {s : Session Flt} {ts : List (Make × Nat)} (h : Ran tool items s ts) (hF : FigOK items)
    {r : Prim Flt} (hr : Moves tool items r) {P : Placement} (hP : PlacedIn items P r) {d : Demand}
    (hd : d ∈ figDemands items) : d.In P r where
  box b hb := hP.1 b (hF.boxed d hd b hb)
  point k hk := by
    have := (h.scope hF hd).2.1 hk
    rw [← h.flat Make.points] at this
    obtain ⟨m, hm, hk⟩ := List.mem_flatMap.mp this
    exact hP.2 m hm k hk
  axes a ha := by
    obtain ⟨x, y, tx, ty, n, e⟩ := h.stock.axes h.slash ((h.scope hF hd).2.2 ha)
    have hS := h.solved hr
    obtain ⟨h1, m', h2, h3⟩ := hS.getChild e
    obtain ⟨e1, _, _⟩ := hS.same.nodes _ _ _ h1 h3
    exact ⟨m', h2, by rw [← e1]; exact .refl _⟩

/-- C93, the calls: every call of the program succeeds and the layout has the constraints that it asked for,
in order. -/
theorem C93_calls (hF : FigOK items) (hT : ToolsFor tool items) :
    (∀ o ∈ (Session.start : Session Flt).outcomes (figProgram tool 0 items), o = .ok ()) ∧
    (Session.start : Session Flt).constraints (figProgram tool 0 items)
      = (figDemands items).map fun d => ⟨tool d.kind, d.keys, d.params⟩ := by
  obtain ⟨s, ts, h⟩ := figRan hF hT
  exact ⟨h.does.ok, h.does.cons⟩

/-- C93, in every solution each box that was asked to be a box is a rectangle, and each point is somewhere. -/
theorem C93_placed (hF : FigOK items) (hT : ToolsFor tool items) {r : Prim Flt} (hr : Moves tool items r)
    (hall : HoldsAll tool items r) : ∃ P, PlacedIn items P r := by
  obtain ⟨s, ts, h⟩ := figRan hF hT
  have hS := h.solved hr
  have hall' := hall
  unfold HoldsAll at hall'
  rw [h.does.cons] at hall'
  have boxes : ∀ b, ∃ R : Rect, .box b ∈ figDemands items → ∃ q, r.getChild b = .ok q ∧ IsRect q R := by
    intro b
    by_cases hb : Demand.box b ∈ figDemands items
    · obtain ⟨t, ht, i, hi, e⟩ := h.stock.box h.slash ((h.scope hF hb).1 (show b ∈ [b] by simp))
      obtain ⟨at1, q, g1, at2⟩ := hS.getChild e
      obtain ⟨A, B, C, D, hq⟩ := hS.quad at1 at2 (unitQuad_isQuad i) (h.loops _ _ at1 (by
        show PrimType.IsA .quadrilateral .polygon
        exact (PrimType.sub_iff _ _).mp (by decide)))
      have hbox : SatisfiedPy ct.box [q] [] := asks_satisfied hall' (keys := [b])
        ⟨tool .box, hT _ hb, List.mem_map.mpr ⟨_, hb, rfl⟩⟩ (.cons g1 .nil)
      rw [C33_box hq] at hbox
      obtain ⟨x0, y0, x1, y1, rfl, rfl, rfl, rfl⟩ := hbox
      exact ⟨⟨x0, y0, x1, y1⟩, fun _ => ⟨q, g1, hq⟩⟩
    · exact ⟨⟨0, 0, 0, 0⟩, fun h => absurd h hb⟩
  have points : ∀ k, ∃ u : ℝ × ℝ, ∀ m ∈ figMakes items, k ∈ m.points → ∃ p, r.getChild k = .ok p ∧ IsPoint p u := by
    intro k
    by_cases hk : k ∈ (figMakes items).flatMap Make.points
    · rw [h.flat Make.points] at hk
      obtain ⟨t, ht, i, hi, e⟩ := h.stock.point h.slash hk
      obtain ⟨at1, q, g1, at2⟩ := hS.getChild e
      obtain ⟨u, hu⟩ := hS.point at1 at2 (u := (0, 0)) ⟨.refl _, rfl⟩
      exact ⟨u, fun _ _ _ => ⟨q, g1, hu⟩⟩
    · exact ⟨(0, 0), fun m hm hkm => absurd (List.mem_flatMap.mpr ⟨m, hm, hkm⟩) hk⟩
  choose R hR using boxes
  choose u hu using points
  exact ⟨⟨R, u⟩, hR, fun m hm k hk => hu k m hm hk⟩

/-- C93, the demands: in every solution, placed at `P`, every demand holds of `P` whose boxes are not
degenerate. -/
theorem C93_demands (hF : FigOK items) (hT : ToolsFor tool items) {r : Prim Flt} (hr : Moves tool items r)
    {P : Placement} (hP : PlacedIn items P r) (hall : HoldsAll tool items r) :
    ∀ d ∈ figDemands items, d.Regular P → d.Holds P := by
  obtain ⟨s, ts, h⟩ := figRan hF hT
  unfold HoldsAll at hall
  rw [h.does.cons] at hall
  intro d hd hreg
  obtain ⟨prims, g1, g2, g3⟩ := Demand.meaning hr.ok.wf (h.demandIn hF hr hP hd) (hF.params d hd)
  exact (g3 hreg).mp (asks_satisfied hall ⟨tool d.kind, hT d hd, List.mem_map.mpr ⟨d, hd, rfl⟩⟩ g1)

/-- C93, the meaning: when the boxes and points are in the places `P`, and the boxes that give directions are
not degenerate, the constraints of the layout hold exactly if the demands hold of `P`. -/
theorem C93_solutions (hF : FigOK items) (hT : ToolsFor tool items) {r : Prim Flt} (hr : Moves tool items r)
    {P : Placement} (hP : PlacedIn items P r) (hreg : ∀ d ∈ figDemands items, d.Regular P) :
    HoldsAll tool items r ↔ ∀ d ∈ figDemands items, d.Holds P := by
  refine ⟨fun hall d hd => C93_demands hF hT hr hP hall d hd (hreg d hd), fun hall => ?_⟩
  obtain ⟨s, ts, h⟩ := figRan hF hT
  unfold HoldsAll
  rw [h.does.cons]
  intro c hc
  obtain ⟨d, hd, rfl⟩ := List.mem_map.mp hc
  obtain ⟨prims, g1, g2, g3⟩ := Demand.meaning hr.ok.wf (h.demandIn hF hr hP hd) (hF.params d hd)
  exact value_of_sat (hT d hd) g1 ((g3 (hreg d hd)).mpr (hall d hd))

/-- C93, the places are free: the boxes and the points can be moved anywhere. -/
theorem C93_anywhere (hF : FigOK items) (hT : ToolsFor tool items) (P : Placement) :
    ∃ r, Moves tool items r ∧ PlacedIn items P r := by
  obtain ⟨s, ts, h⟩ := figRan hF hT
  have hS := placeBy_solved (fun id => (ts.flatMap fun t => t.1.slots t.2).findSome? fun t => t.find P id) h.ok
    h.finite
  refine ⟨_, ⟨hS.okB, by rw [h.does.run]; exact hS.same, hS.fin⟩, ?_, ?_⟩
  · intro b hb
    obtain ⟨t, ht, i, hi, e⟩ := h.stock.box h.slash ((h.scope hF hb).1 (show b ∈ [b] by simp))
    refine ⟨_, by rw [Node.getChild_mapV, e]; rfl, ?_⟩
    exact (h.stock.placed P (List.mem_flatMap.mpr ⟨t, ht, hi⟩)).1 rfl
  · intro m hm k hk
    have hk : k ∈ (figMakes items).flatMap Make.points := List.mem_flatMap.mpr ⟨m, hm, hk⟩
    rw [h.flat Make.points] at hk
    obtain ⟨t, ht, i, hi, e⟩ := h.stock.point h.slash hk
    refine ⟨_, by rw [Node.getChild_mapV, e]; rfl, ?_⟩
    exact (h.stock.placed P (List.mem_flatMap.mpr ⟨t, ht, hi⟩)).2 rfl

/-- C93, existence: every placement of which the demands hold is a solution of the layout. -/
theorem C93_exists (hF : FigOK items) (hT : ToolsFor tool items) {P : Placement}
    (hreg : ∀ d ∈ figDemands items, d.Regular P) (hall : ∀ d ∈ figDemands items, d.Holds P) :
    ∃ r, Moves tool items r ∧ PlacedIn items P r ∧ HoldsAll tool items r := by
  obtain ⟨r, hr, hP⟩ := C93_anywhere hF hT P
  exact ⟨r, hr, hP, (C93_solutions hF hT hr hP hreg).mpr hall⟩

/-- C93, solving: if the demands are affine and can be satisfied, the solver with exact numerics finds a
solution of all of them. -/
theorem C93_solve (num : Numerics Flt) (hnum : Exact num) (hF : FigOK items) (hT : ToolsFor tool items)
    (haff : ∀ d ∈ figDemands items, d.kind.IsAffine) (hne : figDemands items ≠ [])
    (hsat : ∃ P : Placement, ∀ d ∈ figDemands items, d.Holds P)
    (base : Nat) (a b : ℝ) (maxIter : Int) (hmax : 1 ≤ maxIter) :
    ∃ r info, solve num ((Session.start : Session Flt).run (figProgram tool 0 items)).layout base (fin a) (fin b)
        maxIter k!"newton" = .ok (r, info) ∧ Moves tool items r ∧
      ∃ P, PlacedIn items P r ∧ ∀ d ∈ figDemands items, d.Holds P := by
  have hreg : ∀ P : Placement, ∀ d ∈ figDemands items, d.Regular P := by
    intro P d hd
    have := haff d hd
    cases d <;> trivial
  have hplain : Plain (figProgram tool 0 items) := by
    intro st hst
    refine ⟨(figProgram_top hF st hst).1, (figProgram_top hF st hst).2, ?_⟩
    rcases figProgram_mem tool items 0 st hst with ⟨m, hm, rfl | ⟨i, rfl⟩⟩ | ⟨d, hd, rfl⟩
    · trivial
    · trivial
    · obtain ⟨z1, z2⟩ := Demand.paramsOK (hF.params d hd)
      exact ⟨by simp, d.kind, hT d hd, z1, z2, haff d hd⟩
  obtain ⟨P0, hP0⟩ := hsat
  obtain ⟨r0, hr0, hp0, hall0⟩ := C93_exists hF hT (hreg P0) hP0
  obtain ⟨r, info, h1, h2, h3, h4, h5⟩ := C68_solved num hnum _ hplain _ rfl r0 hr0.ok hr0.same hr0.finite hall0
    (by rw [(C93_calls hF hT).2]; simpa using hne) base a b maxIter hmax
  have hr : Moves tool items r := ⟨h2, h3, h4⟩
  obtain ⟨P, hP⟩ := C93_placed hF hT hr h5
  exact ⟨r, info, h1, hr, P, hP, (C93_solutions hF hT hr hP (hreg P)).mp h5⟩

/-- The keys of the layout are the names of what was made. -/
theorem Ran.keys {s : Session Flt} {ts : List (Make × Nat)} (h : Ran tool items s ts) {r : Prim Flt}
    (hr : Moves tool items r) : r.keys = (figMakes items).map Make.key := by
  obtain ⟨_, e, _⟩ := (h.solved hr).same.nodes [] s.layout.prim r (.here _) (.here _)
  rw [← e, h.stock.prim, ← h.makes]
  simp only [Node.keys, Node.children, List.map_map]
  rfl

/-- The shape of the axes. -/
theorem Ran.shapes {s : Session Flt} {ts : List (Make × Nat)} (h : Ran tool items s ts) {r : Prim Flt}
    (hr : Moves tool items r) {P : Placement} (hP : PlacedIn items P r)
    (hax : ∀ m ∈ figMakes items, k!"Axes" <:+: m.key →
      m.axesKeys = [m.key] ∧ .box (m.key ++ k!"/Frame") ∈ figDemands items) :
    ∀ key ∈ r.keys, k!"Axes" <:+: key → AxesShape r key
      ((P.box (key ++ k!"/Frame")).x0, (P.box (key ++ k!"/Frame")).y0)
      ((P.box (key ++ k!"/Frame")).x1, (P.box (key ++ k!"/Frame")).y0)
      ((P.box (key ++ k!"/Frame")).x1, (P.box (key ++ k!"/Frame")).y1)
      ((P.box (key ++ k!"/Frame")).x0, (P.box (key ++ k!"/Frame")).y1) := by
  have hS := h.solved hr
  intro key hkey ha
  rw [h.keys hr] at hkey
  obtain ⟨m, hm, rfl⟩ := List.mem_map.mp hkey
  obtain ⟨a1, a2⟩ := hax m hm ha
  have hmem : m.key ∈ ts.flatMap (·.1.axesKeys) := by
    rw [← h.flat Make.axesKeys]
    exact List.mem_flatMap.mpr ⟨m, hm, by rw [a1]; simp⟩
  obtain ⟨x, y, tx, ty, n, e⟩ := h.stock.axes h.slash hmem
  obtain ⟨A, B, C, D, hs⟩ := hS.axes h.loops (axesTree_shape e)
  have hs0 := hs
  obtain ⟨ax, frame, k1, k2, k3, -⟩ := hs
  obtain ⟨q, h1, h2⟩ := hP.1 _ a2
  have k4 : r.getChild (m.key ++ k!"/Frame") = .ok frame := getChild_slash k1 (k2.getChild (by decide))
  rw [h1] at k4
  cases k4
  obtain ⟨ea, eb, ec, ed⟩ := isQuad_unique k3 h2
  rw [ea, eb, ec, ed] at hs0
  exact hs0

/-- C93, the drawing: `subplots` makes a figure of the size of the figure box, with the axes in the order
in which they were added, each at the place of its frame as fractions of the figure. -/
theorem C93_drawing (hF : FigOK items) (hT : ToolsFor tool items) {r : Prim Flt} (hr : Moves tool items r)
    {P : Placement} (hP : PlacedIn items P r) {figKey : Str} (hfig : .box figKey ∈ figDemands items)
    (hx : (P.box figKey).x1 ≠ (P.box figKey).x0) (hy : (P.box figKey).y1 ≠ (P.box figKey).y0)
    (hax : ∀ m ∈ figMakes items, k!"Axes" <:+: m.key →
      m.axesKeys = [m.key] ∧ .box (m.key ++ k!"/Frame") ∈ figDemands items) :
    ∃ calls axs, subplots r figKey none = .ok (calls, axs) ∧
      axs = (((figMakes items).map Make.key).filter fun key => decide (k!"Axes" <:+: key)).zipIdx ∧
      (∀ w h, .setSize w h ∈ calls ↔
        w = fin ((P.box figKey).x1 - (P.box figKey).x0) ∧ h = fin ((P.box figKey).y1 - (P.box figKey).y0)) ∧
      ∀ key i, (key, i) ∈ axs → ∀ rect, .setPosition i rect ∈ calls ↔
        rect = (fin (((P.box (key ++ k!"/Frame")).x0 - (P.box figKey).x0) / ((P.box figKey).x1 - (P.box figKey).x0)),
          fin (((P.box (key ++ k!"/Frame")).y0 - (P.box figKey).y0) / ((P.box figKey).y1 - (P.box figKey).y0)),
          fin (((P.box (key ++ k!"/Frame")).x1 - (P.box (key ++ k!"/Frame")).x0)
            / ((P.box figKey).x1 - (P.box figKey).x0)),
          fin (((P.box (key ++ k!"/Frame")).y1 - (P.box (key ++ k!"/Frame")).y0)
            / ((P.box figKey).y1 - (P.box figKey).y0))) := by
  obtain ⟨s, ts, h⟩ := figRan hF hT
  obtain ⟨fig, f1, f2⟩ := hP.1 figKey hfig
  obtain ⟨calls, axs, c1, c2, c3, c4⟩ := drawn hr.ok f1 f2 hx hy (place := fun k => P.box (k ++ k!"/Frame"))
    (h.shapes hr hP hax)
  rw [h.keys hr] at c2
  exact ⟨calls, axs, c1, c2, c3, c4⟩

end MplLayout.Props
