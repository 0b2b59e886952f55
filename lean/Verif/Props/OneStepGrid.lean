import Verif.Props.OneStep
import Verif.Props.GridFigure

/-!
# C101 for the figure with a grid of square axes
-/

namespace MplLayout.Props

open Flt Solver GridSpec

/-- If the sizes are differences of coordinates, the places follow. -/
theorem grid_straight (g : GridSpec) (hR : 0 < g.R) (hC : 0 < g.C) {rect : Nat → Nat → Rect} {H : ℝ}
    (hws : ∀ c, c + 1 < g.C → 0 < g.ws c) (ha0 : g.aspect ≠ 0)
    (hga : GridAligned g.R g.C rect)
    (gw : ∀ c, c + 1 < g.C → (rect 0 (c + 1)).x1 - (rect 0 (c + 1)).x0
      = g.ws c * ((rect 0 0).x1 - (rect 0 0).x0))
    (gh : ∀ r, r + 1 < g.R → (rect (r + 1) 0).y1 - (rect (r + 1) 0).y0
      = g.hs r * ((rect 0 0).y1 - (rect 0 0).y0))
    (gm : ∀ c, c + 1 < g.C → (rect 0 (c + 1)).x0 - (rect 0 c).x1 = g.ms c)
    (gn : ∀ r, r + 1 < g.R → (rect r 0).y0 - (rect (r + 1) 0).y1 = g.ns r)
    (ha : (rect 0 0).x1 - (rect 0 0).x0 = g.aspect * ((rect 0 0).y1 - (rect 0 0).y0))
    (h1 : (rect 0 0).x0 = g.left) (h2 : (rect 0 0).y1 = H - g.top)
    (h3 : (rect 0 (g.C - 1)).x1 = g.W - g.right) (h4 : (rect (g.R - 1) 0).y0 = g.bottom) :
    H = g.height ∧ ∀ r c, r < g.R → c < g.C → rect r c = g.rect r c := by
  obtain ⟨ga, gb⟩ := hga
  set w := (rect 0 0).x1 - (rect 0 0).x0 with hw
  set h := (rect 0 0).y1 - (rect 0 0).y0 with hh
  have width : ∀ c, c < g.C → (rect 0 c).x1 - (rect 0 c).x0 = w * rel g.ws c := by
    intro c hc
    cases c with
    | zero => simp [rel, hw]
    | succ c => rw [gw c hc, rel]; ring
  have heightE : ∀ r, r < g.R → (rect r 0).y1 - (rect r 0).y0 = h * rel g.hs r := by
    intro c hc
    cases c with
    | zero => simp [rel, hh]
    | succ c => rw [gh c hc, rel]; ring
  have colX : ∀ c, c < g.C → (rect 0 c).x0 = g.left + ∑ k ∈ Finset.range c, (w * rel g.ws k + g.ms k) := by
    intro c
    induction c with
    | zero => intro _; simp [h1]
    | succ c ih =>
      intro hc
      have e1 := ih (by omega)
      have e2 := width c (by omega)
      have e3 := gm c hc
      rw [Finset.sum_range_succ]
      linarith
  have rowY : ∀ r, r < g.R → (rect r 0).y1 = H - g.top - ∑ k ∈ Finset.range r, (h * rel g.hs k + g.ns k) := by
    intro c
    induction c with
    | zero => intro _; simp [h2]
    | succ c ih =>
      intro hc
      have e1 := ih (by omega)
      have e2 := heightE c (by omega)
      have e3 := gn c hc
      rw [Finset.sum_range_succ]
      linarith
  have hden : 0 < 1 + ∑ i ∈ Finset.range (g.C - 1), g.ws i := by
    have : 0 ≤ ∑ i ∈ Finset.range (g.C - 1), g.ws i := by
      apply Finset.sum_nonneg
      intro i hi
      rw [Finset.mem_range] at hi
      exact (hws i (by omega)).le
    linarith
  have eu : w = g.colUnit := by
    have e1 := colX (g.C - 1) (by omega)
    have e2 := width (g.C - 1) (by omega)
    have e3 := sum_blocks w g.ws g.ms (g.C - 1)
    rw [colUnit, eq_div_iff hden.ne']
    linarith
  have ev : h = g.rowUnit := by
    rw [rowUnit, ← eu, eq_div_iff ha0, ha]; ring
  have eH : H = g.height := by
    have e1 := rowY (g.R - 1) (by omega)
    have e2 := heightE (g.R - 1) (by omega)
    have e3 := sum_blocks h g.hs g.ns (g.R - 1)
    rw [height, ← ev]
    linarith
  refine ⟨eH, ?_⟩
  intro r c hr hc
  obtain ⟨a1, a2⟩ := ga r c 0 hr hc hC
  obtain ⟨b1, b2⟩ := gb c r 0 hc hr hR
  have e1 := colX c hc
  have e2 := width c hc
  have e3 := rowY r hr
  have e4 := heightE r hr
  rw [eu] at e1 e2
  rw [ev] at e3 e4
  rw [eH] at e3
  refine rect_eq (a := g.x c) (b := g.y r - g.rowUnit * rel g.hs r) (c := g.x c + g.colUnit * rel g.ws c)
    (d := g.y r) ?_ ?_ ?_ ?_
  · rw [b1, e1]; rfl
  · rw [a1]
    have : (rect r 0).y1 = g.y r := e3
    linarith
  · rw [b2]
    have : (rect 0 c).x0 = g.x c := e1
    linarith
  · rw [a2, e3]; rfl

theorem figMakes_app (a b : List FigItem) : figMakes (a ++ b) = figMakes a ++ figMakes b := by
  induction a with
  | nil => rfl
  | cons i a ih => cases i <;> simp [figMakes, ih]

theorem figDemands_app (a b : List FigItem) : figDemands (a ++ b) = figDemands a ++ figDemands b := by
  induction a with
  | nil => rfl
  | cons i a ih => cases i <;> simp [figDemands, ih]

/-- The axes of the grid. -/
def gridAxesItems (keys : List Str) : List FigItem :=
  keys.flatMap fun k => [.make (.axes k false false false false), .ask (.box (k ++ k!"/Frame"))]

/-- What is asked of the grid. -/
def gridTailItems (g : GridSpec) : List FigItem :=
  [.ask (.aspect (g.frameKey 0 0) g.aspect),
   .ask (.grid g.R g.C (g.keys.map (· ++ k!"/Frame")) g.ws g.hs g.ms g.ns),
   .ask (.inner .top (g.frameKey 0 0) k!"Figure" g.top),
   .ask (.inner .bottom (g.frameKey (g.R - 1) 0) k!"Figure" g.bottom),
   .ask (.inner .left (g.frameKey 0 0) k!"Figure" g.left),
   .ask (.inner .right (g.frameKey 0 (g.C - 1)) k!"Figure" g.right)]

/-- `grid_axes.ipynb` as a figure program. -/
def gridItems (g : GridSpec) : List FigItem :=
  [.make (.quad k!"Figure"), .ask (.box k!"Figure"), .ask (.width k!"Figure" g.W),
    .ask (.fix (.first ⟨k!"Figure", .bottom⟩) 0 0)] ++ (gridAxesItems g.keys ++ gridTailItems g)

theorem gridAxes_makes (keys : List Str) :
    figMakes (gridAxesItems keys) = keys.map fun k => .axes k false false false false := by
  induction keys with
  | nil => rfl
  | cons k keys ih => simpa [gridAxesItems, figMakes] using ih

theorem gridAxes_demands (keys : List Str) :
    figDemands (gridAxesItems keys) = keys.map fun k => .box (k ++ k!"/Frame") := by
  induction keys with
  | nil => rfl
  | cons k keys ih => simpa [gridAxesItems, figDemands] using ih

theorem gridItems_makes (g : GridSpec) :
    figMakes (gridItems g) = .quad k!"Figure" :: g.keys.map fun k => .axes k false false false false := by
  simp [gridItems, figMakes_app, gridAxes_makes, figMakes, gridTailItems]

theorem gridItems_demands (g : GridSpec) :
    figDemands (gridItems g) = [.box k!"Figure", .width k!"Figure" g.W, .fix (.first ⟨k!"Figure", .bottom⟩) 0 0] ++
      ((g.keys.map fun k => .box (k ++ k!"/Frame")) ++ figDemands (gridTailItems g)) := by
  simp [gridItems, figDemands_app, gridAxes_demands, figDemands]

theorem gridAxes_scope (keys : List Str) (rest : List FigItem) : ∀ (B Q A : List Str),
    (∀ B' Q' A', B ⊆ B' → (∀ k ∈ keys, k ++ k!"/Frame" ∈ B') → FigInScope B' Q' A' rest) →
    FigInScope B Q A (gridAxesItems keys ++ rest) := by
  induction keys with
  | nil => intro B Q A h; exact h B Q A (List.Subset.refl _) (by simp)
  | cons k keys ih =>
    intro B Q A h
    refine ⟨⟨?_, ?_, ?_⟩, ih _ _ _ fun B' Q' A' h1 h2 => h B' Q' A' ?_ ?_⟩
    · simp [Demand.boxes, Make.boxes]
    · simp [Demand.points]
    · simp [Demand.axes]
    · exact fun x hx => h1 (List.mem_append_left _ hx)
    · intro k' hk'
      rcases List.mem_cons.mp hk' with rfl | hk'
      · exact h1 (by simp [Make.boxes])
      · exact h2 k' hk'

variable {g : GridSpec}

theorem KeysOK.notFigure (hk : g.KeysOK) : ∀ k ∈ g.keys, k ≠ k!"Figure" := by
  intro k h e
  have := hk.axes k h
  rw [e] at this
  exact absurd this (by decide)

theorem gridItems_ok (hk : g.KeysOK) : FigOK (gridItems g) := by
  have hR := hk.rows
  have hC := hk.cols
  have fk : ∀ {i j}, i < g.R → j < g.C → ∃ k ∈ g.keys, g.frameKey i j = k ++ k!"/Frame" := by
    intro i j hi hj
    obtain ⟨k, h1, _, h2⟩ := hk.get hi hj
    exact ⟨k, h1, h2⟩
  obtain ⟨k00, m00, e00⟩ := fk hR hC
  obtain ⟨kR, mR, eR⟩ := fk (i := g.R - 1) (by omega) hC
  obtain ⟨kC, mC, eC⟩ := fk hR (j := g.C - 1) (by omega)
  refine ⟨?_, ?_, ?_, ?_, ?_⟩
  · rw [gridItems_makes]
    intro m hm
    rcases List.mem_cons.mp hm with rfl | hm
    · decide
    · obtain ⟨k, hk', rfl⟩ := List.mem_map.mp hm
      exact hk.slash k hk'
  · rw [gridItems_makes, List.map_cons, List.map_map, List.nodup_cons]
    refine ⟨fun hm => ?_, ?_⟩
    · obtain ⟨k, hk', e⟩ := List.mem_map.mp hm
      exact KeysOK.notFigure hk k hk' e
    · have : (Make.key ∘ fun k => Make.axes k false false false false) = id := rfl
      rw [this, List.map_id]
      exact hk.nodup
  · refine ⟨⟨?_, ?_, ?_⟩, ⟨?_, ?_, ?_⟩, ⟨?_, ?_, ?_⟩, gridAxes_scope _ _ _ _ _ fun B Q A h1 h2 => ?_⟩
    all_goals try simp [Demand.boxes, Demand.points, Demand.axes, Make.boxes, Spot.boxes, Spot.points]
    have hf : k!"Figure" ∈ B := h1 (by simp [Make.boxes])
    simp only [gridTailItems, FigInScope, Demand.boxes, Demand.points, Demand.axes, List.nil_subset, and_true,
      List.cons_subset, e00, eR, eC]
    refine ⟨h2 _ m00, ?_, ⟨h2 _ m00, hf⟩, ⟨h2 _ mR, hf⟩, ⟨h2 _ m00, hf⟩, h2 _ mC, hf⟩
    intro b hb
    obtain ⟨k, hk', rfl⟩ := List.mem_map.mp hb
    exact h2 k hk'
  · rw [gridItems_demands]
    intro d hd
    simp only [List.mem_append, List.mem_cons, List.mem_map, gridTailItems, figDemands, List.not_mem_nil,
      or_false] at hd
    rcases hd with (rfl | rfl | rfl) | ⟨k, _, rfl⟩ | rfl | rfl | rfl | rfl | rfl | rfl
    all_goals try trivial
    exact ⟨hR, hC, by rw [List.length_map, hk.len]⟩
  · have hfig : Demand.box k!"Figure" ∈ figDemands (gridItems g) := by rw [gridItems_demands]; simp
    have hfr : ∀ k ∈ g.keys, Demand.box (k ++ k!"/Frame") ∈ figDemands (gridItems g) := by
      intro k h
      rw [gridItems_demands]
      exact List.mem_append_right _ (List.mem_append_left _ (List.mem_map.mpr ⟨k, h, rfl⟩))
    intro d hd b hb
    rw [gridItems_demands] at hd
    simp only [List.mem_append, List.mem_cons, List.mem_map, gridTailItems, figDemands, List.not_mem_nil,
      or_false] at hd
    rcases hd with (rfl | rfl | rfl) | ⟨k, hk', rfl⟩ | rfl | rfl | rfl | rfl | rfl | rfl <;>
      simp only [Demand.boxes, Spot.boxes, List.mem_cons, List.not_mem_nil, or_false, e00, eR, eC, List.mem_map] at hb
    · rw [hb]; exact hfig
    · rw [hb]; exact hfig
    · rw [hb]; exact hfig
    · rw [hb]; exact hfr k hk'
    · rw [hb]; exact hfr _ m00
    · obtain ⟨k, h, rfl⟩ := hb; exact hfr k h
    · rcases hb with rfl | rfl
      · exact hfr _ m00
      · exact hfig
    · rcases hb with rfl | rfl
      · exact hfr _ mR
      · exact hfig
    · rcases hb with rfl | rfl
      · exact hfr _ m00
      · exact hfig
    · rcases hb with rfl | rfl
      · exact hfr _ mC
      · exact hfig

theorem cell_frame (hk : g.KeysOK) (P : Placement) {i j : Nat} (hi : i < g.R) (hj : j < g.C) :
    cellOf g.C (g.keys.map (· ++ k!"/Frame")) P i j = P.box (g.frameKey i j) := by
  obtain ⟨k, _, h2, h3⟩ := hk.get hi hj
  rw [cellOf, List.getD_eq_getElem?_getD, List.getElem?_map, h2, h3]
  rfl

/-- The plain equations give the places. -/
theorem gridItems_straight (hk : g.KeysOK) (hws : ∀ c, c + 1 < g.C → 0 < g.ws c) (ha0 : g.aspect ≠ 0)
    {P : Placement} (hd : ∀ d ∈ figDemands (gridItems g), d.Straight P) :
    P.box k!"Figure" = ⟨0, 0, g.W, g.height⟩ ∧
      ∀ i j, i < g.R → j < g.C → P.box (g.frameKey i j) = g.rect i j := by
  have hR := hk.rows
  have hC := hk.cols
  rw [gridItems_demands] at hd
  simp only [List.forall_mem_append, gridTailItems, figDemands, List.forall_mem_cons] at hd
  obtain ⟨⟨-, d1, d2, -⟩, -, d3, d4, d5, d6, d7, d8, -⟩ := hd
  simp only [Demand.Straight, Demand.Holds, Spot.place, Edge.start, Prod.mk.injEq] at d1 d2 d3 d4 d5 d6 d7 d8
  obtain ⟨g0, g1, g2, g3, g4⟩ := d4
  have key := grid_straight g hR hC (rect := cellOf g.C (g.keys.map (· ++ k!"/Frame")) P)
    (H := (P.box k!"Figure").y1) hws ha0 g0 g1 g2 g3 g4
    (by rw [cell_frame hk P hR hC]; exact d3) (by rw [cell_frame hk P hR hC]; linarith)
    (by rw [cell_frame hk P hR hC]; linarith)
    (by rw [cell_frame hk P hR (by omega)]; linarith) (by rw [cell_frame hk P (by omega) hC]; linarith)
  obtain ⟨eH, eR⟩ := key
  refine ⟨rect_eq d2.1 d2.2 (by linarith) eH, fun i j hi hj => ?_⟩
  rw [← cell_frame hk P hi hj]
  exact eR i j hi hj

/-- The given places. -/
noncomputable def gridPlace (g : GridSpec) : Placement :=
  ⟨fun k => if k = k!"Figure" then ⟨0, 0, g.W, g.height⟩
    else g.rect ((g.keys.map (· ++ k!"/Frame")).idxOf k / g.C) ((g.keys.map (· ++ k!"/Frame")).idxOf k % g.C),
    fun _ => (0, 0)⟩

theorem gridPlace_frame (hk : g.KeysOK) {i j : Nat} (hi : i < g.R) (hj : j < g.C) :
    (gridPlace g).box (g.frameKey i j) = g.rect i j := by
  obtain ⟨k, h1, h2, h3⟩ := hk.get hi hj
  have hne : k ++ k!"/Frame" ≠ k!"Figure" := by
    intro e
    have : '/' ∈ k!"Figure" := by rw [← e]; simp
    exact absurd this (by decide)
  have hnd : (g.keys.map (· ++ k!"/Frame")).Nodup := hk.nodup.map (fun a b e => List.append_cancel_right e)
  have hlt : i * g.C + j < (g.keys.map (· ++ k!"/Frame")).length := by
    rw [List.length_map]
    exact (List.getElem?_eq_some_iff.mp h2).1
  have hidx : (g.keys.map (· ++ k!"/Frame")).idxOf (k ++ k!"/Frame") = i * g.C + j := by
    have e : (g.keys.map (· ++ k!"/Frame"))[i * g.C + j] = k ++ k!"/Frame" := by
      rw [List.getElem_map, (List.getElem?_eq_some_iff.mp h2).2]
    rw [← e]
    exact hnd.idxOf_getElem _ hlt
  have hC : 0 < g.C := hk.cols
  show (if g.frameKey i j = k!"Figure" then _ else _) = _
  rw [h3, if_neg hne, hidx, Nat.mul_comm i, Nat.mul_add_div hC, Nat.div_eq_of_lt hj, Nat.add_zero,
    Nat.mul_add_mod, Nat.mod_eq_of_lt hj]

theorem gridPlace_figure : (gridPlace g).box k!"Figure" = ⟨0, 0, g.W, g.height⟩ := by
  simp [gridPlace]

/-- The program of C84 is the figure program of these items. -/
theorem gridProg_items {t : GridTools} (hT : t.OK g.R g.C) :
    figProgram shippedTool 0 (gridItems g) = gridProg t g := by
  have b1 : shippedTool .box = t.box :=
    Except.ok.inj ((Demand.builds (.box k!"Figure")).symm.trans hT.box)
  have b2 : shippedTool .width = t.width :=
    Except.ok.inj ((Demand.builds (.width k!"Figure" 0)).symm.trans hT.width)
  have b3 : shippedTool .fix = t.fix :=
    Except.ok.inj ((Demand.builds (.fix (.first ⟨k!"Figure", .bottom⟩) 0 0)).symm.trans hT.fix)
  have b4 : shippedTool .aspectRatio = t.aspect :=
    Except.ok.inj ((Demand.builds (.aspect k!"Figure" 0)).symm.trans hT.aspect)
  have b5 : shippedTool (.grid g.R g.C) = t.grid :=
    Except.ok.inj ((Demand.builds (.grid g.R g.C [] g.ws g.hs g.ms g.ns)).symm.trans hT.grid)
  have b6 : ∀ side, shippedTool (.margin false side) = t.margin side := fun side =>
    Except.ok.inj ((Demand.builds (.inner side k!"Figure" k!"Figure" 0)).symm.trans (hT.margin side))
  have tail : ∀ n, figProgram shippedTool n (gridTailItems g) = addAll (gridTailCons t g) := by
    intro n
    simp only [gridTailItems, figProgram, Demand.kind, b4, b5, b6]
    rfl
  have axes : ∀ (keys : List Str) (n : Nat), figProgram shippedTool n (gridAxesItems keys ++ gridTailItems g)
      = ((keys.zipIdx n).flatMap fun ki => gridAxesStmts t ki.2 ki.1) ++ addAll (gridTailCons t g) := by
    intro keys
    induction keys with
    | nil => intro n; exact tail n
    | cons k keys ih =>
      intro n
      have := ih (n + 1)
      rw [List.zipIdx_cons, List.flatMap_cons]
      show Stmt.make _ :: Stmt.addPrim n k :: Stmt.addConstraint (shippedTool .box) [k ++ k!"/Frame"] [] [] ::
        figProgram shippedTool (n + 1) (gridAxesItems keys ++ gridTailItems g) = _
      rw [this, b1]
      rfl
  rw [gridProg, ← axes]
  show Stmt.make _ :: Stmt.addPrim 0 _ :: Stmt.addConstraint (shippedTool .box) _ _ [] ::
    Stmt.addConstraint (shippedTool .width) _ _ [] :: Stmt.addConstraint (shippedTool .fix) _ _ [] :: _ = _
  rw [b1, b2, b3]
  rfl

theorem gridItems_onestep (ha : g.aspect = 1) (hws : ∀ c, c + 1 < g.C → 0 < g.ws c)
    (hhs : ∀ r, r + 1 < g.R → 0 < g.hs r) : ∀ d ∈ figDemands (gridItems g), d.OneStep := by
  rw [gridItems_demands]
  intro d hd
  simp only [List.mem_append, List.mem_cons, List.mem_map, gridTailItems, figDemands, List.not_mem_nil,
    or_false] at hd
  rcases hd with (rfl | rfl | rfl) | ⟨k, _, rfl⟩ | rfl | rfl | rfl | rfl | rfl | rfl
  all_goals first
    | trivial
    | exact ha
    | exact ⟨fun c hc => (hws c hc).le, fun r hr => (hhs r hr).le⟩

/-- The given places satisfy the demands. -/
theorem gridPlace_straight (hk : g.KeysOK) (hw : 0 < g.colUnit) (ha : g.aspect = 1)
    (hws : ∀ c, c + 1 < g.C → 0 < g.ws c) (hhs : ∀ r, r + 1 < g.R → 0 < g.hs r) :
    ∀ d ∈ figDemands (gridItems g), d.Straight (gridPlace g) := by
  have hR := hk.rows
  have hC := hk.cols
  obtain ⟨hpos, laid, asp, e1, e2, e3, e4⟩ := grid_geometry g hC hw (by rw [ha]; exact one_ne_zero) hws hhs
  have hp : ∀ i j, i < g.R → j < g.C → (g.rect i j).Positive := fun i j hi hj =>
    (hpos i j hi hj).2 (by rw [ha]; exact one_pos)
  have cell : ∀ i j, i < g.R → j < g.C → cellOf g.C (g.keys.map (· ++ k!"/Frame")) (gridPlace g) i j = g.rect i j :=
    fun i j hi hj => (cell_frame hk _ hi hj).trans (gridPlace_frame hk hi hj)
  rw [gridItems_demands]
  simp only [List.forall_mem_append, gridTailItems, figDemands, List.forall_mem_cons]
  refine ⟨⟨trivial, ?_, ?_, by simp⟩, ?_, ?_, ?_, ?_, ?_, ?_, ?_, by simp⟩
  · simp only [Demand.Straight, Demand.Holds, gridPlace_figure]; ring
  · simp only [Demand.Straight, Demand.Holds, Spot.place, Edge.start, gridPlace_figure]
  · intro d hd
    obtain ⟨k, _, rfl⟩ := List.mem_map.mp hd
    trivial
  · obtain ⟨p1, p2⟩ := hp 0 0 hR hC
    simp only [Demand.Straight, gridPlace_frame hk hR hC]
    rw [ha, abs_one, abs_of_pos (sub_pos.mpr p1), abs_of_pos (sub_pos.mpr p2)] at asp
    rw [ha]
    exact asp
  · obtain ⟨⟨l1, l2⟩, l3, l4, l5, l6⟩ := laid
    refine ⟨⟨fun r c c' hr hc hc' => ?_, fun c r r' hc hr hr' => ?_⟩, fun c hc => ?_, fun r hr => ?_, fun c hc => ?_,
      fun r hr => ?_⟩
    · rw [cell r c hr hc, cell r c' hr hc']; exact l1 r c c' hr hc hc'
    · rw [cell r c hr hc, cell r' c hr' hc]; exact l2 c r r' hc hr hr'
    · have := l3 c hc
      rw [cell 0 _ hR hc, cell 0 0 hR hC]
      rwa [abs_of_pos (sub_pos.mpr (hp 0 _ hR hc).1), abs_of_pos (sub_pos.mpr (hp 0 0 hR hC).1)] at this
    · have := l4 r hr
      rw [cell _ 0 hr hC, cell 0 0 hR hC]
      rwa [abs_of_pos (sub_pos.mpr (hp _ 0 hr hC).2), abs_of_pos (sub_pos.mpr (hp 0 0 hR hC).2)] at this
    · rw [cell 0 _ hR hc, cell 0 _ hR (by omega)]; exact l5 c hc
    · rw [cell _ 0 (by omega) hC, cell _ 0 hr hC]; exact l6 r hr
  · simp only [Demand.Straight, Demand.Holds, gridPlace_frame hk hR hC, gridPlace_figure, e2]; ring
  · simp only [Demand.Straight, Demand.Holds, gridPlace_frame hk (i := g.R - 1) (by omega) hC, gridPlace_figure, e4]
    ring
  · simp only [Demand.Straight, Demand.Holds, gridPlace_frame hk hR hC, gridPlace_figure, e1]; ring
  · simp only [Demand.Straight, Demand.Holds, gridPlace_frame hk hR (j := g.C - 1) (by omega), gridPlace_figure, e3]
    ring

/-- C101 for `grid_axes.ipynb` with square first axes, as in the notebook: for every number of rows and
columns, if there is room between the margins, the solver finds the figure and every frame of the grid. -/
theorem C101_grid_axes (num : Numerics Flt) (hnum : Exact num) (t : GridTools) (g : GridSpec) (hT : t.OK g.R g.C)
    (hk : g.KeysOK) (hw : 0 < g.colUnit) (ha : g.aspect = 1) (hws : ∀ c, c + 1 < g.C → 0 < g.ws c)
    (hhs : ∀ r, r + 1 < g.R → 0 < g.hs r)
    (base : Nat) (a b : ℝ) (maxIter : Int) (hmax : 1 ≤ maxIter) :
    ∃ r info, solve num ((Session.start : Session Flt).run (gridProg t g)).layout base (fin a) (fin b)
        maxIter k!"newton" = .ok (r, info) ∧ g.PlacedIn r := by
  have ha0 : g.aspect ≠ 0 := by rw [ha]; exact one_ne_zero
  obtain ⟨hpos, -⟩ := grid_geometry g hk.cols hw ha0 hws hhs
  have hbox : ∀ k ∈ g.keys, .box (k ++ k!"/Frame") ∈ figDemands (gridItems g) := by
    intro k h
    rw [gridItems_demands]
    exact List.mem_append_right _ (List.mem_append_left _ (List.mem_map.mpr ⟨k, h, rfl⟩))
  have hfig : .box k!"Figure" ∈ figDemands (gridItems g) := by
    rw [gridItems_demands]
    exact List.mem_cons_self ..
  obtain ⟨r, info, h1, h2, P, hP, hs, _⟩ := C101_onestep num hnum (gridItems_ok hk) (toolsFor (gridItems g))
    (gridItems_onestep ha hws hhs) (List.ne_nil_of_mem hfig) ⟨_, gridPlace_straight hk hw ha hws hhs⟩
    (fun Q hQ => by
      obtain ⟨r1, r2⟩ := gridItems_straight hk hws ha0 hQ
      have key : ∀ k ∈ g.keys, (Q.box (k ++ k!"/Frame")).Proper := by
        intro k hk'
        obtain ⟨n, hn⟩ := List.getElem?_of_mem hk'
        have hlt : n < g.R * g.C := by
          rw [← hk.len]
          exact (List.getElem?_eq_some_iff.mp hn).1
        have hi : n / g.C < g.R := Nat.div_lt_of_lt_mul (by rw [Nat.mul_comm]; exact hlt)
        have hj : n % g.C < g.C := Nat.mod_lt _ hk.cols
        obtain ⟨k', _, e1, e2⟩ := hk.get hi hj
        have : n / g.C * g.C + n % g.C = n := Nat.div_add_mod' n g.C
        rw [this, hn, Option.some.injEq] at e1
        rw [e1, ← e2, r2 _ _ hi hj]
        exact (hpos _ _ hi hj).1
      rw [gridItems_demands]
      simp only [List.forall_mem_append, gridTailItems, figDemands, List.forall_mem_cons]
      refine ⟨⟨trivial, trivial, trivial, by simp⟩, ?_, ?_, ?_, trivial, trivial, trivial, trivial, by simp⟩
      · intro d hd
        obtain ⟨k, _, rfl⟩ := List.mem_map.mp hd
        trivial
      · show (Q.box (g.frameKey 0 0)).Proper
        rw [r2 _ _ hk.rows hk.cols]
        exact (hpos 0 0 hk.rows hk.cols).1
      · intro b hb
        obtain ⟨k, hk', rfl⟩ := List.mem_map.mp hb
        exact key k hk')
    base a b maxIter hmax
  rw [gridProg_items hT] at h1
  obtain ⟨p1, p2⟩ := gridItems_straight hk hws ha0 hs
  refine ⟨r, info, h1, ?_, fun i j hi hj => ?_⟩
  · obtain ⟨q, g1, g2⟩ := hP.1 _ hfig
    rw [p1] at g2
    exact ⟨q, g1, g2⟩
  · obtain ⟨k, hk', _, e⟩ := hk.get hi hj
    obtain ⟨q, g1, g2⟩ := hP.1 _ (hbox k hk')
    rw [← e, p2 i j hi hj] at g2
    rw [← e] at g1
    exact ⟨q, g1, g2⟩

/-- The hypotheses are met by a grid of two rows and two columns of different sizes. -/
example : ∃ g : GridSpec, g.KeysOK ∧ g.R = 2 ∧ g.C = 2 ∧ g.aspect = 1 ∧ 0 < g.colUnit ∧ g.W ≠ 0 ∧ g.height ≠ 0 ∧
    (∀ c, c + 1 < g.C → 0 < g.ws c) ∧ ∀ r, r + 1 < g.R → 0 < g.hs r := by
  refine ⟨⟨2, 2, [k!"Axes00", k!"Axes01", k!"Axes10", k!"Axes11"], 6, 1, 1, 1, 1, 1, fun _ => 2, fun _ => 1 / 2,
    fun _ => 1, fun _ => 1 / 2⟩, ⟨by decide, by decide, by decide, by decide, ?_, ?_⟩, rfl, rfl, rfl, ?_⟩
  · decide
  · decide
  · norm_num [colUnit, height, rowUnit]

end MplLayout.Props
