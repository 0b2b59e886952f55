import Verif.Props.OneStepGrid

/-!
# C101 for the layout of `examples/profile_solver.py`
-/

namespace MplLayout.Props

open Flt Solver GridSpec

variable {g : GridSpec}

/-- The grid and the margins (`examples/profile_solver.py:46-86`). -/
def profTail (g : GridSpec) : List FigItem :=
  [.ask (.grid g.R g.C (g.keys.map (· ++ k!"/Frame")) g.ws g.hs g.ms g.ns),
   .ask (.relative ⟨g.frameKey 0 0, .bottom⟩ ⟨g.frameKey 0 0, .right⟩ g.aspect),
   .ask (.distanceAlong (.last ⟨g.frameKey 0 0, .right⟩) (.last ⟨k!"Figure", .right⟩) (0, 1) g.top),
   .ask (.distanceAlong (.first ⟨g.frameKey (g.R - 1) (g.C - 1), .right⟩) (.first ⟨k!"Figure", .right⟩) (0, -1)
     g.bottom),
   .ask (.distanceAlong (.first ⟨g.frameKey 0 0, .bottom⟩) (.first ⟨k!"Figure", .bottom⟩) (-1, 0) g.left),
   .ask (.distanceAlong (.last ⟨g.frameKey 0 (g.C - 1), .right⟩) (.last ⟨k!"Figure", .right⟩) (1, 0) g.right)]

/-- `gen_layout` of `examples/profile_solver.py:21-87`, for any shape, sizes and margins: a figure of a given
width at the origin, a grid of axes of which the first has a given ratio of the sides, and the margins of the
grid as distances along a direction. -/
def profItems (g : GridSpec) : List FigItem :=
  [.make (.point k!"Origin"), .ask (.fix (.point k!"Origin") 0 0),
    .make (.quad k!"Figure"), .ask (.box k!"Figure"), .ask (.length ⟨k!"Figure", .bottom⟩ g.W),
    .ask (.coincident (.first ⟨k!"Figure", .bottom⟩) (.point k!"Origin"))] ++ (gridAxesItems g.keys ++ profTail g)

theorem profItems_makes (g : GridSpec) :
    figMakes (profItems g) = .point k!"Origin" :: .quad k!"Figure" ::
      g.keys.map fun k => .axes k false false false false := by
  simp [profItems, figMakes_app, gridAxes_makes, figMakes, profTail]

theorem profItems_demands (g : GridSpec) :
    figDemands (profItems g) = [.fix (.point k!"Origin") 0 0, .box k!"Figure", .length ⟨k!"Figure", .bottom⟩ g.W,
      .coincident (.first ⟨k!"Figure", .bottom⟩) (.point k!"Origin")] ++
      ((g.keys.map fun k => .box (k ++ k!"/Frame")) ++ figDemands (profTail g)) := by
  simp [profItems, figDemands_app, gridAxes_demands, figDemands]

theorem profItems_ok (hk : g.KeysOK) : FigOK (profItems g) := by
  have hR := hk.rows
  have hC := hk.cols
  have fk : ∀ {i j}, i < g.R → j < g.C → ∃ k ∈ g.keys, g.frameKey i j = k ++ k!"/Frame" := by
    intro i j hi hj
    obtain ⟨k, h1, _, h2⟩ := hk.get hi hj
    exact ⟨k, h1, h2⟩
  obtain ⟨k00, m00, e00⟩ := fk hR hC
  obtain ⟨kR, mR, eR⟩ := fk (i := g.R - 1) (j := g.C - 1) (by omega) (by omega)
  obtain ⟨kC, mC, eC⟩ := fk hR (j := g.C - 1) (by omega)
  refine ⟨?_, ?_, ?_, ?_, ?_⟩
  · rw [profItems_makes]
    intro m hm
    rcases List.mem_cons.mp hm with rfl | hm
    · decide
    rcases List.mem_cons.mp hm with rfl | hm
    · decide
    · obtain ⟨k, hk', rfl⟩ := List.mem_map.mp hm
      exact hk.slash k hk'
  · rw [profItems_makes, List.map_cons, List.map_cons, List.map_map, List.nodup_cons, List.nodup_cons]
    refine ⟨fun hm => ?_, fun hm => ?_, ?_⟩
    · rcases List.mem_cons.mp hm with e | hm
      · exact absurd e (by decide)
      · obtain ⟨k, hk', e⟩ := List.mem_map.mp hm
        have := hk.axes k hk'
        rw [show k = k!"Origin" from e] at this
        exact absurd this (by decide)
    · obtain ⟨k, hk', e⟩ := List.mem_map.mp hm
      exact KeysOK.notFigure hk k hk' e
    · have : (Make.key ∘ fun k => Make.axes k false false false false) = id := rfl
      rw [this, List.map_id]
      exact hk.nodup
  · refine ⟨⟨?_, ?_, ?_⟩, ⟨?_, ?_, ?_⟩, ⟨?_, ?_, ?_⟩, ⟨?_, ?_, ?_⟩, gridAxes_scope _ _ _ _ _ fun B Q A h1 h2 => ?_⟩
    all_goals try simp [Demand.boxes, Demand.points, Demand.axes, Make.boxes, Make.points, Spot.boxes, Spot.points]
    have hf : k!"Figure" ∈ B := h1 (by simp [Make.boxes])
    simp only [profTail, FigInScope, Demand.boxes, Demand.points, Demand.axes, Spot.boxes, Spot.points,
      List.nil_subset, and_true, List.cons_append, List.nil_append, List.append_nil,
      List.cons_subset, e00, eR, eC]
    refine ⟨?_, ⟨h2 _ m00, h2 _ m00⟩, ⟨h2 _ m00, hf⟩, ⟨h2 _ mR, hf⟩, ⟨h2 _ m00, hf⟩, h2 _ mC, hf⟩
    intro b hb
    obtain ⟨k, hk', rfl⟩ := List.mem_map.mp hb
    exact h2 k hk'
  · rw [profItems_demands]
    intro d hd
    simp only [List.mem_append, List.mem_cons, List.mem_map, profTail, figDemands, List.not_mem_nil,
      or_false] at hd
    rcases hd with (rfl | rfl | rfl | rfl) | ⟨k, _, rfl⟩ | rfl | rfl | rfl | rfl | rfl | rfl
    all_goals try trivial
    exact ⟨hR, hC, by rw [List.length_map, hk.len]⟩
  · have hfig : Demand.box k!"Figure" ∈ figDemands (profItems g) := by rw [profItems_demands]; simp
    have hfr : ∀ k ∈ g.keys, Demand.box (k ++ k!"/Frame") ∈ figDemands (profItems g) := by
      intro k h
      rw [profItems_demands]
      exact List.mem_append_right _ (List.mem_append_left _ (List.mem_map.mpr ⟨k, h, rfl⟩))
    intro d hd b hb
    rw [profItems_demands] at hd
    simp only [List.mem_append, List.mem_cons, List.mem_map, profTail, figDemands, List.not_mem_nil,
      or_false] at hd
    rcases hd with (rfl | rfl | rfl | rfl) | ⟨k, hk', rfl⟩ | rfl | rfl | rfl | rfl | rfl | rfl <;>
      simp only [Demand.boxes, Spot.boxes, List.mem_cons, List.not_mem_nil, or_false, e00, eR, eC, List.mem_map,
        List.cons_append, List.nil_append, List.append_nil] at hb
    · rw [hb]; exact hfig
    · rw [hb]; exact hfig
    · rw [hb]; exact hfig
    · rw [hb]; exact hfr k hk'
    · obtain ⟨k, h, rfl⟩ := hb; exact hfr k h
    · rcases hb with rfl | rfl <;> exact hfr _ m00
    · rcases hb with rfl | rfl
      · exact hfr _ m00
      · exact hfig
    · rcases hb with rfl | rfl
      · exact hfr _ mR
      · exact hfig
    · rcases hb with rfl | rfl
      · exact hfr _ m00
      · exact hfig
    · rcases hb with rfl | rfl
      · exact hfr _ mC
      · exact hfig

theorem profItems_onestep (hW : 0 ≤ g.W) (ha : 0 ≤ g.aspect) (hws : ∀ c, c + 1 < g.C → 0 < g.ws c)
    (hhs : ∀ r, r + 1 < g.R → 0 < g.hs r) : ∀ d ∈ figDemands (profItems g), d.OneStep := by
  rw [profItems_demands]
  intro d hd
  simp only [List.mem_append, List.mem_cons, List.mem_map, profTail, figDemands, List.not_mem_nil,
    or_false] at hd
  rcases hd with (rfl | rfl | rfl | rfl) | ⟨k, _, rfl⟩ | rfl | rfl | rfl | rfl | rfl | rfl
  all_goals first
    | trivial
    | exact ha
    | exact hW
    | exact ⟨fun c hc => (hws c hc).le, fun r hr => (hhs r hr).le⟩

/-- The plain equations give the places. -/
theorem profItems_straight (hk : g.KeysOK) (hws : ∀ c, c + 1 < g.C → 0 < g.ws c) (ha0 : g.aspect ≠ 0)
    {P : Placement} (hd : ∀ d ∈ figDemands (profItems g), d.Straight P) :
    P.box k!"Figure" = ⟨0, 0, g.W, g.height⟩ ∧
      ∀ i j, i < g.R → j < g.C → P.box (g.frameKey i j) = g.rect i j := by
  have hR := hk.rows
  have hC := hk.cols
  rw [profItems_demands] at hd
  simp only [List.forall_mem_append, profTail, figDemands, List.forall_mem_cons] at hd
  obtain ⟨⟨d0, -, d1, d2, -⟩, -, d4, d3, d5, d6, d7, d8, -⟩ := hd
  simp only [Demand.Straight, Demand.Holds, Spot.place, Edge.start, Edge.stop, Edge.run] at d0 d1 d2 d3 d4 d5 d6 d7 d8
  rw [d0] at d2
  simp only [Prod.mk.injEq] at d2
  obtain ⟨g0, g1, g2, g3, g4⟩ := d4
  have ea := (g0.1 (g.R - 1) (g.C - 1) 0 (by omega) (by omega) hC).1
  rw [cell_frame hk P (by omega) (by omega), cell_frame hk P (by omega) hC] at ea
  have key := grid_straight g hR hC (rect := cellOf g.C (g.keys.map (· ++ k!"/Frame")) P)
    (H := (P.box k!"Figure").y1) hws ha0 g0 g1 g2 g3 g4
    (by rw [cell_frame hk P hR hC]; exact d3) (by rw [cell_frame hk P hR hC]; linarith)
    (by rw [cell_frame hk P hR hC]; linarith)
    (by rw [cell_frame hk P hR (by omega)]; linarith) (by rw [cell_frame hk P (by omega) hC]; linarith)
  obtain ⟨eH, eR⟩ := key
  refine ⟨rect_eq d2.1 d2.2 (by linarith) eH, fun i j hi hj => ?_⟩
  rw [← cell_frame hk P hi hj]
  exact eR i j hi hj

/-- The ends of the grid, even if the first column has a negative width. -/
theorem rect_ends (hC : 0 < g.C) (hws : ∀ c, c + 1 < g.C → 0 < g.ws c) :
    (g.rect 0 (g.C - 1)).x1 = g.W - g.right ∧ (g.rect (g.R - 1) 0).y0 = g.bottom := by
  have hden : 0 < 1 + ∑ i ∈ Finset.range (g.C - 1), g.ws i := by
    have : 0 ≤ ∑ i ∈ Finset.range (g.C - 1), g.ws i := by
      apply Finset.sum_nonneg
      intro i hi
      rw [Finset.mem_range] at hi
      exact (hws i (by omega)).le
    linarith
  have e := sum_blocks g.colUnit g.ws g.ms (g.C - 1)
  have e' := sum_blocks g.rowUnit g.hs g.ns (g.R - 1)
  have hu : g.colUnit * (1 + ∑ i ∈ Finset.range (g.C - 1), g.ws i)
      = g.W - g.left - g.right - ∑ i ∈ Finset.range (g.C - 1), g.ms i := div_mul_cancel₀ _ hden.ne'
  constructor
  · simp only [rect, x]; linarith
  · simp only [rect, y, height]; linarith

/-- The given places satisfy the demands. -/
theorem profPlace_straight (hk : g.KeysOK) (ha : g.aspect ≠ 0) (hws : ∀ c, c + 1 < g.C → 0 < g.ws c) :
    ∀ d ∈ figDemands (profItems g), d.Straight (gridPlace g) := by
  have hR := hk.rows
  have hC := hk.cols
  obtain ⟨n1, n2⟩ := rect_ends hC hws
  have cell : ∀ i j, i < g.R → j < g.C → cellOf g.C (g.keys.map (· ++ k!"/Frame")) (gridPlace g) i j = g.rect i j :=
    fun i j hi hj => (cell_frame hk _ hi hj).trans (gridPlace_frame hk hi hj)
  have ha1 : g.colUnit = g.aspect * g.rowUnit := by rw [rowUnit]; field_simp
  rw [profItems_demands]
  simp only [List.forall_mem_append, profTail, figDemands, List.forall_mem_cons]
  refine ⟨⟨rfl, trivial, ?_, ?_, by simp⟩, ?_, ?_, ?_, ?_, ?_, ?_, ?_, by simp⟩
  · simp only [Demand.Straight, Edge.run, gridPlace_figure]; ring
  · simp only [Demand.Straight, Demand.Holds, Spot.place, Edge.start, gridPlace_figure]; rfl
  · intro d hd
    obtain ⟨k, _, rfl⟩ := List.mem_map.mp hd
    trivial
  · refine ⟨⟨fun r c c' hr hc hc' => ?_, fun c r r' hc hr hr' => ?_⟩, fun c hc => ?_, fun r hr => ?_, fun c hc => ?_,
      fun r hr => ?_⟩
    · rw [cell r c hr hc, cell r c' hr hc']; exact ⟨rfl, rfl⟩
    · rw [cell r c hr hc, cell r' c hr' hc]; exact ⟨rfl, rfl⟩
    · rw [cell 0 _ hR hc, cell 0 0 hR hC]; simp only [rect, rel]; ring
    · rw [cell _ 0 hr hC, cell 0 0 hR hC]; simp only [rect, rel]; ring
    · rw [cell 0 _ hR hc, cell 0 _ hR (by omega)]; simp only [rect, x, Finset.sum_range_succ]; ring
    · rw [cell _ 0 (by omega) hC, cell _ 0 hr hC]; simp only [rect, y, Finset.sum_range_succ]; ring
  · simp only [Demand.Straight, Edge.run, gridPlace_frame hk hR hC, rect, rel]; linarith
  · simp only [Demand.Straight, Demand.Holds, Spot.place, Edge.stop, gridPlace_frame hk hR hC, gridPlace_figure,
      rect, y, Finset.range_zero, Finset.sum_empty]; ring
  · have : (g.rect (g.R - 1) (g.C - 1)).y0 = g.bottom := n2
    simp only [Demand.Straight, Demand.Holds, Spot.place, Edge.start,
      gridPlace_frame hk (i := g.R - 1) (j := g.C - 1) (by omega) (by omega), gridPlace_figure, this]
    ring
  · simp only [Demand.Straight, Demand.Holds, Spot.place, Edge.start, gridPlace_frame hk hR hC, gridPlace_figure,
      rect, x, Finset.range_zero, Finset.sum_empty]; ring
  · simp only [Demand.Straight, Demand.Holds, Spot.place, Edge.stop,
      gridPlace_frame hk hR (j := g.C - 1) (by omega), gridPlace_figure, n1]
    ring

/-- No frame is flat. -/
theorem rect_proper (hw : g.colUnit ≠ 0) (ha : g.aspect ≠ 0) (hws : ∀ c, c + 1 < g.C → 0 < g.ws c)
    (hhs : ∀ r, r + 1 < g.R → 0 < g.hs r) {i j : Nat} (hi : i < g.R) (hj : j < g.C) : (g.rect i j).Proper := by
  have hh : g.rowUnit ≠ 0 := div_ne_zero hw ha
  have pw : rel g.ws j ≠ 0 := by
    cases j with
    | zero => exact one_ne_zero
    | succ c => exact (hws c hj).ne'
  have ph : rel g.hs i ≠ 0 := by
    cases i with
    | zero => exact one_ne_zero
    | succ c => exact (hhs c hi).ne'
  have h1 := mul_ne_zero hw pw
  have h2 := mul_ne_zero hh ph
  constructor
  · simp only [rect]
    intro e
    exact h1 (by linarith)
  · simp only [rect]
    intro e
    exact h2 (by linarith)

/-- C101 for the layout of `examples/profile_solver.py`: for every shape, widths, heights and margins of the
grid for which the margins do not use up exactly the width of the figure, the solver finds the figure and every
frame.  The frames are turned over if the margins take more than the width. -/
theorem C101_profile (num : Numerics Flt) (hnum : Exact num) (hk : g.KeysOK) (hW : 0 < g.W) (ha : 0 < g.aspect)
    (hw : g.colUnit ≠ 0) (hws : ∀ c, c + 1 < g.C → 0 < g.ws c) (hhs : ∀ r, r + 1 < g.R → 0 < g.hs r)
    (base : Nat) (a b : ℝ) (maxIter : Int) (hmax : 1 ≤ maxIter) :
    ∃ r info, solve num ((Session.start : Session Flt).run (figProgram shippedTool 0 (profItems g))).layout base
        (fin a) (fin b) maxIter k!"newton" = .ok (r, info) ∧ Moves shippedTool (profItems g) r ∧ g.PlacedIn r := by
  have hbox : ∀ k ∈ g.keys, .box (k ++ k!"/Frame") ∈ figDemands (profItems g) := by
    intro k h
    rw [profItems_demands]
    exact List.mem_append_right _ (List.mem_append_left _ (List.mem_map.mpr ⟨k, h, rfl⟩))
  have hfig : .box k!"Figure" ∈ figDemands (profItems g) := by
    rw [profItems_demands]
    simp
  obtain ⟨r, info, h1, h2, P, hP, hs, _⟩ := C101_onestep num hnum (profItems_ok hk) (toolsFor (profItems g))
    (profItems_onestep hW.le ha.le hws hhs) (List.ne_nil_of_mem hfig) ⟨_, profPlace_straight hk ha.ne' hws⟩
    (fun Q hQ => by
      obtain ⟨r1, r2⟩ := profItems_straight hk hws ha.ne' hQ
      have key : ∀ k ∈ g.keys, (Q.box (k ++ k!"/Frame")).Proper := by
        intro k hk'
        obtain ⟨n, hn⟩ := List.getElem?_of_mem hk'
        have hlt : n < g.R * g.C := by
          rw [← hk.len]
          exact (List.getElem?_eq_some_iff.mp hn).1
        have hi : n / g.C < g.R := Nat.div_lt_of_lt_mul (by rw [Nat.mul_comm]; exact hlt)
        have hj : n % g.C < g.C := Nat.mod_lt _ hk.cols
        obtain ⟨k', _, e1, e2⟩ := hk.get hi hj
        have : n / g.C * g.C + n % g.C = n := Nat.div_add_mod' n g.C
        rw [this, hn, Option.some.injEq] at e1
        rw [e1, ← e2, r2 _ _ hi hj]
        exact rect_proper hw ha.ne' hws hhs hi hj
      obtain ⟨p1, p2⟩ := rect_proper hw ha.ne' hws hhs hk.rows hk.cols
      rw [profItems_demands]
      simp only [List.forall_mem_append, profTail, figDemands, List.forall_mem_cons]
      refine ⟨⟨trivial, trivial, ?_, trivial, by simp⟩, ?_, ?_, ⟨?_, ?_⟩, trivial, trivial, trivial, trivial, by simp⟩
      · show (Q.box k!"Figure").x1 - (Q.box k!"Figure").x0 ≠ 0
        rw [r1]
        simpa using hW.ne'
      · intro d hd
        obtain ⟨k, _, rfl⟩ := List.mem_map.mp hd
        trivial
      · intro b hb
        obtain ⟨k, hk', rfl⟩ := List.mem_map.mp hb
        exact key k hk'
      · simp only [Edge.run, r2 _ _ hk.rows hk.cols]
        exact sub_ne_zero.mpr p1.symm
      · simp only [Edge.run, r2 _ _ hk.rows hk.cols]
        exact sub_ne_zero.mpr p2.symm)
    base a b maxIter hmax
  obtain ⟨p1, p2⟩ := profItems_straight hk hws ha.ne' hs
  refine ⟨r, info, h1, h2, ?_, fun i j hi hj => ?_⟩
  · obtain ⟨q, g1, g2⟩ := hP.1 _ hfig
    rw [p1] at g2
    exact ⟨q, g1, g2⟩
  · obtain ⟨k, hk', _, e⟩ := hk.get hi hj
    obtain ⟨q, g1, g2⟩ := hP.1 _ (hbox k hk')
    rw [← e, p2 i j hi hj] at g2
    rw [← e] at g1
    exact ⟨q, g1, g2⟩

/-- The numbers of `examples/profile_solver.py:26-86` (the widths are `1 / 16` of the first column and the margins
are 1), in a grid of two rows and two columns. -/
noncomputable def profNumbers (R C : Nat) (keys : List Str) : GridSpec :=
  ⟨R, C, keys, 6, 2, 1 / 5, 3 / 10, 1 / 2, 11 / 10, fun _ => 1 / 16, fun _ => 1 / 16, fun _ => 1, fun _ => 1⟩

example : let g := profNumbers 2 2 [k!"Axes0", k!"Axes1", k!"Axes2", k!"Axes3"]
    g.KeysOK ∧ 0 < g.W ∧ 0 < g.aspect ∧ 0 < g.colUnit ∧ (∀ c, c + 1 < g.C → 0 < g.ws c) ∧
      ∀ r, r + 1 < g.R → 0 < g.hs r := by
  refine ⟨⟨by decide, by decide, by decide, by decide, by decide, by decide⟩, ?_⟩
  norm_num [profNumbers, colUnit]

theorem profNumbers_flipped (keys : List Str) (i j : Nat) :
    ((profNumbers 12 12 keys).rect i j).x1 < ((profNumbers 12 12 keys).rect i j).x0 ∧
      ((profNumbers 12 12 keys).rect i j).y1 < ((profNumbers 12 12 keys).rect i j).y0 := by
  have hw : (profNumbers 12 12 keys).colUnit = -88 / 27 := by
    norm_num [profNumbers, colUnit]
  have hh : (profNumbers 12 12 keys).rowUnit = -44 / 27 := by
    rw [rowUnit, hw]
    norm_num [profNumbers]
  have pos : ∀ n, 0 < rel (fun _ => (1 / 16 : ℝ)) n := by
    intro n
    cases n <;> norm_num [rel]
  have p1 := pos i
  have p2 := pos j
  have e1 : (profNumbers 12 12 keys).hs = fun _ => 1 / 16 := rfl
  have e2 : (profNumbers 12 12 keys).ws = fun _ => 1 / 16 := rfl
  constructor
  · simp only [rect, hw, e2]; linarith
  · simp only [rect, hh, e1]; linarith

/-- The numbers and the shape of `examples/profile_solver.py:91`: the margins of 12 columns take more than the
width of the figure, and the solver turns every frame over instead of failing. -/
theorem C101_profile_flipped (num : Numerics Flt) (hnum : Exact num) (keys : List Str)
    (hk : (profNumbers 12 12 keys).KeysOK) (base : Nat) (a b : ℝ) (maxIter : Int) (hmax : 1 ≤ maxIter) :
    ∃ r info, solve num ((Session.start : Session Flt).run
          (figProgram shippedTool 0 (profItems (profNumbers 12 12 keys)))).layout base (fin a) (fin b) maxIter
          k!"newton" = .ok (r, info) ∧
      ∀ i j, i < 12 → j < 12 → ∃ q R, r.getChild ((profNumbers 12 12 keys).frameKey i j) = .ok q ∧ IsRect q R ∧
        R.x1 < R.x0 ∧ R.y1 < R.y0 := by
  obtain ⟨r, info, h1, -, -, h2⟩ := C101_profile num hnum hk (by norm_num [profNumbers]) (by norm_num [profNumbers])
    (by norm_num [profNumbers, colUnit]) (by norm_num [profNumbers]) (by norm_num [profNumbers]) base a b maxIter hmax
  refine ⟨r, info, h1, fun i j hi hj => ?_⟩
  obtain ⟨q, e1, e2⟩ := h2 i j hi hj
  exact ⟨q, _, e1, e2, profNumbers_flipped keys i j⟩

/-- There are 144 such keys. -/
example : ∃ keys, (profNumbers 12 12 keys).KeysOK := by
  refine ⟨(List.range 144).map fun n => k!"Axes" ++ List.replicate n 'a', by decide, by decide, ?_, ?_, ?_, ?_⟩
  · simp [profNumbers]
  · refine List.nodup_range.map fun m n e => ?_
    simpa using congrArg List.length e
  · intro k h
    obtain ⟨n, _, rfl⟩ := List.mem_map.mp h
    simp [List.mem_replicate]
  · intro k h
    obtain ⟨n, _, rfl⟩ := List.mem_map.mp h
    exact List.IsPrefix.isInfix (List.prefix_append _ _)

end MplLayout.Props
