import Verif.Props.Figure

/-!
# C93: the example notebooks

The programs of `examples/*.ipynb` as figure programs, with any numbers in place of the notebooks' numbers.
-/

namespace MplLayout.Props

open Flt Solver

/-- The constraint object that a class makes. -/
noncomputable def shippedTool (s : Shipped) : Cons Flt :=
  match s.build with
  | .ok c => c
  | .error _ => boxT

theorem Demand.builds (d : Demand) : d.kind.build = .ok (shippedTool d.kind) := by
  have : ∃ c, d.kind.build = .ok c := by
    cases d with
    | box => exact ⟨_, box_eq⟩
    | width => exact ⟨_, ct_width_eq⟩
    | height => exact ⟨_, ct_height_eq⟩
    | aspect => exact ⟨_, ct_aspectRatio_eq⟩
    | inner => exact ⟨_, ct_margin_eq _ _⟩
    | outer => exact ⟨_, ct_margin_eq _ _⟩
    | row => exact ⟨_, align_eq true⟩
    | column => exact ⟨_, align_eq false⟩
    | length => exact ⟨_, ct_length_eq⟩
    | xLength => exact ⟨_, ct_xLength_eq⟩
    | yLength => exact ⟨_, ct_yLength_eq⟩
    | lengthAlong => exact ⟨_, ct_directedLength_eq⟩
    | relative => exact ⟨_, relativeLength_eq⟩
    | collinear => exact ⟨_, rfl⟩
    | midX => exact ⟨_, ct_midpointXDistance_eq⟩
    | midY => exact ⟨_, ct_midpointYDistance_eq⟩
    | fix => exact ⟨_, ct_fix_eq⟩
    | coincident => exact ⟨_, rfl⟩
    | xDistance => exact ⟨_, ct_xDistance_eq⟩
    | yDistance => exact ⟨_, ct_yDistance_eq⟩
    | distanceAlong => exact ⟨_, ct_directedDistance_eq⟩
    | toLine => exact ⟨_, ct_pointToLineDistance_eq⟩
    | axisAt => exact ⟨_, position_eq _ _ _⟩
    | thickness => exact ⟨_, thickness_eq _⟩
    | label => exact ⟨_, label_eq _ _⟩
    | cells => exact ⟨_, rectilinearGrid_eq _ _⟩
    | grid => exact ⟨_, grid_eq (ct_margin_eq true .right) (ct_margin_eq true .bottom) _ _⟩
  obtain ⟨c, e⟩ := this
  unfold shippedTool
  rw [e]

theorem toolsFor (items : List FigItem) : ToolsFor shippedTool items := fun d _ => Demand.builds d

theorem rect_eq {r : Rect} {a b c d : ℝ} (h1 : r.x0 = a) (h2 : r.y0 = b) (h3 : r.x1 = c) (h4 : r.y1 = d) :
    r = ⟨a, b, c, d⟩ := by
  subst h1 h2 h3 h4
  rfl

/-! ## `two_axes.ipynb` -/

/-- Two axes side by side in a figure, aligned in a row. -/
def twoAxes (W H left right gap top bottom width : ℝ) : List FigItem :=
  [.make (.point k!"Origin"), .ask (.fix (.point k!"Origin") 0 0),
   .make (.quad k!"Figure"), .ask (.box k!"Figure"),
   .make (.axes k!"AxesLeft" false false false false), .make (.axes k!"AxesRight" false false false false),
   .ask (.box k!"AxesLeft/Frame"), .ask (.box k!"AxesRight/Frame"),
   .ask (.width k!"Figure" W), .ask (.height k!"Figure" H),
   .ask (.coincident (.first ⟨k!"Figure", .bottom⟩) (.point k!"Origin")),
   .ask (.inner .left k!"AxesLeft/Frame" k!"Figure" left),
   .ask (.inner .right k!"AxesRight/Frame" k!"Figure" right),
   .ask (.outer .right k!"AxesLeft/Frame" k!"AxesRight/Frame" gap),
   .ask (.inner .bottom k!"AxesLeft/Frame" k!"Figure" bottom),
   .ask (.inner .top k!"AxesLeft/Frame" k!"Figure" top),
   .ask (.row k!"AxesLeft/Frame" k!"AxesRight/Frame"),
   .ask (.width k!"AxesLeft/Frame" width)]

theorem twoAxes_ok (W H left right gap top bottom width : ℝ) :
    FigOK (twoAxes W H left right gap top bottom width) where
  slash := by simp only [twoAxes, figMakes, List.forall_mem_cons]; decide
  nodup := by simp only [twoAxes, figMakes, List.map_cons, List.map_nil]; decide
  scope := by
    simp [twoAxes, FigInScope, Demand.boxes, Demand.points, Demand.axes, Spot.boxes, Spot.points, Make.boxes,
      Make.points, Make.axesKeys]
  params := by simp [twoAxes, figDemands, Demand.ParamOK]
  boxed := by simp [twoAxes, figDemands, Demand.boxes, Spot.boxes]

/-- C93 for `two_axes.ipynb`: if the width of the left axes is not zero, the solutions are the layouts with
the figure and the two frames at the places that follow, and there is one. -/
theorem C93_two_axes (W H left right gap top bottom width : ℝ) (hw : width ≠ 0) :
    let items := twoAxes W H left right gap top bottom width
    (∀ r, Moves shippedTool items r → HoldsAll shippedTool items r →
      (∃ q, r.getChild k!"Figure" = .ok q ∧ IsRect q ⟨0, 0, W, H⟩) ∧
      (∃ q, r.getChild k!"AxesLeft/Frame" = .ok q ∧ IsRect q ⟨left, bottom, left + width, H - top⟩) ∧
      ∃ q, r.getChild k!"AxesRight/Frame" = .ok q ∧
        IsRect q ⟨left + width + gap, bottom, W - right, H - top⟩) ∧
    ∃ r, Moves shippedTool items r ∧ HoldsAll shippedTool items r := by
  intro items
  have hF := twoAxes_ok W H left right gap top bottom width
  have hT := toolsFor items
  constructor
  · intro r hr hall
    obtain ⟨P, hP⟩ := C93_placed hF hT hr hall
    have hd := C93_demands hF hT hr hP hall
    simp only [twoAxes, figDemands, List.forall_mem_cons, Demand.Regular, Demand.Holds, true_implies,
      Spot.place, Edge.start] at hd
    obtain ⟨d1, -, -, -, d2, d3, d4, d5, d6, d7, d8, d9, d10, d11, -⟩ := hd
    have d10 := d10 (by intro e; apply hw; linarith)
    rw [d1] at d4
    simp only [Prod.mk.injEq] at d4
    obtain ⟨q1, g1, e1⟩ := hP.1 k!"Figure" (by simp [twoAxes, figDemands])
    obtain ⟨q2, g2, e2⟩ := hP.1 k!"AxesLeft/Frame" (by simp [twoAxes, figDemands])
    obtain ⟨q3, g3, e3⟩ := hP.1 k!"AxesRight/Frame" (by simp [twoAxes, figDemands])
    have r1 : P.box k!"Figure" = ⟨0, 0, W, H⟩ := by
      apply rect_eq <;> linarith
    have r2 : P.box k!"AxesLeft/Frame" = ⟨left, bottom, left + width, H - top⟩ := by
      apply rect_eq <;> linarith
    have r3 : P.box k!"AxesRight/Frame" = ⟨left + width + gap, bottom, W - right, H - top⟩ := by
      apply rect_eq <;> linarith
    rw [r1] at e1
    rw [r2] at e2
    rw [r3] at e3
    exact ⟨⟨q1, g1, e1⟩, ⟨q2, g2, e2⟩, ⟨q3, g3, e3⟩⟩
  · obtain ⟨r, h1, _, h3⟩ := C93_exists hF hT (P := ⟨fun k =>
        if k = k!"Figure" then ⟨0, 0, W, H⟩
        else if k = k!"AxesLeft/Frame" then ⟨left, bottom, left + width, H - top⟩
        else ⟨left + width + gap, bottom, W - right, H - top⟩, fun _ => (0, 0)⟩)
      (by simp [twoAxes, figDemands, Demand.Regular, hw])
      (by simp [twoAxes, figDemands, Demand.Holds, Spot.place, Edge.start])
    exact ⟨r, h1, h3⟩

/-! ## `one_axes.ipynb` -/

/-- One axes in a figure, with four margins. -/
def oneAxesFig (W H left right bottom top : ℝ) : List FigItem :=
  [.make (.quad k!"Figure"), .make (.axes k!"Axes" false false false false),
   .ask (.box k!"Figure"), .ask (.box k!"Axes/Frame"),
   .ask (.xLength ⟨k!"Figure", .bottom⟩ W), .ask (.yLength ⟨k!"Figure", .right⟩ H),
   .ask (.inner .left k!"Axes/Frame" k!"Figure" left), .ask (.inner .right k!"Axes/Frame" k!"Figure" right),
   .ask (.inner .bottom k!"Axes/Frame" k!"Figure" bottom), .ask (.inner .top k!"Axes/Frame" k!"Figure" top)]

theorem oneAxesFig_ok (W H left right bottom top : ℝ) : FigOK (oneAxesFig W H left right bottom top) where
  slash := by simp only [oneAxesFig, figMakes, List.forall_mem_cons]; decide
  nodup := by simp only [oneAxesFig, figMakes, List.map_cons, List.map_nil]; decide
  scope := by
    simp [oneAxesFig, FigInScope, Demand.boxes, Demand.points, Demand.axes, Make.boxes,
      Make.points, Make.axesKeys]
  params := by simp [oneAxesFig, figDemands, Demand.ParamOK]
  boxed := by simp [oneAxesFig, figDemands, Demand.boxes]

/-- C93 for `one_axes.ipynb`: solving succeeds, and the figure is drawn with the axes at the place that the
notebook computes by hand. -/
theorem C93_one_axes (num : Numerics Flt) (hnum : Exact num) (W H left right bottom top : ℝ) (hW : W ≠ 0)
    (hH : H ≠ 0) (base : Nat) (a b : ℝ) (maxIter : Int) (hmax : 1 ≤ maxIter) :
    ∃ r info calls, solve num ((Session.start : Session Flt).run (figProgram shippedTool 0
        (oneAxesFig W H left right bottom top))).layout base (fin a) (fin b) maxIter k!"newton" = .ok (r, info) ∧
      subplots r k!"Figure" none = .ok (calls, [(k!"Axes", 0)]) ∧
      (∀ w h, .setSize w h ∈ calls ↔ w = fin W ∧ h = fin H) ∧
      ∀ rect, .setPosition 0 rect ∈ calls ↔ rect = (fin (left / W), fin (bottom / H),
        fin ((W - left - right) / W), fin ((H - bottom - top) / H)) := by
  have hF := oneAxesFig_ok W H left right bottom top
  have hT := toolsFor (oneAxesFig W H left right bottom top)
  obtain ⟨r, info, h1, hr, P, hP, hd⟩ := C93_solve num hnum hF hT
    (by simp [oneAxesFig, figDemands, Demand.kind, Shipped.IsAffine]) (by simp [oneAxesFig, figDemands])
    ⟨⟨fun k => if k = k!"Figure" then ⟨0, 0, W, H⟩ else ⟨left, bottom, W - right, H - top⟩, fun _ => (0, 0)⟩,
      by simp [oneAxesFig, figDemands, Demand.Holds, Edge.start, Edge.stop]⟩ base a b maxIter hmax
  simp only [oneAxesFig, figDemands, List.forall_mem_cons, Demand.Holds, Edge.start, Edge.stop] at hd
  obtain ⟨-, -, d1, d2, d3, d4, d5, d6, -⟩ := hd
  obtain ⟨calls, axs, c1, c2, c3, c4⟩ := C93_drawing hF hT hr hP (figKey := k!"Figure")
    (by simp [oneAxesFig, figDemands]) (by intro e; apply hW; linarith) (by intro e; apply hH; linarith)
    (by
      simp only [oneAxesFig, figMakes, List.forall_mem_cons, Make.key, Make.axesKeys, figDemands, List.cons_append,
        List.nil_append]
      refine ⟨fun h => absurd h (by decide), fun _ => ⟨trivial, by simp⟩, by simp⟩)
  have e : axs = [(k!"Axes", 0)] := by
    rw [c2]
    simp only [oneAxesFig, figMakes, List.map_cons, List.map_nil, Make.key]
    decide
  subst e
  refine ⟨r, info, calls, h1, c1, ?_, ?_⟩
  · rw [d1, d2] at c3
    exact c3
  · intro rect
    rw [c4 k!"Axes" 0 (by simp) rect, d1, d2]
    have x1 : (P.box (k!"Axes" ++ k!"/Frame")).x1 - (P.box (k!"Axes" ++ k!"/Frame")).x0 = W - left - right := by
      show (P.box k!"Axes/Frame").x1 - (P.box k!"Axes/Frame").x0 = _
      linarith
    have y1 : (P.box (k!"Axes" ++ k!"/Frame")).y1 - (P.box (k!"Axes" ++ k!"/Frame")).y0 = H - bottom - top := by
      show (P.box k!"Axes/Frame").y1 - (P.box k!"Axes/Frame").y0 = _
      linarith
    have x0 : (P.box (k!"Axes" ++ k!"/Frame")).x0 - (P.box k!"Figure").x0 = left := d3
    have y0 : (P.box (k!"Axes" ++ k!"/Frame")).y0 - (P.box k!"Figure").y0 = bottom := d5
    rw [x0, y0, x1, y1]

/-! ## `contour_colorbar.ipynb` -/

theorem onOneLine_v {x y y' u w w' : ℝ} (h : y ≠ y') :
    OnOneLine (x, y) (x, y') (u, w) (u, w') ↔ u = x := by
  constructor
  · rintro ⟨⟨o1, o2⟩, ⟨u1, u2⟩, _, hx⟩
    simp only [List.forall_mem_cons, Prod.smul_mk, Prod.mk_add_mk, Prod.mk.injEq, smul_eq_mul] at hx
    obtain ⟨⟨t, a1, a2⟩, ⟨t', b1, b2⟩, ⟨s, c1, c2⟩, -⟩ := hx
    have hu : u1 = 0 := by
      have : u1 * (t' - t) = 0 := by linarith
      rcases mul_eq_zero.mp this with h' | h'
      · exact h'
      · exfalso
        apply h
        have : t' = t := by linarith
        rw [a2, b2, this]
    rw [c1, a1, hu]
    ring
  · rintro rfl
    refine ⟨(u, 0), (0, 1), by simp, ?_⟩
    intro p hp
    simp only [List.mem_cons, List.not_mem_nil, or_false] at hp
    rcases hp with rfl | rfl | rfl | rfl
    · exact ⟨y, by simp⟩
    · exact ⟨y', by simp⟩
    · exact ⟨w, by simp⟩
    · exact ⟨w', by simp⟩

/-- A plot with a colour bar above it. -/
def contour (W ratio thick gap left right top bottom : ℝ) : List FigItem :=
  [.make (.quad k!"Figure"), .make (.axes k!"AxesContour" false false false false),
   .make (.axes k!"AxesColorbar" false false false false),
   .ask (.box k!"Figure"), .ask (.box k!"AxesContour/Frame"), .ask (.box k!"AxesColorbar/Frame"),
   .ask (.length ⟨k!"Figure", .bottom⟩ W), .ask (.fix (.first ⟨k!"Figure", .bottom⟩) 0 0),
   .ask (.relative ⟨k!"AxesContour/Frame", .bottom⟩ ⟨k!"AxesContour/Frame", .right⟩ ratio),
   .ask (.length ⟨k!"AxesColorbar/Frame", .right⟩ thick),
   .ask (.collinear ⟨k!"AxesContour/Frame", .left⟩ ⟨k!"AxesColorbar/Frame", .left⟩),
   .ask (.collinear ⟨k!"AxesContour/Frame", .right⟩ ⟨k!"AxesColorbar/Frame", .right⟩),
   .ask (.midY ⟨k!"AxesContour/Frame", .top⟩ ⟨k!"AxesColorbar/Frame", .bottom⟩ gap),
   .ask (.midX ⟨k!"Figure", .left⟩ ⟨k!"AxesContour/Frame", .left⟩ left),
   .ask (.midX ⟨k!"AxesContour/Frame", .right⟩ ⟨k!"Figure", .right⟩ right),
   .ask (.midY ⟨k!"AxesColorbar/Frame", .top⟩ ⟨k!"Figure", .top⟩ top),
   .ask (.midY ⟨k!"Figure", .bottom⟩ ⟨k!"AxesContour/Frame", .bottom⟩ bottom)]

theorem contour_ok (W ratio thick gap left right top bottom : ℝ) :
    FigOK (contour W ratio thick gap left right top bottom) where
  slash := by simp only [contour, figMakes, List.forall_mem_cons]; decide
  nodup := by simp only [contour, figMakes, List.map_cons, List.map_nil]; decide
  scope := by
    simp [contour, FigInScope, Demand.boxes, Demand.points, Demand.axes, Spot.boxes, Spot.points, Make.boxes,
      Make.points, Make.axesKeys]
  params := by simp [contour, figDemands, Demand.ParamOK]
  boxed := by simp [contour, figDemands, Demand.boxes, Spot.boxes]

/-- The height of the plot. -/
noncomputable def contourHeight (W ratio left right : ℝ) : ℝ := (W - left - right) / ratio

/-- C93 for `contour_colorbar.ipynb`: there is one solution with upright boxes.  The plot fills the width
between the margins, its height follows from the aspect ratio, the colour bar is as wide as the plot, and the
height of the figure follows. -/
theorem C93_contour_colorbar (W ratio thick gap left right top bottom : ℝ) (hr : 0 < ratio) :
    let items := contour W ratio thick gap left right top bottom
    let h := contourHeight W ratio left right
    (∀ r P, Moves shippedTool items r → HoldsAll shippedTool items r → PlacedIn items P r →
      (P.box k!"Figure").Positive → (P.box k!"AxesContour/Frame").Positive →
      (P.box k!"AxesColorbar/Frame").Positive →
      P.box k!"Figure" = ⟨0, 0, W, bottom + h + gap + thick + top⟩ ∧
      P.box k!"AxesContour/Frame" = ⟨left, bottom, W - right, bottom + h⟩ ∧
      P.box k!"AxesColorbar/Frame" = ⟨left, bottom + h + gap, W - right, bottom + h + gap + thick⟩) ∧
    (0 < W → left + right < W → 0 < thick → ∃ r P, Moves shippedTool items r ∧ HoldsAll shippedTool items r ∧
      PlacedIn items P r ∧ P.box k!"Figure" = ⟨0, 0, W, bottom + h + gap + thick + top⟩ ∧
      P.box k!"AxesContour/Frame" = ⟨left, bottom, W - right, bottom + h⟩ ∧
      P.box k!"AxesColorbar/Frame" = ⟨left, bottom + h + gap, W - right, bottom + h + gap + thick⟩) := by
  intro items h
  have hF := contour_ok W ratio thick gap left right top bottom
  have hT := toolsFor items
  constructor
  · intro r P hm hall hP p1 p2 p3
    have hd := C93_demands hF hT hm hP hall
    simp only [contour, figDemands, List.forall_mem_cons, Demand.Regular, Demand.Holds, true_implies,
      Spot.place, Edge.start, Edge.stop, dist2_h, dist2_v, abs_of_pos (sub_pos.mpr p1.1),
      abs_of_pos (sub_pos.mpr p2.1), abs_of_pos (sub_pos.mpr p2.2), abs_of_pos (sub_pos.mpr p3.2),
      Prod.mk.injEq, onOneLine_v p2.2.ne, onOneLine_v p2.2.ne'] at hd
    obtain ⟨-, -, -, d1, d2, d3, d4, d5, d6, d7, d8, d9, d10, d11, -⟩ := hd
    have d5 := d5 (by simp [p2.2.ne'])
    have d6 := d6 (by simp [p2.2.ne])
    have hh : (P.box k!"AxesContour/Frame").y1 - (P.box k!"AxesContour/Frame").y0 = h := by
      show _ = (W - left - right) / ratio
      rw [eq_div_iff hr.ne', mul_comm, ← d3]
      linarith
    refine ⟨rect_eq ?_ ?_ ?_ ?_, rect_eq ?_ ?_ ?_ ?_, rect_eq ?_ ?_ ?_ ?_⟩ <;> linarith
  · intro hW hw ht
    have hh : 0 < h := div_pos (by linarith) hr
    have e1 : |W - right - left| = ratio * |h| := by
      rw [abs_of_pos (by linarith), abs_of_pos hh]
      show _ = ratio * ((W - left - right) / ratio)
      field_simp
      ring
    obtain ⟨r, h1, h2, h3⟩ := C93_exists hF hT (P := ⟨fun k =>
        if k = k!"Figure" then ⟨0, 0, W, bottom + h + gap + thick + top⟩
        else if k = k!"AxesContour/Frame" then ⟨left, bottom, W - right, bottom + h⟩
        else ⟨left, bottom + h + gap, W - right, bottom + h + gap + thick⟩, fun _ => (0, 0)⟩)
      (by simp [contour, figDemands, Demand.Regular, Edge.start, Edge.stop, hh.ne'])
      (by
        simp [contour, figDemands, Demand.Holds, Spot.place, Edge.start, Edge.stop, dist2_h, dist2_v,
          abs_of_pos hW, abs_of_pos ht, e1]
        exact ⟨(onOneLine_v (by simp [hh.ne'])).mpr rfl, (onOneLine_v (by simp [hh.ne'])).mpr rfl⟩)
    exact ⟨r, _, h1, h3, h2, rfl, rfl, rfl⟩

/-! ## `ten_simple_rules_demo.ipynb` -/

/-- Three axes in a row; the outer two have axes at their top and on their inner sides.  The thickness of an
axis is given by the matplotlib axis `m`, if any. -/
def tenRules (W H left right top bottom ratioR ratioM gapL gapR : ℝ) (m : Str → AxisKind → Param Flt)
    (th : Str → AxisKind → ℝ) : List FigItem :=
  [.make (.quad k!"Figure"), .make (.axes k!"AxesLeft" true true false false),
   .make (.axes k!"AxesMid" false false false false), .make (.axes k!"AxesRight" true true false false),
   .ask (.box k!"Figure"), .ask (.box k!"AxesMid/Frame"),
   .ask (.box k!"AxesLeft/Frame"), .ask (.box k!"AxesLeft/XAxis"), .ask (.box k!"AxesLeft/YAxis"),
   .ask (.box k!"AxesRight/Frame"), .ask (.box k!"AxesRight/XAxis"), .ask (.box k!"AxesRight/YAxis"),
   .ask (.fix (.first ⟨k!"Figure", .bottom⟩) 0 0),
   .ask (.length ⟨k!"Figure", .right⟩ H), .ask (.length ⟨k!"Figure", .bottom⟩ W),
   .ask (.cells 1 3 [k!"AxesLeft/Frame", k!"AxesMid/Frame", k!"AxesRight/Frame"]),
   .ask (.outer .left k!"AxesMid/Frame" k!"AxesLeft/Frame" gapL),
   .ask (.outer .right k!"AxesMid/Frame" k!"AxesRight/Frame" gapR),
   .ask (.relative ⟨k!"AxesRight/Frame", .bottom⟩ ⟨k!"AxesLeft/Frame", .bottom⟩ ratioR),
   .ask (.relative ⟨k!"AxesMid/Frame", .bottom⟩ ⟨k!"AxesLeft/Frame", .bottom⟩ ratioM),
   .ask (.axisAt k!"AxesLeft" .x .top false), .ask (.axisAt k!"AxesLeft" .y .right false),
   .ask (.axisAt k!"AxesRight" .x .top false), .ask (.axisAt k!"AxesRight" .y .left false),
   .ask (.thickness k!"AxesLeft/XAxis" .x (m k!"AxesLeft" .x) (th k!"AxesLeft" .x)),
   .ask (.thickness k!"AxesLeft/YAxis" .y (m k!"AxesLeft" .y) (th k!"AxesLeft" .y)),
   .ask (.thickness k!"AxesRight/XAxis" .x (m k!"AxesRight" .x) (th k!"AxesRight" .x)),
   .ask (.thickness k!"AxesRight/YAxis" .y (m k!"AxesRight" .y) (th k!"AxesRight" .y)),
   .ask (.inner .top k!"AxesRight/XAxis" k!"Figure" top),
   .ask (.inner .bottom k!"AxesRight/Frame" k!"Figure" bottom),
   .ask (.inner .left k!"AxesLeft/Frame" k!"Figure" left),
   .ask (.inner .right k!"AxesRight/Frame" k!"Figure" right)]

theorem tenRules_ok (W H left right top bottom ratioR ratioM gapL gapR : ℝ) (m : Str → AxisKind → Param Flt)
    (th : Str → AxisKind → ℝ) (hm : ∀ b key kind, (Demand.thickness b kind (m key kind) (th key kind)).ParamOK) :
    FigOK (tenRules W H left right top bottom ratioR ratioM gapL gapR m th) where
  slash := by simp only [tenRules, figMakes, List.forall_mem_cons]; decide
  nodup := by simp only [tenRules, figMakes, List.map_cons, List.map_nil]; decide
  scope := by
    simp [tenRules, FigInScope, Demand.boxes, Demand.points, Demand.axes, Spot.boxes, Spot.points, Make.boxes,
      Make.points, Make.axesKeys, axisBoxKey]
  params := by
    simp only [tenRules, figDemands, List.forall_mem_cons]
    refine ⟨?_, ?_, ?_, ?_, ?_, ?_, ?_, ?_, ?_, ?_, ?_, ?_, ?_, ?_, ?_, ?_, ?_, ?_, ?_, ?_, ?_, ?_, ?_, ?_, ?_, ?_,
      ?_, ?_, ?_⟩
    all_goals first | exact hm _ _ _ | trivial | simp [Demand.ParamOK]
  boxed := by simp [tenRules, figDemands, Demand.boxes, Spot.boxes, axisBoxKey]

/-- The width of the left axes. -/
noncomputable def tenUnit (W left right ratioR ratioM gapL gapR : ℝ) : ℝ :=
  (W - left - right - gapL - gapR) / (1 + ratioM + ratioR)

/-- C93 for `ten_simple_rules_demo.ipynb`, before and after `update_layout_constraints`: in every solution
with an upright figure and upright frames, the widths of the three axes divide the room between the margins
in the given proportions, and the room for the tick labels of the right axes is left at the top. -/
theorem C93_ten_rules (W H left right top bottom ratioR ratioM gapL gapR : ℝ) (m : Str → AxisKind → Param Flt)
    (th : Str → AxisKind → ℝ) (hm : ∀ b key kind, (Demand.thickness b kind (m key kind) (th key kind)).ParamOK)
    (hR : 0 < ratioR) (hM : 0 < ratioM) :
    let items := tenRules W H left right top bottom ratioR ratioM gapL gapR m th
    let u := tenUnit W left right ratioR ratioM gapL gapR
    let y := H - top - th k!"AxesRight" .x
    let xm := left + u + gapL
    let xr := left + u + gapL + ratioM * u + gapR
    let At : Placement → Prop := fun P =>
      P.box k!"Figure" = ⟨0, 0, W, H⟩ ∧
      P.box k!"AxesLeft/Frame" = ⟨left, bottom, left + u, y⟩ ∧
      P.box k!"AxesMid/Frame" = ⟨xm, bottom, xm + ratioM * u, y⟩ ∧
      P.box k!"AxesRight/Frame" = ⟨xr, bottom, W - right, y⟩ ∧
      P.box k!"AxesLeft/XAxis" = ⟨left, y, left + u, y + th k!"AxesLeft" .x⟩ ∧
      P.box k!"AxesLeft/YAxis" = ⟨left + u, bottom, left + u + th k!"AxesLeft" .y, y⟩ ∧
      P.box k!"AxesRight/XAxis" = ⟨xr, y, W - right, H - top⟩ ∧
      P.box k!"AxesRight/YAxis" = ⟨xr - th k!"AxesRight" .y, bottom, xr, y⟩
    (∀ r P, Moves shippedTool items r → HoldsAll shippedTool items r → PlacedIn items P r →
      (P.box k!"Figure").Positive → (P.box k!"AxesLeft/Frame").Positive → (P.box k!"AxesMid/Frame").Positive →
      (P.box k!"AxesRight/Frame").Positive → At P) ∧
    (0 < W → 0 < H → 0 < u → bottom < y → ∃ r P, Moves shippedTool items r ∧ HoldsAll shippedTool items r ∧
      PlacedIn items P r ∧ At P) := by
  intro items u y xm xr At
  have hF := tenRules_ok W H left right top bottom ratioR ratioM gapL gapR m th hm
  have hT := toolsFor items
  have hs : 0 < 1 + ratioM + ratioR := by linarith
  have hu : u * (1 + ratioM + ratioR) = W - left - right - gapL - gapR := div_mul_cancel₀ _ hs.ne'
  constructor
  · intro r P hmv hall hP p1 p2 p3 p4
    have hd := C93_demands hF hT hmv hP hall
    simp only [tenRules, figDemands, List.forall_mem_cons, Demand.Regular, Demand.Holds, true_implies,
      Spot.place, Edge.start, Edge.stop, dist2_h, dist2_v, abs_of_pos (sub_pos.mpr p1.1),
      abs_of_pos (sub_pos.mpr p1.2), abs_of_pos (sub_pos.mpr p2.1), abs_of_pos (sub_pos.mpr p3.1),
      abs_of_pos (sub_pos.mpr p4.1), Prod.mk.injEq, axisBoxKey, Rect.Carries, Bool.false_eq_true, false_implies, and_true, List.cons_append, List.nil_append] at hd
    obtain ⟨-, -, -, -, -, -, -, -, d1, d2, d3, d4, d5, d6, d7, d8, d9, d10, d11, d12, d13, d14, d15, d16, d17, d18,
      d19, d20, -⟩ := hd
    have d4 := d4 (by
      refine ⟨⟨p2.1.ne, p2.2.ne⟩, ⟨p3.1.ne, p3.2.ne⟩, ⟨p4.1.ne, p4.2.ne⟩, by simp⟩)
    have a1 := d4.1 0 0 1 (by omega) (by omega) (by omega)
    have a2 := d4.1 0 0 2 (by omega) (by omega) (by omega)
    simp only [cellOf, Nat.zero_mul, Nat.zero_add, List.getD_cons_zero, List.getD_cons_succ] at a1 a2
    have hw : (P.box k!"AxesLeft/Frame").x1 - (P.box k!"AxesLeft/Frame").x0 = u := by
      show _ = (W - left - right - gapL - gapR) / (1 + ratioM + ratioR)
      rw [eq_div_iff hs.ne']
      linarith
    rw [hw] at d7 d8
    refine ⟨rect_eq ?_ ?_ ?_ ?_, rect_eq ?_ ?_ ?_ ?_, rect_eq ?_ ?_ ?_ ?_, rect_eq ?_ ?_ ?_ ?_,
      rect_eq ?_ ?_ ?_ ?_, rect_eq ?_ ?_ ?_ ?_, rect_eq ?_ ?_ ?_ ?_, rect_eq ?_ ?_ ?_ ?_⟩ <;> linarith
  · intro hW hH hu0 hy
    have hxr : W - right = xr + ratioR * u := by
      show _ = left + u + gapL + ratioM * u + gapR + ratioR * u
      linarith
    have hM' := mul_pos hM hu0
    have hR' := mul_pos hR hu0
    let P : Placement := ⟨fun k =>
        if k = k!"Figure" then ⟨0, 0, W, H⟩
        else if k = k!"AxesLeft/Frame" then ⟨left, bottom, left + u, y⟩
        else if k = k!"AxesMid/Frame" then ⟨xm, bottom, xm + ratioM * u, y⟩
        else if k = k!"AxesRight/Frame" then ⟨xr, bottom, W - right, y⟩
        else if k = k!"AxesLeft/XAxis" then ⟨left, y, left + u, y + th k!"AxesLeft" .x⟩
        else if k = k!"AxesLeft/YAxis" then ⟨left + u, bottom, left + u + th k!"AxesLeft" .y, y⟩
        else if k = k!"AxesRight/XAxis" then ⟨xr, y, W - right, H - top⟩
        else ⟨xr - th k!"AxesRight" .y, bottom, xr, y⟩, fun _ => (0, 0)⟩
    have hat : At P := ⟨rfl, rfl, rfl, rfl, rfl, rfl, rfl, rfl⟩
    have hat' := hat
    obtain ⟨b1, b2, b3, b4, b5, b6, b7, b8⟩ := hat'
    obtain ⟨r, h1, h2, h3⟩ := C93_exists hF hT (P := P)
      (by
        simp only [tenRules, figDemands, List.forall_mem_cons, Demand.Regular, b2, b3, b4, Rect.Proper, true_and]
        simp [hu0.ne', hM'.ne', hy.ne]
        rw [hxr]
        linarith)
      (by
        simp only [tenRules, figDemands, List.forall_mem_cons, Demand.Holds, Spot.place, Edge.start, Edge.stop,
          axisBoxKey, Rect.Carries, Bool.false_eq_true, false_implies, and_true, List.cons_append, List.nil_append,
          b1, b2, b3, b4, b5, b6, b7, b8, dist2_h, dist2_v]
        have w1 : |W - right - xr| = ratioR * |left + u - left| := by
          rw [show W - right - xr = ratioR * u by linarith, show left + u - left = u by ring, abs_of_pos hR',
            abs_of_pos hu0]
        have w2 : |xm + ratioM * u - xm| = ratioM * |left + u - left| := by
          rw [show xm + ratioM * u - xm = ratioM * u by ring, show left + u - left = u by ring, abs_of_pos hM',
            abs_of_pos hu0]
        have exm : xm = left + u + gapL := rfl
        have exr : xr = left + u + gapL + ratioM * u + gapR := rfl
        have ey : y = H - top - th k!"AxesRight" .x := rfl
        have hal : GridAligned 1 3 (cellOf 3 [k!"AxesLeft/Frame", k!"AxesMid/Frame", k!"AxesRight/Frame"] P) := by
          have cell : ∀ c, c < 3 → ((cellOf 3 [k!"AxesLeft/Frame", k!"AxesMid/Frame", k!"AxesRight/Frame"] P) 0 c).y0
              = bottom ∧ ((cellOf 3 [k!"AxesLeft/Frame", k!"AxesMid/Frame", k!"AxesRight/Frame"] P) 0 c).y1 = y := by
            intro c hc
            match c, hc with
            | 0, _ => exact ⟨rfl, rfl⟩
            | 1, _ => exact ⟨rfl, rfl⟩
            | 2, _ => exact ⟨rfl, rfl⟩
          constructor
          · intro r c c' hr hc hc'
            obtain rfl : r = 0 := by omega
            rw [(cell c hc).1, (cell c hc).2, (cell c' hc').1, (cell c' hc').2]
            exact ⟨rfl, rfl⟩
          · intro c r r' hc hr hr'
            obtain rfl : r = 0 := by omega
            obtain rfl : r' = 0 := by omega
            exact ⟨rfl, rfl⟩
        and_intros
        all_goals first
          | trivial
          | exact hal.1
          | exact hal.2
          | exact w1
          | exact w2
          | (rw [sub_zero, abs_of_pos]; assumption)
          | linarith
          | (intro _ h; cases h))
    exact ⟨r, P, h1, h3, h2, hat⟩

end MplLayout.Props
