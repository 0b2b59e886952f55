import Verif.Lemmas.OneStepSmooth
import Verif.Props.FigureExamples

/-!
# Figures that one step of the solver lays out

C101.  The Newton method starts from the default geometry, in which every box is the unit square.  The
constraints of a figure are affine functions of the coordinates, or alignments, grids and lengths, whose
residuals are curved.  For the curved ones, too, one step with exact numerics lands on a solution, because the
tangent of each residual at the default geometry is the plain equation between coordinates.
-/

namespace MplLayout.Props

open Flt Solver

variable {tool : Shipped → Cons Flt} {items : List FigItem}

/-- C101: a figure of affine demands, alignments, grids, lengths and ratios of lengths, which a placement
satisfies with equations between coordinates, is laid out by every Newton run of at least one iteration; the
result satisfies all demands.  The lines that are measured must have a length; other boxes may be flat. -/
theorem C101_onestep (num : Numerics Flt) (hnum : Exact num) (hF : FigOK items) (hT : ToolsFor tool items)
    (hone : ∀ d ∈ figDemands items, d.OneStep) (hne : figDemands items ≠ [])
    (hsat : ∃ P : Placement, ∀ d ∈ figDemands items, d.Straight P)
    (hsize : ∀ Q : Placement, (∀ d ∈ figDemands items, d.Straight Q) → ∀ d ∈ figDemands items, d.Sized Q)
    (base : Nat) (a b : ℝ) (maxIter : Int) (hmax : 1 ≤ maxIter) :
    ∃ r info, solve num ((Session.start : Session Flt).run (figProgram tool 0 items)).layout base (fin a) (fin b)
        maxIter k!"newton" = .ok (r, info) ∧ Moves tool items r ∧
      ∃ P, PlacedIn items P r ∧ (∀ d ∈ figDemands items, d.Straight P) ∧ ∀ d ∈ figDemands items, d.Holds P := by
  obtain ⟨s, ts, h⟩ := figRan hF hT
  obtain ⟨P, hP⟩ := hsat
  have hsol : ∀ Q : Placement, (∀ d ∈ figDemands items, d.Straight Q) → ∀ d ∈ figDemands items, d.Solid Q := by
    intro Q hQ d hd
    cases d with
    | aspect b v => exact hsize Q hQ _ hd
    | _ => trivial
  obtain ⟨r, info, e, hr, Q, hQ, hstr⟩ := h.newton num hnum hF hT hone hne hP hsol (fun d _ => h.smooth_start d)
    (fun r Q hr hQ hstr d hd hm => h.sized_noZero hF hr hQ hd (hone d hd) hm (hsize Q hstr d hd)) base a b maxIter hmax
  rw [h.does.run]
  exact ⟨r, info, e, hr, Q, hQ, hstr, fun d hd => (hstr d hd).holds (hone d hd) (hsol Q hstr d hd)⟩

theorem onOneLine_h {x x' y u u' w : ℝ} (h : x ≠ x') :
    OnOneLine (x, y) (x', y) (u, w) (u', w) ↔ w = y := by
  constructor
  · rintro ⟨⟨o1, o2⟩, ⟨u1, u2⟩, _, hx⟩
    simp only [List.forall_mem_cons, Prod.smul_mk, Prod.mk_add_mk, Prod.mk.injEq, smul_eq_mul] at hx
    obtain ⟨⟨t, a1, a2⟩, ⟨t', b1, b2⟩, ⟨s, c1, c2⟩, -⟩ := hx
    have hu : u2 = 0 := by
      have : u2 * (t' - t) = 0 := by linarith
      rcases mul_eq_zero.mp this with h' | h'
      · exact h'
      · exfalso
        apply h
        have : t' = t := by linarith
        rw [a1, b1, this]
    rw [c2, a2, hu]
    ring
  · rintro rfl
    exact line_h _ _ _ _ _

/-- In a placement in which the boxes are upright, the plain equations are what the demands say. -/
theorem C101_upright {P : Placement} {d : Demand} (hd : d.OneStep) (hpar : d.ParamOK)
    (hpos : ∀ b ∈ d.boxes, (P.box b).Positive) : d.Straight P ↔ d.Holds P := by
  refine ⟨fun h => h.holds hd (by
    cases d with
    | aspect b v => exact ⟨(hpos b (by simp [Demand.boxes])).1.ne, (hpos b (by simp [Demand.boxes])).2.ne⟩
    | _ => trivial), fun h => ?_⟩
  have hrun : ∀ e : Edge, dist2 (e.start P) (e.stop P) = |e.run P| := by
    intro e
    have := e.dist_way P 1
    rw [P.way_one] at this
    simpa using this
  have hpr : ∀ e : Edge, (P.box e.box).Positive → 0 < e.run P := by
    rintro ⟨b, side⟩ ⟨h1, h2⟩
    cases side <;> simp only [Edge.run] <;> simp only at h1 h2 <;> linarith
  cases d with
  | length e v =>
    simp only [Demand.Straight, Demand.Holds] at *
    rwa [hrun, abs_of_pos (hpr e (hpos _ (by simp [Demand.boxes])))] at h
  | relative e e' v =>
    simp only [Demand.Straight, Demand.Holds] at *
    rwa [hrun, hrun, abs_of_pos (hpr e (hpos _ (by simp [Demand.boxes]))),
      abs_of_pos (hpr e' (hpos _ (by simp [Demand.boxes])))] at h
  | collinear e e' =>
    obtain ⟨b, side⟩ := e
    obtain ⟨b', side'⟩ := e'
    obtain rfl : side = side' := hd
    obtain ⟨p1, p2⟩ := hpos b (by simp [Demand.boxes])
    simp only [Demand.Straight, Demand.Holds] at *
    cases side <;> simp only [Edge.level] <;> simp only [Edge.start, Edge.stop] at h
    · exact (onOneLine_h p1.ne |>.mp h).symm
    · exact (onOneLine_h p1.ne' |>.mp h).symm
    · exact (onOneLine_v p2.ne' |>.mp h).symm
    · exact (onOneLine_v p2.ne |>.mp h).symm
  | grid R C bs ws hs ms ns =>
    obtain ⟨h0, h1, h2, h3, h4⟩ := h
    have hp : ∀ r c, r < R → c < C → (cellOf C bs P r c).Positive := fun r c hr hc =>
      hpos _ (cells_mem hpar.2.2 hr hc)
    refine ⟨h0, fun c hc => ?_, fun r hr => ?_, h3, h4⟩
    · have := h1 c hc
      rwa [abs_of_pos (sub_pos.mpr (hp 0 _ (by have := hpar.1; omega) hc).1),
        abs_of_pos (sub_pos.mpr (hp 0 0 (by have := hpar.1; omega) (by omega)).1)] at this
    · have := h2 r hr
      rwa [abs_of_pos (sub_pos.mpr (hp _ 0 hr (by have := hpar.2.1; omega)).2),
        abs_of_pos (sub_pos.mpr (hp 0 0 (by omega) (by have := hpar.2.1; omega)).2)] at this
  | aspect b v =>
    obtain ⟨p1, p2⟩ := hpos b (by simp [Demand.boxes])
    have := h.2
    simp only [Demand.Straight]
    rwa [abs_of_pos (sub_pos.mpr p1), abs_of_pos (sub_pos.mpr p2)] at this
  | _ => exact h

/-- C101 for `two_axes.ipynb`: whatever the sizes are, the solver finds the figure and the two frames. -/
theorem C101_two_axes (num : Numerics Flt) (hnum : Exact num) (W H left right gap top bottom width : ℝ)
    (base : Nat) (a b : ℝ) (maxIter : Int) (hmax : 1 ≤ maxIter) :
    let items := twoAxes W H left right gap top bottom width
    ∃ r info, solve num ((Session.start : Session Flt).run (figProgram shippedTool 0 items)).layout base (fin a)
        (fin b) maxIter k!"newton" = .ok (r, info) ∧
      (∃ q, r.getChild k!"Figure" = .ok q ∧ IsRect q ⟨0, 0, W, H⟩) ∧
      (∃ q, r.getChild k!"AxesLeft/Frame" = .ok q ∧ IsRect q ⟨left, bottom, left + width, H - top⟩) ∧
      ∃ q, r.getChild k!"AxesRight/Frame" = .ok q ∧
        IsRect q ⟨left + width + gap, bottom, W - right, H - top⟩ := by
  intro items
  obtain ⟨r, info, h1, h2, P, hP, _, hd⟩ := C101_onestep num hnum
    (twoAxes_ok W H left right gap top bottom width) (toolsFor items)
    (by simp [twoAxes, figDemands, Demand.OneStep, Demand.kind, Shipped.IsAffine]) (by simp [twoAxes, figDemands])
    ⟨⟨fun k =>
        if k = k!"Figure" then ⟨0, 0, W, H⟩
        else if k = k!"AxesLeft/Frame" then ⟨left, bottom, left + width, H - top⟩
        else ⟨left + width + gap, bottom, W - right, H - top⟩, fun _ => (0, 0)⟩,
      by simp [twoAxes, figDemands, Demand.Straight, Demand.Holds, Spot.place, Edge.start]⟩
    (by simp [twoAxes, figDemands, Demand.Sized]) base a b maxIter hmax
  refine ⟨r, info, h1, ?_⟩
  simp only [twoAxes, figDemands, List.forall_mem_cons, Demand.Holds, Spot.place, Edge.start] at hd
  obtain ⟨d1, -, -, -, d2, d3, d4, d5, d6, d7, d8, d9, d10, d11, -⟩ := hd
  rw [d1] at d4
  simp only [Prod.mk.injEq] at d4
  obtain ⟨q1, g1, e1⟩ := hP.1 k!"Figure" (by simp [items, twoAxes, figDemands])
  obtain ⟨q2, g2, e2⟩ := hP.1 k!"AxesLeft/Frame" (by simp [items, twoAxes, figDemands])
  obtain ⟨q3, g3, e3⟩ := hP.1 k!"AxesRight/Frame" (by simp [items, twoAxes, figDemands])
  have r1 : P.box k!"Figure" = ⟨0, 0, W, H⟩ := by
    apply rect_eq <;> linarith
  have r2 : P.box k!"AxesLeft/Frame" = ⟨left, bottom, left + width, H - top⟩ := by
    apply rect_eq <;> linarith
  have r3 : P.box k!"AxesRight/Frame" = ⟨left + width + gap, bottom, W - right, H - top⟩ := by
    apply rect_eq <;> linarith
  rw [r1] at e1
  rw [r2] at e2
  rw [r3] at e3
  exact ⟨⟨q1, g1, e1⟩, ⟨q2, g2, e2⟩, ⟨q3, g3, e3⟩⟩

/-- What the plain equations say for `contour_colorbar.ipynb`. -/
theorem contour_straight {W ratio thick gap left right top bottom : ℝ} (hr : 0 < ratio) {P : Placement}
    (hd : ∀ d ∈ figDemands (contour W ratio thick gap left right top bottom), d.Straight P) :
    let h := contourHeight W ratio left right
    P.box k!"Figure" = ⟨0, 0, W, bottom + h + gap + thick + top⟩ ∧
    P.box k!"AxesContour/Frame" = ⟨left, bottom, W - right, bottom + h⟩ ∧
    P.box k!"AxesColorbar/Frame" = ⟨left, bottom + h + gap, W - right, bottom + h + gap + thick⟩ := by
  intro h
  simp only [contour, figDemands, List.forall_mem_cons, Demand.Straight, Demand.Holds, Spot.place, Edge.start,
    Edge.stop, Edge.run, Edge.level, Prod.mk.injEq] at hd
  obtain ⟨-, -, -, d1, d2, d3, d4, d5, d6, d7, d8, d9, d10, d11, -⟩ := hd
  have hh : (P.box k!"AxesContour/Frame").y1 - (P.box k!"AxesContour/Frame").y0 = h := by
    show _ = (W - left - right) / ratio
    rw [eq_div_iff hr.ne', mul_comm, ← d3]
    linarith
  refine ⟨rect_eq ?_ ?_ ?_ ?_, rect_eq ?_ ?_ ?_ ?_, rect_eq ?_ ?_ ?_ ?_⟩ <;> linarith

/-- C101 for `contour_colorbar.ipynb`: if there is room between the margins, the solver finds the upright
layout. -/
theorem C101_contour (num : Numerics Flt) (hnum : Exact num) (W ratio thick gap left right top bottom : ℝ)
    (hr : 0 < ratio) (hW : 0 < W) (hw : left + right < W) (ht : 0 < thick)
    (base : Nat) (a b : ℝ) (maxIter : Int) (hmax : 1 ≤ maxIter) :
    let items := contour W ratio thick gap left right top bottom
    let h := contourHeight W ratio left right
    ∃ r info P, solve num ((Session.start : Session Flt).run (figProgram shippedTool 0 items)).layout base (fin a)
        (fin b) maxIter k!"newton" = .ok (r, info) ∧ Moves shippedTool items r ∧ PlacedIn items P r ∧
      P.box k!"Figure" = ⟨0, 0, W, bottom + h + gap + thick + top⟩ ∧
      P.box k!"AxesContour/Frame" = ⟨left, bottom, W - right, bottom + h⟩ ∧
      P.box k!"AxesColorbar/Frame" = ⟨left, bottom + h + gap, W - right, bottom + h + gap + thick⟩ := by
  intro items h
  have hh : 0 < h := div_pos (by linarith) hr
  have e1 : W - right - left = ratio * h := by
    show _ = ratio * ((W - left - right) / ratio)
    field_simp
    ring
  obtain ⟨r, info, h1, h2, P, hP, hs, _⟩ := C101_onestep num hnum
    (contour_ok W ratio thick gap left right top bottom) (toolsFor items)
    (by simp [contour, figDemands, Demand.OneStep, Demand.kind, Shipped.IsAffine, hr.le, hW.le, ht.le])
    (by simp [contour, figDemands])
    ⟨⟨fun k =>
        if k = k!"Figure" then ⟨0, 0, W, bottom + h + gap + thick + top⟩
        else if k = k!"AxesContour/Frame" then ⟨left, bottom, W - right, bottom + h⟩
        else ⟨left, bottom + h + gap, W - right, bottom + h + gap + thick⟩, fun _ => (0, 0)⟩,
      by simp [contour, figDemands, Demand.Straight, Demand.Holds, Spot.place, Edge.start, Edge.stop, Edge.run,
        Edge.level, e1]⟩
    (fun Q hQ => by
      obtain ⟨r1, r2, r3⟩ := contour_straight hr hQ
      have n1 : W - right - left ≠ 0 := by linarith
      have n2 : contourHeight W ratio left right ≠ 0 := hh.ne'
      simp [items, contour, figDemands, Demand.Sized, Edge.run, r1, r2, r3, hW.ne', ht.ne', n1, n2])
    base a b maxIter hmax
  exact ⟨r, info, P, h1, h2, hP, contour_straight hr hs⟩

/-- The hypotheses are met by a figure of 6 by 6.5. -/
example : ∃ W ratio thick gap left right top bottom : ℝ, 0 < ratio ∧ 0 < W ∧ left + right < W ∧ 0 < thick ∧
    bottom + contourHeight W ratio left right + gap + thick + top = 13 / 2 :=
  ⟨6, 1, 1 / 2, 1 / 4, 1 / 2, 1 / 2, 1 / 4, 1 / 2, by norm_num, by norm_num, by norm_num, by norm_num,
    by norm_num [contourHeight]⟩

/-- The places of `ten_simple_rules_demo.ipynb`. -/
def TenAt (W H left right top bottom ratioR ratioM gapL gapR : ℝ) (th : Str → AxisKind → ℝ) (P : Placement) : Prop :=
  let u := tenUnit W left right ratioR ratioM gapL gapR
  let y := H - top - th k!"AxesRight" .x
  let xm := left + u + gapL
  let xr := left + u + gapL + ratioM * u + gapR
  P.box k!"Figure" = ⟨0, 0, W, H⟩ ∧
  P.box k!"AxesLeft/Frame" = ⟨left, bottom, left + u, y⟩ ∧
  P.box k!"AxesMid/Frame" = ⟨xm, bottom, xm + ratioM * u, y⟩ ∧
  P.box k!"AxesRight/Frame" = ⟨xr, bottom, W - right, y⟩ ∧
  P.box k!"AxesLeft/XAxis" = ⟨left, y, left + u, y + th k!"AxesLeft" .x⟩ ∧
  P.box k!"AxesLeft/YAxis" = ⟨left + u, bottom, left + u + th k!"AxesLeft" .y, y⟩ ∧
  P.box k!"AxesRight/XAxis" = ⟨xr, y, W - right, H - top⟩ ∧
  P.box k!"AxesRight/YAxis" = ⟨xr - th k!"AxesRight" .y, bottom, xr, y⟩

/-- What the plain equations say for `ten_simple_rules_demo.ipynb`. -/
theorem tenRules_straight {W H left right top bottom ratioR ratioM gapL gapR : ℝ} {m : Str → AxisKind → Param Flt}
    {th : Str → AxisKind → ℝ} (hR : 0 < ratioR) (hM : 0 < ratioM) {P : Placement}
    (hd : ∀ d ∈ figDemands (tenRules W H left right top bottom ratioR ratioM gapL gapR m th), d.Straight P) :
    TenAt W H left right top bottom ratioR ratioM gapL gapR th P := by
  unfold TenAt
  intro u y xm xr
  have hs : 0 < 1 + ratioM + ratioR := by linarith
  have hu : u * (1 + ratioM + ratioR) = W - left - right - gapL - gapR := div_mul_cancel₀ _ hs.ne'
  simp only [tenRules, figDemands, List.forall_mem_cons, Demand.Straight, Demand.Holds, Spot.place, Edge.start,
    Edge.stop, Edge.run, Edge.level, Prod.mk.injEq, axisBoxKey, Rect.Carries, Bool.false_eq_true, false_implies,
    and_true, List.cons_append, List.nil_append] at hd
  obtain ⟨-, -, -, -, -, -, -, -, d1, d2, d3, d4, d5, d6, d7, d8, d9, d10, d11, d12, d13, d14, d15, d16, d17, d18,
    d19, d20, -⟩ := hd
  have a1 := d4.1 0 0 1 (by omega) (by omega) (by omega)
  have a2 := d4.1 0 0 2 (by omega) (by omega) (by omega)
  simp only [cellOf, Nat.zero_mul, Nat.zero_add, List.getD_cons_zero, List.getD_cons_succ] at a1 a2
  have hw : (P.box k!"AxesLeft/Frame").x1 - (P.box k!"AxesLeft/Frame").x0 = u := by
    show _ = (W - left - right - gapL - gapR) / (1 + ratioM + ratioR)
    rw [eq_div_iff hs.ne']
    linarith
  rw [hw] at d7 d8
  refine ⟨rect_eq ?_ ?_ ?_ ?_, rect_eq ?_ ?_ ?_ ?_, rect_eq ?_ ?_ ?_ ?_, rect_eq ?_ ?_ ?_ ?_,
    rect_eq ?_ ?_ ?_ ?_, rect_eq ?_ ?_ ?_ ?_, rect_eq ?_ ?_ ?_ ?_, rect_eq ?_ ?_ ?_ ?_⟩ <;> linarith

/-- C101 for `ten_simple_rules_demo.ipynb`, before and after `update_layout_constraints`: the solver finds the
layout.  The axes may be flat, as they are in the first pass. -/
theorem C101_ten_rules (num : Numerics Flt) (hnum : Exact num)
    (W H left right top bottom ratioR ratioM gapL gapR : ℝ) (m : Str → AxisKind → Param Flt)
    (th : Str → AxisKind → ℝ) (hm : ∀ b key kind, (Demand.thickness b kind (m key kind) (th key kind)).ParamOK)
    (hR : 0 < ratioR) (hM : 0 < ratioM) (hW : 0 < W) (hH : 0 < H)
    (hu0 : 0 < tenUnit W left right ratioR ratioM gapL gapR)
    (base : Nat) (a b : ℝ) (maxIter : Int) (hmax : 1 ≤ maxIter) :
    let items := tenRules W H left right top bottom ratioR ratioM gapL gapR m th
    ∃ r info P, solve num ((Session.start : Session Flt).run (figProgram shippedTool 0 items)).layout base (fin a)
        (fin b) maxIter k!"newton" = .ok (r, info) ∧ Moves shippedTool items r ∧ PlacedIn items P r ∧
      TenAt W H left right top bottom ratioR ratioM gapL gapR th P := by
  intro items
  have hF := tenRules_ok W H left right top bottom ratioR ratioM gapL gapR m th hm
  have hT := toolsFor items
  have hone : ∀ d ∈ figDemands items, d.OneStep := by
    simp [items, tenRules, figDemands, Demand.OneStep, Demand.kind, Shipped.IsAffine, hR.le, hM.le, hW.le, hH.le]
  have hs : 0 < 1 + ratioM + ratioR := by linarith
  let u := tenUnit W left right ratioR ratioM gapL gapR
  let y := H - top - th k!"AxesRight" .x
  let xm := left + u + gapL
  let xr := left + u + gapL + ratioM * u + gapR
  have hu : u * (1 + ratioM + ratioR) = W - left - right - gapL - gapR := div_mul_cancel₀ _ hs.ne'
  have hxr : W - right = xr + ratioR * u := by
    show _ = left + u + gapL + ratioM * u + gapR + ratioR * u
    linarith
  have hMu : 0 < ratioM * u := mul_pos hM hu0
  have hRu : 0 < ratioR * u := mul_pos hR hu0
  let P : Placement := ⟨fun k =>
      if k = k!"Figure" then ⟨0, 0, W, H⟩
      else if k = k!"AxesLeft/Frame" then ⟨left, bottom, left + u, y⟩
      else if k = k!"AxesMid/Frame" then ⟨xm, bottom, xm + ratioM * u, y⟩
      else if k = k!"AxesRight/Frame" then ⟨xr, bottom, W - right, y⟩
      else if k = k!"AxesLeft/XAxis" then ⟨left, y, left + u, y + th k!"AxesLeft" .x⟩
      else if k = k!"AxesLeft/YAxis" then ⟨left + u, bottom, left + u + th k!"AxesLeft" .y, y⟩
      else if k = k!"AxesRight/XAxis" then ⟨xr, y, W - right, H - top⟩
      else ⟨xr - th k!"AxesRight" .y, bottom, xr, y⟩, fun _ => (0, 0)⟩
  have hat : TenAt W H left right top bottom ratioR ratioM gapL gapR th P := ⟨rfl, rfl, rfl, rfl, rfl, rfl, rfl, rfl⟩
  obtain ⟨b1, b2, b3, b4, b5, b6, b7, b8⟩ := hat
  obtain ⟨r, info, h1, h2, Q, hQ, hst, _⟩ := C101_onestep num hnum hF hT hone (by simp [items, tenRules, figDemands])
    ⟨P, by
      simp only [items, tenRules, figDemands, List.forall_mem_cons, Demand.Straight, Demand.Holds, Spot.place,
        Edge.start, Edge.stop, Edge.run, axisBoxKey, Rect.Carries, Bool.false_eq_true, false_implies, and_true,
        List.cons_append, List.nil_append, b1, b2, b3, b4, b5, b6, b7, b8]
      have exm : xm = left + u + gapL := rfl
      have exr : xr = left + u + gapL + ratioM * u + gapR := rfl
      have ey : y = H - top - th k!"AxesRight" .x := rfl
      have hal : GridAligned 1 3 (cellOf 3 [k!"AxesLeft/Frame", k!"AxesMid/Frame", k!"AxesRight/Frame"] P) := by
        have cell : ∀ c, c < 3 → ((cellOf 3 [k!"AxesLeft/Frame", k!"AxesMid/Frame", k!"AxesRight/Frame"] P) 0 c).y0
            = bottom ∧ ((cellOf 3 [k!"AxesLeft/Frame", k!"AxesMid/Frame", k!"AxesRight/Frame"] P) 0 c).y1 = y := by
          intro c hc
          match c, hc with
          | 0, _ => exact ⟨rfl, rfl⟩
          | 1, _ => exact ⟨rfl, rfl⟩
          | 2, _ => exact ⟨rfl, rfl⟩
        constructor
        · intro r c c' hr hc hc'
          obtain rfl : r = 0 := by omega
          rw [(cell c hc).1, (cell c hc).2, (cell c' hc').1, (cell c' hc').2]
          exact ⟨rfl, rfl⟩
        · intro c r r' hc hr hr'
          obtain rfl : r = 0 := by omega
          obtain rfl : r' = 0 := by omega
          exact ⟨rfl, rfl⟩
      and_intros
      all_goals first
        | trivial
        | exact hal.1
        | exact hal.2
        | linarith
        | (intro _ h; cases h)⟩
    (fun Q hQ => by
      obtain ⟨b1, b2, b3, b4, -⟩ := tenRules_straight hR hM hQ
      have n1 : tenUnit W left right ratioR ratioM gapL gapR ≠ 0 := hu0.ne'
      have n2 : W - right - xr ≠ 0 := by rw [hxr]; linarith
      simp only [items, tenRules, figDemands, List.forall_mem_cons, Demand.Sized, Edge.run, b1, b2, b3, b4]
      simp [hW.ne', hH.ne', n1, hM.ne']
      exact n2)
    base a b maxIter hmax
  exact ⟨r, info, Q, h1, h2, hQ, tenRules_straight hR hM hst⟩

/-- The hypotheses are met by axes 6 by 2 with axis boxes that are still flat. -/
example : 0 < tenUnit 6 (1 / 2) (1 / 2) 1 2 (1 / 2) (1 / 2) ∧
    ∀ b key kind, (Demand.thickness b kind ((fun _ _ => .none : Str → AxisKind → Param Flt) key kind)
      ((fun _ _ => 0 : Str → AxisKind → ℝ) key kind)).ParamOK :=
  ⟨by norm_num [tenUnit], fun _ _ _ => ⟨rfl, .inl rfl⟩⟩

end MplLayout.Props
