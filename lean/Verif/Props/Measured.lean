import Verif.Lemmas.Measured
import Verif.Props.TwoStep
import Verif.Props.FigureDrawing

/-!
# C103: the second pass of a figure program
-/

namespace MplLayout.Props

open Flt Solver

variable {tool : Shipped → Cons Flt} {items items' : List FigItem} {view : List (Str × MplAxes Flt)}

/-- C103: after `update_layout_constraints(layout, view)` the layout of a figure program behaves as if the program
had been run with the measured thicknesses: it is a figure program again, and `solve` returns for the updated layout
what it returns for the layout of that program, whatever the method and the numerical routines are. -/
theorem C103_update (hF : FigOK items) (hT : ToolsFor tool items)
    (h : List.Forall₂ (FigItem.Measured view) items items') :
    FigOK items' ∧ ToolsFor tool items' ∧
    ∃ l', updateLayoutConstraints ((Session.start : Session Flt).run (figProgram tool 0 items)).layout view = .ok l' ∧
      ∀ (num : Numerics Flt) base a b maxIter method, solve num l' base a b maxIter method
        = solve num ((Session.start : Session Flt).run (figProgram tool 0 items')).layout base a b maxIter method := by
  obtain ⟨l', h1, h2⟩ := measured_update hF hT h
  exact ⟨measured_ok h hF, measured_tools h hT, l', h1, fun num base a b maxIter method => solve_trees h2 num base a b
    maxIter method⟩

/-- The calls that `update_subplots` makes are those that `subplots` makes after it has made the figure. -/
theorem subplots_update {root : Prim Flt} {figKey : Str} {calls : List (DrawCall Flt)} {axs : List (Str × Nat)}
    (h : subplots root figKey none = .ok (calls, axs)) : ∃ calls' n, updateSubplots root figKey axs = .ok calls' ∧
      calls = .newFigure 1 1 :: ((List.range n).map
        (fun i => DrawCall.addAxes i ((0, 0, 1, 1) : Flt × Flt × Flt × Flt)) ++ calls') := by
  simp only [subplots, bind, Except.bind] at h
  split at h
  · cases h
  · rename_i c hc
    cases h
    exact ⟨c, _, hc, rfl⟩

/-- What the user sees of the tutorial's figure: its size, the place of the frame as fractions of the figure, the
places of the labels, and the sides of the ticks. -/
structure TutorialDrawn (W H left right top bottom padX padY posX posY tx ty : ℝ) (calls : List (DrawCall Flt)) :
    Prop where
  size : ∀ w h, .setSize w h ∈ calls ↔ w = fin W ∧ h = fin H
  frame : ∀ rect, .setPosition 0 rect ∈ calls ↔ rect = (fin (left / W), fin (bottom / H),
    fin ((W - right - ty - left) / W), fin ((H - top - tx - bottom) / H))
  xLabel : ∀ u v, .setLabelCoords 0 .x u v ∈ calls ↔
    u = fin ((left + posX * (W - right - ty - left)) / W) ∧ v = fin ((H - top + padX) / H)
  yLabel : ∀ u v, .setLabelCoords 0 .y u v ∈ calls ↔
    u = fin ((W - right + padY) / W) ∧ v = fin ((bottom + posY * (H - top - tx - bottom)) / H)
  xTicks : ∀ s, .setTicksPosition 0 .x s ∈ calls ↔ s = .top
  yTicks : ∀ s, .setTicksPosition 0 .y s ∈ calls ↔ s = .right

/-- One pass: solving and drawing. -/
theorem tutorial_pass (num : Numerics Flt) (hnum : Exact num)
    (W H left right top bottom padX padY posX posY : ℝ) (mx my : Param Flt) (tx ty : ℝ)
    (hx : (Demand.thickness k!"Axes/XAxis" .x mx tx).ParamOK) (hy : (Demand.thickness k!"Axes/YAxis" .y my ty).ParamOK)
    (hW : 0 < W) (hH : 0 < H) (htx : 0 ≤ tx) (hty : 0 ≤ ty)
    (hw : left + right + ty < W) (hh : bottom + top + tx < H)
    (base : Nat) (a b : ℝ) (ha : 0 ≤ a) (hb : b < 1) (hpos : a < |posX| ∨ a < |posY|) (maxIter : Int)
    (hmax : 2 ≤ maxIter) :
    let items := tutorial W H left right top bottom padX padY posX posY mx my tx ty
    ∃ r info calls, solve num ((Session.start : Session Flt).run (figProgram shippedTool 0 items)).layout base (fin a)
        (fin b) maxIter k!"newton" = .ok (r, info) ∧
      subplots r k!"Figure" none = .ok (calls, [(k!"Axes", 0)]) ∧
      TutorialDrawn W H left right top bottom padX padY posX posY tx ty calls := by
  intro items
  obtain ⟨r, info, P, h1, hr, hP, r0, r1, r2, r3, p1, p2⟩ := C102_tutorial num hnum W H left right top bottom padX padY
    posX posY mx my tx ty hx hy hw hh base a b ha hb hpos maxIter hmax
  have hF := tutorial_ok W H left right top bottom padX padY posX posY mx my tx ty hx hy
  have hT := toolsFor items
  have gx : (P.box k!"Figure").x1 ≠ (P.box k!"Figure").x0 := by rw [r0]; exact hW.ne'
  have gy : (P.box k!"Figure").y1 ≠ (P.box k!"Figure").y0 := by rw [r0]; exact hH.ne'
  have hfig : Demand.box k!"Figure" ∈ figDemands items := by simp [items, tutorial, figDemands]
  have hax : ∀ m ∈ figMakes items, k!"Axes" <:+: m.key →
      m.axesKeys = [m.key] ∧ .box (m.key ++ k!"/Frame") ∈ figDemands items := by
    simp only [items, tutorial, figMakes, List.forall_mem_cons, Make.key, Make.axesKeys, figDemands,
      List.cons_append, List.nil_append]
    refine ⟨fun h => absurd h (by decide), fun _ => ⟨trivial, by simp⟩, by simp⟩
  have hpos : (P.box k!"Axes/Frame").Positive := by
    rw [r1]; constructor <;> simp only <;> linarith
  obtain ⟨calls, axs, c1, c2, c3, c4⟩ := C93_drawing hF hT hr hP hfig gx gy hax
  have e : axs = [(k!"Axes", 0)] := by
    rw [c2]
    simp only [tutorial, figMakes, List.map_cons, List.map_nil, Make.key]
    decide
  subst e
  have hm : (k!"Axes", 0) ∈ [(k!"Axes", 0)] := by simp
  have hmk : Make.axes k!"Axes" true true false false ∈ figMakes items := by simp [items, tutorial, figMakes]
  refine ⟨r, info, calls, h1, c1, fun w h => ?_, fun rect => ?_, fun u v => ?_, fun u v => ?_, fun s => ?_, fun s => ?_⟩
  · rw [c3]
    simp only [r0, sub_zero]
  · rw [c4 _ _ hm]
    simp only [List.cons_append, List.nil_append, r0, r1, sub_zero]
  · rw [C93_labels hF hT hr hP hfig gx gy hax c1 hm hmk .x u v]
    simp only [hasAxis, axisLabelKey, List.cons_append, List.nil_append, r0, p1, sub_zero, true_and,
      Bool.false_eq_true, if_false]
  · rw [C93_labels hF hT hr hP hfig gx gy hax c1 hm hmk .y u v]
    simp only [hasAxis, axisLabelKey, List.cons_append, List.nil_append, r0, p2, sub_zero, true_and,
      Bool.false_eq_true, if_false]
  · refine C93_ticks hF hT hr hP hfig gx gy hax c1 hm (kind := .x) (side := .top) (twin := false)
      (by simp [items, tutorial, figDemands]) ?_ hpos ?_ s
    · simp [Demand.Holds, Rect.Carries, axisBoxKey, r1, r2]
    · show (P.box k!"Axes/XAxis").Upright
      rw [r2]
      exact ⟨by simp only; linarith, by simp only; linarith⟩
  · refine C93_ticks hF hT hr hP hfig gx gy hax c1 hm (kind := .y) (side := .right) (twin := false)
      (by simp [items, tutorial, figDemands]) ?_ hpos ?_ s
    · simp [Demand.Holds, Rect.Carries, axisBoxKey, r1, r3]
    · show (P.box k!"Axes/YAxis").Upright
      rw [r3]
      exact ⟨by simp only; linarith, by simp only; linarith⟩

/-- C103 for `tutorial.ipynb`, with its constraints on the labels: every call succeeds; solving and `subplots` draw
the figure as if the tick labels took no space.  Whatever the thicknesses of the axes that `matplotlib` made are, if
there is room for the frame, then `update_layout_constraints`, `solve` and `update_subplots` draw the figure with the
margins kept from axis boxes of these thicknesses, and with the labels at the given distances from these boxes. -/
theorem C103_tutorial (num : Numerics Flt) (hnum : Exact num)
    (W H left right top bottom padX padY posX posY : ℝ) (hW : 0 < W) (hH : 0 < H)
    (hw : left + right < W) (hh : bottom + top < H)
    (base : Nat) (a b : ℝ) (ha : 0 ≤ a) (hb : b < 1) (hpos : a < |posX| ∨ a < |posY|) (maxIter : Int)
    (hmax : 2 ≤ maxIter) :
    let prog := figProgram shippedTool 0 (tutorial W H left right top bottom padX padY posX posY .none .none 0 0)
    let layout := ((Session.start : Session Flt).run prog).layout
    (∀ o ∈ (Session.start : Session Flt).outcomes prog, o = .ok ()) ∧
    ∃ r info calls axs, solve num layout base (fin a) (fin b) maxIter k!"newton" = .ok (r, info) ∧
      subplots r k!"Figure" none = .ok (calls, axs) ∧ axs = [(k!"Axes", 0)] ∧
      TutorialDrawn W H left right top bottom padX padY posX posY 0 0 calls ∧
      ∀ (view : List (Str × MplAxes Flt)) (ax : MplAxes Flt) (tx ty : ℝ), dictGet view k!"Axes" = some ax →
        ax.xaxis.ticksPosition = sideName .top → thicknessOf ax.xaxis .top = fin tx →
        ax.yaxis.ticksPosition = sideName .right → thicknessOf ax.yaxis .right = fin ty →
        0 ≤ tx → 0 ≤ ty → left + right + ty < W → bottom + top + tx < H →
        ∃ layout' r' info' calls', updateLayoutConstraints layout view = .ok layout' ∧
          solve num layout' base (fin a) (fin b) maxIter k!"newton" = .ok (r', info') ∧
          updateSubplots r' k!"Figure" axs = .ok calls' ∧
          TutorialDrawn W H left right top bottom padX padY posX posY tx ty calls' := by
  intro prog layout
  have h0 : ∀ b kind, (Demand.thickness b kind .none 0).ParamOK := fun b kind => ⟨rfl, .inl rfl⟩
  have hF := tutorial_ok W H left right top bottom padX padY posX posY .none .none 0 0 (h0 _ _) (h0 _ _)
  have hT := toolsFor (tutorial W H left right top bottom padX padY posX posY .none .none 0 0)
  refine ⟨(C93_calls hF hT).1, ?_⟩
  obtain ⟨r, info, calls, e1, e2, e3⟩ := tutorial_pass num hnum W H left right top bottom padX padY posX posY .none .none
    0 0 (h0 _ _) (h0 _ _) hW hH le_rfl le_rfl (by linarith) (by linarith) base a b ha hb hpos maxIter hmax
  refine ⟨r, info, calls, _, e1, e2, rfl, e3, ?_⟩
  intro view ax tx ty hview sx mx sy my htx hty hw' hh'
  have hmeas : List.Forall₂ (FigItem.Measured view)
      (tutorial W H left right top bottom padX padY posX posY .none .none 0 0)
      (tutorial W H left right top bottom padX padY posX posY (.axis ax.xaxis) (.axis ax.yaxis) tx ty) := by
    have same : ∀ d : Demand, (∀ b kind p v, d ≠ .thickness b kind p v) → FigItem.Measured view (.ask d) (.ask d) :=
      fun d h => .ask (.same h)
    have tX : FigItem.Measured view (.ask (.thickness k!"Axes/XAxis" .x .none 0))
        (.ask (.thickness k!"Axes/XAxis" .x (.axis ax.xaxis) tx)) :=
      .ask (.thickness (a := k!"Axes") (part := k!"XAxis") (kind := .x) (by decide) hview sx mx)
    have tY : FigItem.Measured view (.ask (.thickness k!"Axes/YAxis" .y .none 0))
        (.ask (.thickness k!"Axes/YAxis" .y (.axis ax.yaxis) ty)) :=
      .ask (.thickness (a := k!"Axes") (part := k!"YAxis") (kind := .y) (by decide) hview sy my)
    unfold tutorial
    repeat' apply List.Forall₂.cons
    all_goals first | exact .make _ | exact tX | exact tY | exact same _ (by intro _ _ _ _ e; cases e) | exact .nil
  obtain ⟨hF', -, l', u1, u2⟩ := C103_update hF hT hmeas
  obtain ⟨r', info', calls', f1, f2, f3⟩ := tutorial_pass num hnum W H left right top bottom padX padY posX posY
    (.axis ax.xaxis) (.axis ax.yaxis) tx ty (hF'.params _ (by simp [tutorial, figDemands]))
    (hF'.params _ (by simp [tutorial, figDemands])) hW hH htx hty hw' hh' base a b ha hb hpos maxIter hmax
  obtain ⟨c, n, g1, g2⟩ := subplots_update f2
  refine ⟨l', r', info', c, u1, by rw [u2]; exact f1, g1, ?_⟩
  rw [g2] at f3
  obtain ⟨k1, k2, k3, k4, k5, k6⟩ := f3
  refine ⟨fun w h => ?_, fun rect => ?_, fun u v => ?_, fun u v => ?_, fun s => ?_, fun s => ?_⟩
  · rw [← k1]; simp
  · rw [← k2]; simp
  · rw [← k3]; simp
  · rw [← k4]; simp
  · rw [← k5]; simp
  · rw [← k6]; simp

/-- The hypotheses are met by the notebook's numbers and by axes with ticks that take 0.3 inches above the frame and
0.6 inches to its right; the label of the x axis then is 1/16 above the axis and in the middle of the frame. -/
example : ∃ ax, dictGet tutView k!"Axes" = some ax ∧ ax.xaxis.ticksPosition = sideName .top ∧
    thicknessOf ax.xaxis .top = fin (3 / 10) ∧ ax.yaxis.ticksPosition = sideName .right ∧
    thicknessOf ax.yaxis .right = fin (6 / 10) ∧ (1 / 10 : ℝ) + 1 / 4 + 6 / 10 < 6 ∧ (1 / 10 : ℝ) + 1 / 4 + 3 / 10 < 3 ∧
    ((1 / 10 + 1 / 2 * (6 - 1 / 4 - 6 / 10 - 1 / 10) : ℝ), (3 - 1 / 4 + 1 / 16 : ℝ)) = (2625 / 1000, 2 + 13 / 16) := by
  refine ⟨_, rfl, rfl, ?_, rfl, ?_, by norm_num, by norm_num, by norm_num⟩
  · show fin 3 * (fin (9/10) - fin (8/10)) = fin (3 / 10)
    rw [fin_sub, fin_mul]
    norm_num
  · show fin 6 * (fin 1 - fin (9/10)) = fin (6 / 10)
    rw [fin_sub, fin_mul]
    norm_num

/-- What the user sees of the frames of `ten_simple_rules_demo.ipynb`: the size of the figure, and the places of the
three frames as fractions of it. -/
structure TenDrawn (W H left right top bottom ratioR ratioM gapL gapR : ℝ) (th : Str → AxisKind → ℝ)
    (calls : List (DrawCall Flt)) : Prop where
  size : ∀ w h, .setSize w h ∈ calls ↔ w = fin W ∧ h = fin H
  leftFrame : ∀ rect, .setPosition 0 rect ∈ calls ↔ rect = (fin (left / W), fin (bottom / H),
    fin (tenUnit W left right ratioR ratioM gapL gapR / W), fin ((H - top - th k!"AxesRight" .x - bottom) / H))
  midFrame : ∀ rect, .setPosition 1 rect ∈ calls ↔
    rect = (fin ((left + tenUnit W left right ratioR ratioM gapL gapR + gapL) / W), fin (bottom / H),
      fin (ratioM * tenUnit W left right ratioR ratioM gapL gapR / W),
      fin ((H - top - th k!"AxesRight" .x - bottom) / H))
  rightFrame : ∀ rect, .setPosition 2 rect ∈ calls ↔
    rect = (fin ((W - right - ratioR * tenUnit W left right ratioR ratioM gapL gapR) / W), fin (bottom / H),
      fin (ratioR * tenUnit W left right ratioR ratioM gapL gapR / W),
      fin ((H - top - th k!"AxesRight" .x - bottom) / H))

/-- One pass. -/
theorem ten_pass (num : Numerics Flt) (hnum : Exact num)
    (W H left right top bottom ratioR ratioM gapL gapR : ℝ) (m : Str → AxisKind → Param Flt)
    (th : Str → AxisKind → ℝ) (hm : ∀ b key kind, (Demand.thickness b kind (m key kind) (th key kind)).ParamOK)
    (hR : 0 < ratioR) (hM : 0 < ratioM) (hW : 0 < W) (hH : 0 < H)
    (hu0 : 0 < tenUnit W left right ratioR ratioM gapL gapR)
    (base : Nat) (a b : ℝ) (maxIter : Int) (hmax : 1 ≤ maxIter) :
    let items := tenRules W H left right top bottom ratioR ratioM gapL gapR m th
    ∃ r info calls, solve num ((Session.start : Session Flt).run (figProgram shippedTool 0 items)).layout base (fin a)
        (fin b) maxIter k!"newton" = .ok (r, info) ∧
      subplots r k!"Figure" none = .ok (calls, [(k!"AxesLeft", 0), (k!"AxesMid", 1), (k!"AxesRight", 2)]) ∧
      TenDrawn W H left right top bottom ratioR ratioM gapL gapR th calls := by
  intro items
  obtain ⟨r, info, P, h1, hr, hP, r0, r1, r2, r3, -⟩ := C101_ten_rules num hnum W H left right top bottom ratioR ratioM
    gapL gapR m th hm hR hM hW hH hu0 base a b maxIter hmax
  have hF := tenRules_ok W H left right top bottom ratioR ratioM gapL gapR m th hm
  have hT := toolsFor items
  have hs : 0 < 1 + ratioM + ratioR := by linarith
  have hu : tenUnit W left right ratioR ratioM gapL gapR * (1 + ratioM + ratioR) = W - left - right - gapL - gapR :=
    div_mul_cancel₀ _ hs.ne'
  have gx : (P.box k!"Figure").x1 ≠ (P.box k!"Figure").x0 := by rw [r0]; exact hW.ne'
  have gy : (P.box k!"Figure").y1 ≠ (P.box k!"Figure").y0 := by rw [r0]; exact hH.ne'
  have hfig : Demand.box k!"Figure" ∈ figDemands items := by simp [items, tenRules, figDemands]
  have hax : ∀ m ∈ figMakes items, k!"Axes" <:+: m.key →
      m.axesKeys = [m.key] ∧ .box (m.key ++ k!"/Frame") ∈ figDemands items := by
    simp only [items, tenRules, figMakes, List.forall_mem_cons, Make.key, Make.axesKeys, figDemands,
      List.cons_append, List.nil_append]
    refine ⟨fun h => absurd h (by decide), fun _ => ⟨trivial, by simp⟩, fun _ => ⟨trivial, by simp⟩,
      fun _ => ⟨trivial, by simp⟩, by simp⟩
  obtain ⟨calls, axs, c1, c2, c3, c4⟩ := C93_drawing hF hT hr hP hfig gx gy hax
  have e : axs = [(k!"AxesLeft", 0), (k!"AxesMid", 1), (k!"AxesRight", 2)] := by
    rw [c2]
    simp only [tenRules, figMakes, List.map_cons, List.map_nil, Make.key]
    decide
  subst e
  refine ⟨r, info, calls, h1, c1, fun w h => ?_, fun rect => ?_, fun rect => ?_, fun rect => ?_⟩
  · rw [c3]
    simp only [r0, sub_zero]
  · rw [c4 k!"AxesLeft" 0 (by simp)]
    simp only [List.cons_append, List.nil_append, r0, r1, sub_zero, add_sub_cancel_left]
  · rw [c4 k!"AxesMid" 1 (by simp)]
    simp only [List.cons_append, List.nil_append, r0, r2, sub_zero, add_sub_cancel_left]
  · rw [c4 k!"AxesRight" 2 (by simp)]
    have e1 : left + tenUnit W left right ratioR ratioM gapL gapR + gapL
        + ratioM * tenUnit W left right ratioR ratioM gapL gapR + gapR
        = W - right - ratioR * tenUnit W left right ratioR ratioM gapL gapR := by linarith
    simp only [List.cons_append, List.nil_append, r0, r3, sub_zero, e1, sub_sub_cancel]

/-- C103 for `ten_simple_rules_demo.ipynb`: every call succeeds; solving and `subplots` draw three frames whose widths
have the given ratios and fill the room between the margins, as if the tick labels took no space.  Whatever the
thicknesses of the axes that `matplotlib` made are, `update_layout_constraints`, `solve` and `update_subplots` then
lower the top of the three frames by the thickness of the x axis on the right. -/
theorem C103_ten_rules (num : Numerics Flt) (hnum : Exact num)
    (W H left right top bottom ratioR ratioM gapL gapR : ℝ) (hR : 0 < ratioR) (hM : 0 < ratioM) (hW : 0 < W)
    (hH : 0 < H) (hroom : left + right + gapL + gapR < W) (base : Nat) (a b : ℝ) (maxIter : Int) (hmax : 1 ≤ maxIter) :
    let prog := figProgram shippedTool 0 (tenRules W H left right top bottom ratioR ratioM gapL gapR (fun _ _ => .none)
      fun _ _ => 0)
    let layout := ((Session.start : Session Flt).run prog).layout
    (∀ o ∈ (Session.start : Session Flt).outcomes prog, o = .ok ()) ∧
    ∃ r info calls axs, solve num layout base (fin a) (fin b) maxIter k!"newton" = .ok (r, info) ∧
      subplots r k!"Figure" none = .ok (calls, axs) ∧
      axs = [(k!"AxesLeft", 0), (k!"AxesMid", 1), (k!"AxesRight", 2)] ∧
      TenDrawn W H left right top bottom ratioR ratioM gapL gapR (fun _ _ => 0) calls ∧
      ∀ (view : List (Str × MplAxes Flt)) (ax : Str → MplAxes Flt) (side : Str → AxisKind → con.Side)
        (th : Str → AxisKind → ℝ),
        (∀ key ∈ [k!"AxesLeft", k!"AxesRight"], dictGet view key = some (ax key) ∧
          ∀ kind, ((ax key).axis kind).ticksPosition = sideName (side key kind) ∧
            thicknessOf ((ax key).axis kind) (side key kind) = fin (th key kind)) →
        ∃ layout' r' info' calls', updateLayoutConstraints layout view = .ok layout' ∧
          solve num layout' base (fin a) (fin b) maxIter k!"newton" = .ok (r', info') ∧
          updateSubplots r' k!"Figure" axs = .ok calls' ∧
          TenDrawn W H left right top bottom ratioR ratioM gapL gapR th calls' := by
  intro prog layout
  have h0 : ∀ (b key : Str) kind, (Demand.thickness b kind .none 0).ParamOK := fun b _ kind => ⟨rfl, .inl rfl⟩
  have hu0 : 0 < tenUnit W left right ratioR ratioM gapL gapR := div_pos (by linarith) (by linarith)
  have hF := tenRules_ok W H left right top bottom ratioR ratioM gapL gapR (fun _ _ => .none) (fun _ _ => 0) h0
  have hT := toolsFor (tenRules W H left right top bottom ratioR ratioM gapL gapR (fun _ _ => .none) fun _ _ => 0)
  refine ⟨(C93_calls hF hT).1, ?_⟩
  obtain ⟨r, info, calls, e1, e2, e3⟩ := ten_pass num hnum W H left right top bottom ratioR ratioM gapL gapR
    (fun _ _ => .none) (fun _ _ => 0) h0 hR hM hW hH hu0 base a b maxIter hmax
  refine ⟨r, info, calls, _, e1, e2, rfl, e3, ?_⟩
  intro view ax side th hview
  obtain ⟨hl, hthl⟩ := hview k!"AxesLeft" (by simp)
  obtain ⟨hr, hthr⟩ := hview k!"AxesRight" (by simp)
  let m : Str → AxisKind → Param Flt := fun key kind =>
    if key = k!"AxesLeft" ∨ key = k!"AxesRight" then .axis ((ax key).axis kind) else .none
  let th' : Str → AxisKind → ℝ := fun key kind =>
    if key = k!"AxesLeft" ∨ key = k!"AxesRight" then th key kind else 0
  have ml : ∀ kind, m k!"AxesLeft" kind = .axis ((ax k!"AxesLeft").axis kind) := fun _ => if_pos (by simp)
  have mr : ∀ kind, m k!"AxesRight" kind = .axis ((ax k!"AxesRight").axis kind) := fun _ => if_pos (by simp)
  have tl : ∀ kind, th' k!"AxesLeft" kind = th k!"AxesLeft" kind := fun _ => if_pos (by simp)
  have tr : ∀ kind, th' k!"AxesRight" kind = th k!"AxesRight" kind := fun _ => if_pos (by simp)
  have hm : ∀ b key kind, (Demand.thickness b kind (m key kind) (th' key kind)).ParamOK := by
    intro b key kind
    by_cases hk : key = k!"AxesLeft" ∨ key = k!"AxesRight"
    · have h1 : m key kind = .axis ((ax key).axis kind) := if_pos hk
      have h2 : th' key kind = th key kind := if_pos hk
      obtain ⟨hside, ht⟩ := (hview key (by simpa using hk)).2 kind
      rw [h1, h2]
      refine ⟨?_, .inr ⟨_, _, rfl, by rw [C45_measure_partial _ _ hside]⟩⟩
      simp only [ct.axisThicknessParams, C45_measure_partial _ _ hside, ht, bind, Except.bind]
    · have h1 : m key kind = .none := if_neg hk
      have h2 : th' key kind = 0 := if_neg hk
      rw [h1, h2]
      exact h0 b key kind
  have hmeas : List.Forall₂ (FigItem.Measured view)
      (tenRules W H left right top bottom ratioR ratioM gapL gapR (fun _ _ => .none) fun _ _ => 0)
      (tenRules W H left right top bottom ratioR ratioM gapL gapR m th') := by
    have same : ∀ d : Demand, (∀ b kind p v, d ≠ .thickness b kind p v) → FigItem.Measured view (.ask d) (.ask d) :=
      fun d h => .ask (.same h)
    have t1 : FigItem.Measured view (.ask (.thickness k!"AxesLeft/XAxis" .x .none 0))
        (.ask (.thickness k!"AxesLeft/XAxis" .x (.axis ((ax k!"AxesLeft").axis .x)) (th k!"AxesLeft" .x))) :=
      .ask (.thickness (a := k!"AxesLeft") (part := k!"XAxis") (kind := .x) (by decide) hl (hthl _).1 (hthl _).2)
    have t2 : FigItem.Measured view (.ask (.thickness k!"AxesLeft/YAxis" .y .none 0))
        (.ask (.thickness k!"AxesLeft/YAxis" .y (.axis ((ax k!"AxesLeft").axis .y)) (th k!"AxesLeft" .y))) :=
      .ask (.thickness (a := k!"AxesLeft") (part := k!"YAxis") (kind := .y) (by decide) hl (hthl _).1 (hthl _).2)
    have t3 : FigItem.Measured view (.ask (.thickness k!"AxesRight/XAxis" .x .none 0))
        (.ask (.thickness k!"AxesRight/XAxis" .x (.axis ((ax k!"AxesRight").axis .x)) (th k!"AxesRight" .x))) :=
      .ask (.thickness (a := k!"AxesRight") (part := k!"XAxis") (kind := .x) (by decide) hr (hthr _).1 (hthr _).2)
    have t4 : FigItem.Measured view (.ask (.thickness k!"AxesRight/YAxis" .y .none 0))
        (.ask (.thickness k!"AxesRight/YAxis" .y (.axis ((ax k!"AxesRight").axis .y)) (th k!"AxesRight" .y))) :=
      .ask (.thickness (a := k!"AxesRight") (part := k!"YAxis") (kind := .y) (by decide) hr (hthr _).1 (hthr _).2)
    simp only [tenRules, ml, mr, tl, tr]
    repeat' apply List.Forall₂.cons
    all_goals first | exact .make _ | exact t1 | exact t2 | exact t3 | exact t4 |
      exact same _ (by intro _ _ _ _ e; cases e) | exact .nil
  obtain ⟨hF', -, l', u1, u2⟩ := C103_update hF hT hmeas
  obtain ⟨r', info', calls', f1, f2, f3⟩ := ten_pass num hnum W H left right top bottom ratioR ratioM gapL gapR
    m th' hm hR hM hW hH hu0 base a b maxIter hmax
  obtain ⟨c, n, g1, g2⟩ := subplots_update f2
  refine ⟨l', r', info', c, u1, by rw [u2]; exact f1, g1, ?_⟩
  rw [g2] at f3
  obtain ⟨k1, k2, k3, k4⟩ := f3
  rw [tr] at k2 k3 k4
  refine ⟨fun w h => ?_, fun rect => ?_, fun rect => ?_, fun rect => ?_⟩
  · rw [← k1]; simp
  · rw [← k2]; simp
  · rw [← k3]; simp
  · rw [← k4]; simp

/-- The hypotheses are met by a figure with 4 inches of room and by the axes of the tutorial in both places. -/
example : (1 / 2 + 1 / 2 + 1 / 2 + 1 / 2 : ℝ) < 6 ∧ ∃ (view : List (Str × MplAxes Flt)) (ax : Str → MplAxes Flt),
    ∀ key ∈ [k!"AxesLeft", k!"AxesRight"], dictGet view key = some (ax key) ∧
      ∀ kind, ((ax key).axis kind).ticksPosition = sideName (tutSpec.side kind) ∧
        thicknessOf ((ax key).axis kind) (tutSpec.side kind)
          = fin ((fun _ kind => match kind with | .x => 3 / 10 | .y => 6 / 10 : Str → AxisKind → ℝ) key kind) := by
  refine ⟨by norm_num, [(k!"AxesLeft", (tutView[0]'(by simp [tutView])).2),
    (k!"AxesRight", (tutView[0]'(by simp [tutView])).2)], fun _ => (tutView[0]'(by simp [tutView])).2, ?_⟩
  intro key hk
  refine ⟨?_, fun kind => ?_⟩
  · simp only [List.mem_cons, List.not_mem_nil, or_false] at hk
    rcases hk with rfl | rfl <;> rfl
  cases kind
  · refine ⟨rfl, ?_⟩
    show fin 3 * (fin (9/10) - fin (8/10)) = fin (3 / 10)
    rw [fin_sub, fin_mul]
    norm_num
  · refine ⟨rfl, ?_⟩
    show fin 6 * (fin 1 - fin (9/10)) = fin (6 / 10)
    rw [fin_sub, fin_mul]
    norm_num

end MplLayout.Props
