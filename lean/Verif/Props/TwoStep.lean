import Verif.Lemmas.TwoStepNewton
import Verif.Props.OneStep

/-!
# Figures with axis labels, which two steps of the solver lay out

C102.  The position of an axis label is given as a fraction of the length of the frame, so its residual is a
quotient.  At the default geometry frames have length 1, and the first Newton step puts the label at the given
number instead of the given fraction of the final length.  By then the frames have their final size, and the
second step puts the label where it belongs.
-/

namespace MplLayout.Props

open Flt Solver

variable {tool : Shipped → Cons Flt} {items : List FigItem}

/-- A placement that satisfies the demands other than those on labels. -/
def Unlabelled (items : List FigItem) (Q : Placement) : Prop :=
  ∀ d ∈ figDemands items, ¬ d.IsLabel → d.Upright Q

/-- Demands that hold for boxes that were not turned over hold. -/
theorem Demand.Upright.holds {P : Placement} {d : Demand} (h : d.Upright P) (hs : d.Spans P) : d.Holds P := by
  cases d with
  | toLine sp e rev v =>
    simp only [Demand.Holds, Edge.leftOf_run hs]
    exact h
  | _ => exact h

/-- C102: a figure of affine demands, distances from edges and label positions, in which the demands other
than those on labels determine the length of each frame that carries a label and leave no edge that is
measured from without length, is laid out by every Newton run of at least two iterations; the result
satisfies all demands.  (`First`: the labels can also be put at the given number instead of the given
fraction.  The tolerances must not stop the run after one step: the given fraction of some label exceeds the
absolute tolerance, and the relative tolerance is below 1.) -/
theorem C102_twostep (num : Numerics Flt) (hnum : Exact num) (hF : FigOK items) (hT : ToolsFor tool items)
    (htwo : ∀ d ∈ figDemands items, d.TwoStep)
    (hsat : ∃ P : Placement, ∀ d ∈ figDemands items, d.Upright P)
    (hfirst : ∃ P : Placement, ∀ d ∈ figDemands items, d.First P)
    (hspan : ∀ Q, Unlabelled items Q → ∀ d ∈ figDemands items, d.Spans Q)
    (hrun : ∀ Q Q', Unlabelled items Q → Unlabelled items Q' → ∀ ax kind twin v,
      .label ax kind twin v ∈ figDemands items → (labelEdge ax kind).run Q = (labelEdge ax kind).run Q')
    (base : Nat) (a b : ℝ) (ha : 0 ≤ a) (hb : b < 1)
    (hlab : ∃ ax kind twin v, .label ax kind twin v ∈ figDemands items ∧ a < |v|) (maxIter : Int) (hmax : 2 ≤ maxIter) :
    ∃ r info, solve num ((Session.start : Session Flt).run (figProgram tool 0 items)).layout base (fin a) (fin b)
        maxIter k!"newton" = .ok (r, info) ∧ Moves tool items r ∧
      ∃ P, PlacedIn items P r ∧ (∀ d ∈ figDemands items, d.Upright P) ∧ ∀ d ∈ figDemands items, d.Holds P := by
  obtain ⟨s, ts, h⟩ := figRan hF hT
  obtain ⟨P2, hP2⟩ := hsat
  obtain ⟨P1, hP1⟩ := hfirst
  obtain ⟨ax, kind, twin, v, hl, hv⟩ := hlab
  obtain ⟨r, info, e, hr, Q, hQ, hu⟩ := h.newton2 num hnum hF hT htwo hP1 hP2 hspan hrun base ha hb hl hv maxIter hmax
  rw [h.does.run]
  exact ⟨r, info, e, hr, Q, hQ, hu, fun d hd => Demand.Upright.holds (hu d hd) (hspan Q (fun d hd _ => hu d hd) d hd)⟩

/-! ## `tutorial.ipynb` -/

/-- The tutorial's figure: an x axis on top, a y axis on the right, both with labels.  `mx` and `my` are the
parameters of the thicknesses, nothing at first and the axes of matplotlib later, and stand for `tx` and `ty`. -/
def tutorial (W H left right top bottom padX padY posX posY : ℝ) (mx my : Param Flt) (tx ty : ℝ) : List FigItem :=
  [.make (.quad k!"Figure"), .make (.axes k!"Axes" true true false false),
   .ask (.box k!"Figure"), .ask (.box k!"Axes/Frame"), .ask (.box k!"Axes/XAxis"), .ask (.box k!"Axes/YAxis"),
   .ask (.fix (.first ⟨k!"Figure", .bottom⟩) 0 0),
   .ask (.xLength ⟨k!"Figure", .bottom⟩ W), .ask (.yLength ⟨k!"Figure", .right⟩ H),
   .ask (.axisAt k!"Axes" .x .top false), .ask (.axisAt k!"Axes" .y .right false),
   .ask (.thickness k!"Axes/XAxis" .x mx tx), .ask (.thickness k!"Axes/YAxis" .y my ty),
   .ask (.toLine (.point k!"Axes/XAxisLabel") ⟨k!"Axes/XAxis", .top⟩ true padX),
   .ask (.toLine (.point k!"Axes/YAxisLabel") ⟨k!"Axes/YAxis", .right⟩ true padY),
   .ask (.label k!"Axes" .x false posX), .ask (.label k!"Axes" .y false posY),
   .ask (.inner .left k!"Axes/Frame" k!"Figure" left), .ask (.inner .right k!"Axes/YAxis" k!"Figure" right),
   .ask (.inner .bottom k!"Axes/Frame" k!"Figure" bottom), .ask (.inner .top k!"Axes/XAxis" k!"Figure" top)]

theorem tutorial_ok (W H left right top bottom padX padY posX posY : ℝ) (mx my : Param Flt) (tx ty : ℝ)
    (hx : (Demand.thickness k!"Axes/XAxis" .x mx tx).ParamOK) (hy : (Demand.thickness k!"Axes/YAxis" .y my ty).ParamOK) :
    FigOK (tutorial W H left right top bottom padX padY posX posY mx my tx ty) where
  slash := by simp only [tutorial, figMakes, List.forall_mem_cons]; decide
  nodup := by simp only [tutorial, figMakes, List.map_cons, List.map_nil]; decide
  scope := by
    simp [tutorial, FigInScope, Demand.boxes, Demand.points, Demand.axes, Spot.boxes, Spot.points, Make.boxes,
      Make.points, Make.axesKeys, axisBoxKey, axisLabelKey]
  params := by
    simp only [tutorial, figDemands, List.forall_mem_cons]
    refine ⟨trivial, trivial, trivial, trivial, trivial, trivial, trivial, trivial, trivial, hx, hy, trivial, trivial,
      trivial, trivial, trivial, trivial, trivial, trivial, by simp⟩
  boxed := by simp [tutorial, figDemands, Demand.boxes, Spot.boxes, axisBoxKey]

/-- The places of the tutorial's figure, with the labels at the offsets `ox` and `oy`. -/
noncomputable def tutorialAt (W H left right top bottom padX padY ox oy tx ty : ℝ) : Placement :=
  ⟨fun k =>
    if k = k!"Figure" then ⟨0, 0, W, H⟩
    else if k = k!"Axes/Frame" then ⟨left, bottom, W - right - ty, H - top - tx⟩
    else if k = k!"Axes/XAxis" then ⟨left, H - top - tx, W - right - ty, H - top⟩
    else ⟨W - right - ty, bottom, W - right, H - top - tx⟩,
   fun k => if k = k!"Axes/XAxisLabel" then (left + ox, H - top + padX) else (W - right + padY, bottom + oy)⟩

/-- The demands other than those on labels determine the boxes. -/
theorem tutorial_unlabelled {W H left right top bottom padX padY posX posY : ℝ} {mx my : Param Flt} {tx ty : ℝ}
    {P : Placement} (h : Unlabelled (tutorial W H left right top bottom padX padY posX posY mx my tx ty) P) :
    P.box k!"Figure" = ⟨0, 0, W, H⟩ ∧
    P.box k!"Axes/Frame" = ⟨left, bottom, W - right - ty, H - top - tx⟩ ∧
    P.box k!"Axes/XAxis" = ⟨left, H - top - tx, W - right - ty, H - top⟩ ∧
    P.box k!"Axes/YAxis" = ⟨W - right - ty, bottom, W - right, H - top - tx⟩ ∧
    (P.point k!"Axes/XAxisLabel").2 = H - top + padX ∧ (P.point k!"Axes/YAxisLabel").1 = W - right + padY := by
  simp only [Unlabelled, tutorial, figDemands, List.forall_mem_cons, Demand.Upright, Demand.Holds, Spot.place,
    Edge.start, Edge.stop, Edge.inward, Edge.level, Prod.mk.injEq, axisBoxKey, Rect.Carries, Bool.false_eq_true,
    false_implies, and_true, List.cons_append, List.nil_append, Demand.IsLabel, not_false_eq_true, true_implies,
    not_true_eq_false, if_true, true_and] at h
  obtain ⟨d1, d2, d3, d4, d5, d6, d7, d8, d9, d10, d11, d12, d13, -⟩ := h
  refine ⟨rect_eq ?_ ?_ ?_ ?_, rect_eq ?_ ?_ ?_ ?_, rect_eq ?_ ?_ ?_ ?_, rect_eq ?_ ?_ ?_ ?_, ?_, ?_⟩ <;> linarith

/-- C102 for `tutorial.ipynb`: if there is room for the frame, the solver finds the layout, with the labels at the
given fractions of the frame and the given distances from the axes. -/
theorem C102_tutorial (num : Numerics Flt) (hnum : Exact num)
    (W H left right top bottom padX padY posX posY : ℝ) (mx my : Param Flt) (tx ty : ℝ)
    (hx : (Demand.thickness k!"Axes/XAxis" .x mx tx).ParamOK) (hy : (Demand.thickness k!"Axes/YAxis" .y my ty).ParamOK)
    (hw : left + right + ty < W) (hh : bottom + top + tx < H)
    (base : Nat) (a b : ℝ) (ha : 0 ≤ a) (hb : b < 1) (hpos : a < |posX| ∨ a < |posY|) (maxIter : Int)
    (hmax : 2 ≤ maxIter) :
    let items := tutorial W H left right top bottom padX padY posX posY mx my tx ty
    ∃ r info P, solve num ((Session.start : Session Flt).run (figProgram shippedTool 0 items)).layout base (fin a)
        (fin b) maxIter k!"newton" = .ok (r, info) ∧ Moves shippedTool items r ∧ PlacedIn items P r ∧
      P.box k!"Figure" = ⟨0, 0, W, H⟩ ∧
      P.box k!"Axes/Frame" = ⟨left, bottom, W - right - ty, H - top - tx⟩ ∧
      P.box k!"Axes/XAxis" = ⟨left, H - top - tx, W - right - ty, H - top⟩ ∧
      P.box k!"Axes/YAxis" = ⟨W - right - ty, bottom, W - right, H - top - tx⟩ ∧
      P.point k!"Axes/XAxisLabel" = (left + posX * (W - right - ty - left), H - top + padX) ∧
      P.point k!"Axes/YAxisLabel" = (W - right + padY, bottom + posY * (H - top - tx - bottom)) := by
  intro items
  have at' : ∀ ox oy, ∀ d ∈ figDemands items, ¬ d.IsLabel →
      d.Upright (tutorialAt W H left right top bottom padX padY ox oy tx ty) := by
    intro ox oy
    simp [items, tutorial, figDemands, tutorialAt, Demand.Upright, Demand.Holds, Spot.place, Edge.start, Edge.stop,
      Edge.inward, Edge.level, axisBoxKey, Rect.Carries, Demand.IsLabel]
  obtain ⟨r, info, h1, h2, P, hP, hu, _⟩ := C102_twostep (items := items) num hnum
    (tutorial_ok W H left right top bottom padX padY posX posY mx my tx ty hx hy) (toolsFor items)
    (by simp [items, tutorial, figDemands, Demand.TwoStep, Demand.kind, Shipped.IsAffine])
    ⟨tutorialAt W H left right top bottom padX padY (posX * (W - right - ty - left)) (posY * (H - top - tx - bottom))
      tx ty, fun d hd => by
      by_cases hl : d.IsLabel
      · simp only [items, tutorial, figDemands, List.mem_cons, List.not_mem_nil, or_false] at hd
        rcases hd with rfl | rfl | rfl | rfl | rfl | rfl | rfl | rfl | rfl | rfl | rfl | rfl | rfl | rfl | rfl | rfl |
          rfl | rfl | rfl <;> simp [Demand.IsLabel] at hl <;>
          simp [Demand.Upright, Demand.Holds, tutorialAt, axisLabelKey]
      · exact at' _ _ d hd hl⟩
    ⟨tutorialAt W H left right top bottom padX padY posX posY tx ty, fun d hd => by
      by_cases hl : d.IsLabel
      · simp only [items, tutorial, figDemands, List.mem_cons, List.not_mem_nil, or_false] at hd
        rcases hd with rfl | rfl | rfl | rfl | rfl | rfl | rfl | rfl | rfl | rfl | rfl | rfl | rfl | rfl | rfl | rfl |
          rfl | rfl | rfl <;> simp [Demand.IsLabel] at hl <;>
          simp [Demand.First, labelOffset, tutorialAt, axisLabelKey]
      · exact (first_upright hl).mpr (at' _ _ d hd hl)⟩
    (fun Q hQ => by
      obtain ⟨b1, b2, b3, b4, -, -⟩ := tutorial_unlabelled hQ
      have e1 : 0 < W - right - ty - left := by linarith
      have e2 : 0 < H - top - tx - bottom := by linarith
      simp only [items, tutorial, figDemands, List.forall_mem_cons, Demand.Spans, labelEdge, Edge.run,
        List.cons_append, List.nil_append, b2, b3, b4, e1, e2, true_and, List.not_mem_nil, false_implies,
        implies_true])
    (fun Q Q' hQ hQ' ax kind twin v hl => by
      obtain ⟨-, b2, -⟩ := tutorial_unlabelled hQ
      obtain ⟨-, b2', -⟩ := tutorial_unlabelled hQ'
      simp only [items, tutorial, figDemands, List.mem_cons, reduceCtorEq, Demand.label.injEq, false_or,
        List.not_mem_nil, or_false] at hl
      rcases hl with ⟨rfl, rfl, -⟩ | ⟨rfl, rfl, -⟩ <;>
        simp only [labelEdge, Edge.run, List.cons_append, List.nil_append, b2, b2'])
    base a b ha hb
    (by
      rcases hpos with h | h
      · exact ⟨k!"Axes", .x, false, posX, by simp [items, tutorial, figDemands], h⟩
      · exact ⟨k!"Axes", .y, false, posY, by simp [items, tutorial, figDemands], h⟩)
    maxIter hmax
  obtain ⟨b1, b2, b3, b4, p1, p2⟩ := tutorial_unlabelled (P := P) fun d hd _ => hu d hd
  refine ⟨r, info, P, h1, h2, hP, b1, b2, b3, b4, Prod.ext ?_ p1, Prod.ext p2 ?_⟩
  · have := hu (.label k!"Axes" .x false posX) (by simp [items, tutorial, figDemands])
    simp only [Demand.Upright, Demand.Holds, List.cons_append, List.nil_append, b2, axisLabelKey] at this
    exact this
  · have := hu (.label k!"Axes" .y false posY) (by simp [items, tutorial, figDemands])
    simp only [Demand.Upright, Demand.Holds, List.cons_append, List.nil_append, b2, axisLabelKey] at this
    exact this

/-- The notebook's numbers meet the hypotheses, with the default tolerances of the solver. -/
example : (1 / 10 : ℝ) + 1 / 4 + 0 < 6 ∧ (1 / 10 : ℝ) + 1 / 4 + 0 < 3 ∧ (1e-10 : ℝ) < |1 / 2| ∧ (1e-7 : ℝ) < 1 ∧
    (Demand.thickness k!"Axes/XAxis" .x .none 0).ParamOK := by
  refine ⟨by norm_num, by norm_num, by rw [abs_of_pos] <;> norm_num, by norm_num, ?_, Or.inl rfl⟩
  rfl

end MplLayout.Props
