import Verif.Props.FigureExamples

/-!
# C93, continued: axis labels and ticks of figures made of boxes
-/

namespace MplLayout.Props

open Flt Solver

variable {tool : Shipped → Cons Flt} {items : List FigItem}

/-- An axes has the axis of a kind. -/
def hasAxis (x y : Bool) : AxisKind → Bool
  | .x => x
  | .y => y

/-- What is drawn for an axes of the program. -/
theorem Ran.axesCalls {s : Session Flt} {ts : List (Make × Nat)} (h : Ran tool items s ts) {r : Prim Flt}
    (hr : Moves tool items r) {P : Placement} (hP : PlacedIn items P r) {figKey : Str}
    (hfig : .box figKey ∈ figDemands items)
    (hx : (P.box figKey).x1 ≠ (P.box figKey).x0) (hy : (P.box figKey).y1 ≠ (P.box figKey).y0)
    (hax : ∀ m ∈ figMakes items, k!"Axes" <:+: m.key →
      m.axesKeys = [m.key] ∧ .box (m.key ++ k!"/Frame") ∈ figDemands items)
    {calls : List (DrawCall Flt)} {axs : List (Str × Nat)} (hsub : subplots r figKey none = .ok (calls, axs))
    {key : Str} {i : Nat} (hmem : (key, i) ∈ axs) : key ∈ r.keys ∧ k!"Axes" <:+: key ∧
      (∀ kind a b, .setLabelCoords i kind a b ∈ calls ↔
        AxesCall r ((P.box figKey).x0, (P.box figKey).y0) ((P.box figKey).x1 - (P.box figKey).x0)
          ((P.box figKey).y1 - (P.box figKey).y0) key i (.setLabelCoords i kind a b)) ∧
      (∀ kind side, .setTicksPosition i kind side ∈ calls ↔
        AxesCall r ((P.box figKey).x0, (P.box figKey).y0) ((P.box figKey).x1 - (P.box figKey).x0)
          ((P.box figKey).y1 - (P.box figKey).y0) key i (.setTicksPosition i kind side)) := by
  obtain ⟨fig, f1, f2⟩ := hP.1 figKey hfig
  obtain ⟨g1, g2, g3⟩ := drawn_calls hr.ok f1 f2 hx hy
    (fun key h1 h2 => ⟨_, _, _, _, h.shapes hr hP hax key h1 h2⟩) hsub
  obtain ⟨m1, m2⟩ := g2 _ _ hmem
  refine ⟨m1, m2, fun kind a b => ?_, fun kind side => ?_⟩
  · rw [g3]
    constructor
    · rintro (h | ⟨_, _, h⟩ | h | ⟨kv, hkv, h⟩)
      · cases h
      · cases h
      · cases h
      · have e : kv.2 = i := by
          obtain ⟨_, _, _, _, _, _, _, _, _, h | ⟨_, ⟨_, _, _, _, h⟩ | ⟨_, _, _, _, _, h⟩⟩⟩ := h
          · cases h
          · cases h; rfl
          · cases h
        have : kv = (key, i) := List.inj_on_of_nodup_map g1 hkv hmem e
        subst this
        exact h
    · exact fun h => .inr (.inr (.inr ⟨_, hmem, h⟩))
  · rw [g3]
    constructor
    · rintro (h | ⟨_, _, h⟩ | h | ⟨kv, hkv, h⟩)
      · cases h
      · cases h
      · cases h
      · have e : kv.2 = i := by
          obtain ⟨_, _, _, _, _, _, _, _, _, h | ⟨_, ⟨_, _, _, _, h⟩ | ⟨_, _, _, _, _, h⟩⟩⟩ := h
          · cases h
          · cases h
          · cases h; rfl
        have : kv = (key, i) := List.inj_on_of_nodup_map g1 hkv hmem e
        subst this
        exact h
    · exact fun h => .inr (.inr (.inr ⟨_, hmem, h⟩))

/-- The parts of an axes that the program made, in a moved layout. -/
theorem Ran.axesAt {s : Session Flt} {ts : List (Make × Nat)} (h : Ran tool items s ts) {r : Prim Flt}
    (hr : Moves tool items r) {key : Str} {x y tx ty : Bool} (hm : .axes key x y tx ty ∈ figMakes items) :
    ∃ ax, r.getChild key = .ok ax ∧ ax.ty.IsA .axes ∧ ax.keys = MplLayout.axesKeys x y tx ty := by
  rw [← h.makes] at hm
  obtain ⟨t, ht, e⟩ := List.mem_map.mp hm
  have g := (h.stock.made ht (h.slash t ht)).2
  have hS := h.solved hr
  rw [e] at g
  obtain ⟨h1, m', h2, h3⟩ := hS.getChild g
  obtain ⟨e1, e2, _⟩ := hS.same.nodes _ _ _ h1 h3
  refine ⟨m', h2, by rw [← e1]; exact .refl _, ?_⟩
  rw [← e2]
  exact axesTree_keys

theorem axesKeys_axis (x y tx ty : Bool) (kind : AxisKind) :
    (axisBoxKey kind ∈ MplLayout.axesKeys x y tx ty ↔ hasAxis x y kind = true) ∧
    (axisLabelKey kind false ∈ MplLayout.axesKeys x y tx ty ↔ hasAxis x y kind = true) := by
  cases kind <;> cases x <;> cases y <;> cases tx <;> cases ty <;> decide

/-- C93, the labels: `subplots` puts the label of each axis that the axes has at its point, as fractions of the
size of the figure, and touches no other label.  The point is not taken relative to the lower left corner of the
figure box (see C63). -/
theorem C93_labels (hF : FigOK items) (hT : ToolsFor tool items) {r : Prim Flt} (hr : Moves tool items r)
    {P : Placement} (hP : PlacedIn items P r) {figKey : Str} (hfig : .box figKey ∈ figDemands items)
    (hx : (P.box figKey).x1 ≠ (P.box figKey).x0) (hy : (P.box figKey).y1 ≠ (P.box figKey).y0)
    (hax : ∀ m ∈ figMakes items, k!"Axes" <:+: m.key →
      m.axesKeys = [m.key] ∧ .box (m.key ++ k!"/Frame") ∈ figDemands items)
    {calls : List (DrawCall Flt)} {axs : List (Str × Nat)} (hsub : subplots r figKey none = .ok (calls, axs))
    {key : Str} {i : Nat} (hmem : (key, i) ∈ axs) {x y tx ty : Bool} (hm : .axes key x y tx ty ∈ figMakes items)
    (kind : AxisKind) (a b : Flt) :
    .setLabelCoords i kind a b ∈ calls ↔ hasAxis x y kind = true ∧
      a = fin ((P.point (key ++ '/' :: axisLabelKey kind false)).1 / ((P.box figKey).x1 - (P.box figKey).x0)) ∧
      b = fin ((P.point (key ++ '/' :: axisLabelKey kind false)).2 / ((P.box figKey).y1 - (P.box figKey).y0)) := by
  obtain ⟨s, ts, h⟩ := figRan hF hT
  obtain ⟨m1, m2, g1, -⟩ := h.axesCalls hr hP hfig hx hy hax hsub hmem
  obtain ⟨ax, e1, e2, e3⟩ := h.axesAt hr hm
  rw [g1]
  constructor
  · rintro ⟨ax', _, _, _, _, _, k1, _, _, h | ⟨_, ⟨p, l, k2, k3, h⟩ | ⟨_, _, _, _, _, h⟩⟩⟩
    · cases h
    · cases h
      rw [e1] at k1
      cases k1
      have hk := k2.mem
      rw [e3, (axesKeys_axis x y tx ty kind).2] at hk
      obtain ⟨p', j1, j2⟩ := hP.2 _ hm (key ++ '/' :: axisLabelKey kind false) (by
        cases kind <;> simp only [hasAxis] at hk <;> subst hk <;> simp [Make.points, axisLabelKey])
      have j3 := getChild_slash e1 (k2.getChild (axisLabelKey_noslash kind false))
      have j3 : r.getChild (key ++ '/' :: axisLabelKey kind false) = .ok p := j3
      rw [j1] at j3
      cases j3
      rw [IsPoint.inj k3 j2]
      exact ⟨hk, rfl, rfl⟩
    · cases h
  · rintro ⟨hk, rfl, rfl⟩
    obtain ⟨ax', frame, k1, k2, k3, k4⟩ := h.shapes hr hP hax key m1 m2
    rw [e1] at k1
    cases k1
    obtain ⟨p, l, j1, j2⟩ := (k4 kind).2 (by rw [e3, (axesKeys_axis x y tx ty kind).2]; exact hk)
    obtain ⟨p', j3, j4⟩ := hP.2 _ hm (key ++ '/' :: axisLabelKey kind false) (by
        cases kind <;> simp only [hasAxis] at hk <;> subst hk <;> simp [Make.points, axisLabelKey])
    have j5 := getChild_slash e1 (j1.getChild (axisLabelKey_noslash kind false))
    have j5 : r.getChild (key ++ '/' :: axisLabelKey kind false) = .ok p := j5
    rw [j3] at j5
    cases j5
    rw [IsPoint.inj j4 j2]
    exact ⟨ax, frame, _, _, _, _, e1, k2, k3, .inr ⟨kind, .inl ⟨p, l, j1, j2, rfl⟩⟩⟩

/-- C93, the ticks: if the program asked for an axis at a side, the demand holds, the frame has positive size and
the axis box is not upside down, then `subplots` puts the ticks of the axis on this side and on no other. -/
theorem C93_ticks (hF : FigOK items) (hT : ToolsFor tool items) {r : Prim Flt} (hr : Moves tool items r)
    {P : Placement} (hP : PlacedIn items P r) {figKey : Str} (hfig : .box figKey ∈ figDemands items)
    (hx : (P.box figKey).x1 ≠ (P.box figKey).x0) (hy : (P.box figKey).y1 ≠ (P.box figKey).y0)
    (hax : ∀ m ∈ figMakes items, k!"Axes" <:+: m.key →
      m.axesKeys = [m.key] ∧ .box (m.key ++ k!"/Frame") ∈ figDemands items)
    {calls : List (DrawCall Flt)} {axs : List (Str × Nat)} (hsub : subplots r figKey none = .ok (calls, axs))
    {key : Str} {i : Nat} (hmem : (key, i) ∈ axs) {kind : AxisKind} {side : con.Side} {twin : Bool}
    (hd : .axisAt key kind side twin ∈ figDemands items) (hh : (Demand.axisAt key kind side twin).Holds P)
    (hpos : (P.box (key ++ k!"/Frame")).Positive) (hup : (P.box (key ++ '/' :: axisBoxKey kind)).Upright)
    (s : con.Side) : .setTicksPosition i kind s ∈ calls ↔ s = side := by
  obtain ⟨st, ts, h⟩ := figRan hF hT
  obtain ⟨m1, m2, -, g1⟩ := h.axesCalls hr hP hfig hx hy hax hsub hmem
  have hin := h.demandIn hF hr hP hd
  obtain ⟨ax, e1, e2⟩ := hin.axes key (by simp [Demand.axes])
  obtain ⟨frame, f1, f2⟩ := hin.box (key ++ k!"/Frame") (by simp [Demand.boxes])
  obtain ⟨box, b1, b2⟩ := hin.box (key ++ '/' :: axisBoxKey kind) (by simp [Demand.boxes])
  have hFr := part_of_get hr.ok.wf (by decide) e1 f1
  have hB := part_of_get hr.ok.wf (axisBoxKey_noslash kind) e1 b1
  have hs : SitsOn side _ _ _ _ _ _ _ _ := (sitsOn_rect side (P.box (key ++ k!"/Frame"))
    (P.box (key ++ '/' :: axisBoxKey kind))).mpr (by
      have := hh.1
      cases side <;> exact this)
  obtain ⟨sd, warn, hfind, hs', -⟩ := C43_detection f2 b2
  obtain ⟨hs1, rfl⟩ := hs' ⟨side, hs⟩
  have : sd = side := sitsOn_unique hpos hup hs1 hs
  subst this
  rw [g1]
  constructor
  · rintro ⟨ax', frame', _, _, _, _, k1, k2, _, h | ⟨_, ⟨_, _, _, _, h⟩ | ⟨q, sd', wn, k4, k5, h⟩⟩⟩
    · cases h
    · cases h
    · cases h
      rw [e1] at k1
      cases k1
      have z1 := hFr.unique k2
      have z2 := hB.unique k4
      subst z1 z2
      rw [hfind] at k5
      cases k5
      rfl
  · rintro rfl
    exact ⟨ax, frame, _, _, _, _, e1, hFr, f2, .inr ⟨kind, .inr ⟨box, s, false, hB, hfind, rfl⟩⟩⟩

/-! ## A figure with a twin axis -/

/-- An axes with a y axis at the left, an x axis at the bottom and its twin at the top; the axis boxes touch the
margins of the figure; the label of the x axis is in the middle, at a height above the lower edge of the figure. -/
noncomputable def twinFig (W H left right bottom top pad : ℝ) (p : Str → Param Flt) (th : Str → ℝ) : List FigItem :=
  [.make (.quad k!"Figure"), .make (.axes k!"Axes" true true true false),
   .ask (.box k!"Figure"), .ask (.box k!"Axes/Frame"), .ask (.box k!"Axes/XAxis"), .ask (.box k!"Axes/YAxis"),
   .ask (.box k!"Axes/TwinXAxis"),
   .ask (.fix (.first ⟨k!"Figure", .bottom⟩) 0 0), .ask (.width k!"Figure" W), .ask (.height k!"Figure" H),
   .ask (.inner .left k!"Axes/YAxis" k!"Figure" left), .ask (.inner .right k!"Axes/Frame" k!"Figure" right),
   .ask (.inner .bottom k!"Axes/XAxis" k!"Figure" bottom), .ask (.inner .top k!"Axes/TwinXAxis" k!"Figure" top),
   .ask (.axisAt k!"Axes" .x .bottom true), .ask (.axisAt k!"Axes" .y .left false),
   .ask (.thickness k!"Axes/XAxis" .x (p k!"XAxis") (th k!"XAxis")),
   .ask (.thickness k!"Axes/TwinXAxis" .x (p k!"TwinXAxis") (th k!"TwinXAxis")),
   .ask (.thickness k!"Axes/YAxis" .y (p k!"YAxis") (th k!"YAxis")),
   .ask (.label k!"Axes" .x false (1 / 2)),
   .ask (.yDistance (.first ⟨k!"Figure", .bottom⟩) (.point k!"Axes/XAxisLabel") pad)]

theorem twinFig_ok (W H left right bottom top pad : ℝ) (p : Str → Param Flt) (th : Str → ℝ)
    (hp : ∀ b kind k, (Demand.thickness b kind (p k) (th k)).ParamOK) :
    FigOK (twinFig W H left right bottom top pad p th) where
  slash := by simp only [twinFig, figMakes, List.forall_mem_cons]; decide
  nodup := by simp only [twinFig, figMakes, List.map_cons, List.map_nil]; decide
  scope := by
    simp [twinFig, FigInScope, Demand.boxes, Demand.points, Demand.axes, Spot.boxes, Spot.points, Make.boxes,
      Make.points, Make.axesKeys, axisBoxKey, axisLabelKey, twinBoxKey]
  params := by
    simp only [twinFig, figDemands, List.forall_mem_cons, Demand.ParamOK, true_and]
    exact ⟨hp [] .x _, hp [] .x _, hp [] .y _, by simp⟩
  boxed := by
    simp [twinFig, figDemands, Demand.boxes, Spot.boxes, axisBoxKey, twinBoxKey]

/-- C93 for a figure with a twin axis: in every solution with a frame of positive size everything is where it
should be, and the figure is drawn with the frame inside the room that margins and axis boxes leave, with the
ticks of the x axis at the bottom and of the y axis at the left, and with the label of the x axis under the middle
of the frame; and there is such a solution. -/
theorem C93_twin_axes (W H left right bottom top pad : ℝ) (p : Str → Param Flt) (th : Str → ℝ)
    (hp : ∀ b kind k, (Demand.thickness b kind (p k) (th k)).ParamOK) (hth : ∀ k, 0 ≤ th k) (hW : 0 < W) (hH : 0 < H) :
    let items := twinFig W H left right bottom top pad p th
    let x0 := left + th k!"YAxis"
    let x1 := W - right
    let y0 := bottom + th k!"XAxis"
    let y1 := H - top - th k!"TwinXAxis"
    (∀ r P, Moves shippedTool items r → HoldsAll shippedTool items r → PlacedIn items P r →
      (P.box k!"Axes/Frame").Positive →
      P.box k!"Axes/Frame" = ⟨x0, y0, x1, y1⟩ ∧ P.box k!"Axes/XAxis" = ⟨x0, bottom, x1, y0⟩ ∧
      P.box k!"Axes/TwinXAxis" = ⟨x0, y1, x1, H - top⟩ ∧ P.box k!"Axes/YAxis" = ⟨left, y0, x0, y1⟩ ∧
      P.point k!"Axes/XAxisLabel" = ((x0 + x1) / 2, pad) ∧
      ∃ calls, subplots r k!"Figure" none = .ok (calls, [(k!"Axes", 0)]) ∧
        (∀ rect, .setPosition 0 rect ∈ calls ↔
          rect = (fin (x0 / W), fin (y0 / H), fin ((x1 - x0) / W), fin ((y1 - y0) / H))) ∧
        (∀ s, .setTicksPosition 0 .x s ∈ calls ↔ s = .bottom) ∧
        (∀ s, .setTicksPosition 0 .y s ∈ calls ↔ s = .left) ∧
        ∀ a b, .setLabelCoords 0 .x a b ∈ calls ↔ a = fin ((x0 + x1) / 2 / W) ∧ b = fin (pad / H)) ∧
    (x0 < x1 → y0 < y1 → ∃ r P, Moves shippedTool items r ∧ HoldsAll shippedTool items r ∧ PlacedIn items P r ∧
      (P.box k!"Axes/Frame").Positive) := by
  intro items x0 x1 y0 y1
  have hF := twinFig_ok W H left right bottom top pad p th hp
  have hT := toolsFor items
  constructor
  · intro r P hr hall hP hpos
    have hd := C93_demands hF hT hr hP hall
    simp only [twinFig, figDemands, List.forall_mem_cons, Demand.Regular, true_implies] at hd
    obtain ⟨-, -, -, -, -, d1, d2, d3, d4, d5, d6, d7, d8, d9, d10, d11, d12, d13, d14, -⟩ := hd
    have d13 := d13 hpos.1
    have d8' := d8
    have d9' := d9
    simp only [Demand.Holds, Spot.place, Edge.start, Rect.Carries, axisBoxKey, twinBoxKey, axisLabelKey,
      con.Side.opposite, Prod.mk.injEq, true_implies, Bool.false_eq_true, false_implies, and_true, List.cons_append,
      List.nil_append] at d1 d2 d3 d4 d5 d6 d7 d8 d9 d10 d11 d12 d13 d14
    obtain ⟨a1, a2⟩ := d1
    have r0 : P.box k!"Figure" = ⟨0, 0, W, H⟩ := by apply rect_eq <;> linarith
    have r1 : P.box k!"Axes/Frame" = ⟨x0, y0, x1, y1⟩ := by apply rect_eq <;> linarith
    have r2 : P.box k!"Axes/XAxis" = ⟨x0, bottom, x1, y0⟩ := by apply rect_eq <;> linarith
    have r3 : P.box k!"Axes/TwinXAxis" = ⟨x0, y1, x1, H - top⟩ := by apply rect_eq <;> linarith
    have r4 : P.box k!"Axes/YAxis" = ⟨left, y0, x0, y1⟩ := by apply rect_eq <;> linarith
    have r5 : P.point k!"Axes/XAxisLabel" = ((x0 + x1) / 2, pad) := by
      refine Prod.ext ?_ ?_
      · rw [d13, r1]; ring
      · show (P.point k!"Axes/XAxisLabel").2 = pad
        linarith
    refine ⟨r1, r2, r3, r4, r5, ?_⟩
    have hx : (P.box k!"Figure").x1 ≠ (P.box k!"Figure").x0 := by rw [r0]; exact hW.ne'
    have hy : (P.box k!"Figure").y1 ≠ (P.box k!"Figure").y0 := by rw [r0]; exact hH.ne'
    have hfig : Demand.box k!"Figure" ∈ figDemands items := by simp [items, twinFig, figDemands]
    have hax : ∀ m ∈ figMakes items, k!"Axes" <:+: m.key →
        m.axesKeys = [m.key] ∧ .box (m.key ++ k!"/Frame") ∈ figDemands items := by
      simp only [items, twinFig, figMakes, List.forall_mem_cons, Make.key, Make.axesKeys, figDemands,
        List.cons_append, List.nil_append]
      refine ⟨fun h => absurd h (by decide), fun _ => ⟨trivial, by simp⟩, by simp⟩
    obtain ⟨calls, axs, c1, c2, c3, c4⟩ := C93_drawing hF hT hr hP hfig hx hy hax
    have e : axs = [(k!"Axes", 0)] := by
      rw [c2]
      simp only [twinFig, figMakes, List.map_cons, List.map_nil, Make.key]
      decide
    subst e
    have hm : (k!"Axes", 0) ∈ [(k!"Axes", 0)] := by simp
    refine ⟨calls, c1, fun rect => ?_, fun s => ?_, fun s => ?_, fun a b => ?_⟩
    · rw [c4 _ _ hm]
      simp only [List.cons_append, List.nil_append, r0, r1, sub_zero]
    · refine C93_ticks hF hT hr hP hfig hx hy hax c1 hm (by simp [twinFig, figDemands]) d8' hpos ?_ s
      show (P.box k!"Axes/XAxis").Upright
      rw [r1] at hpos
      rw [r2]
      exact ⟨hpos.1.le, by show bottom ≤ bottom + _; linarith [hth k!"XAxis"]⟩
    · refine C93_ticks hF hT hr hP hfig hx hy hax c1 hm (by simp [twinFig, figDemands]) d9' hpos ?_ s
      show (P.box k!"Axes/YAxis").Upright
      rw [r1] at hpos
      rw [r4]
      exact ⟨by show left ≤ left + _; linarith [hth k!"YAxis"], hpos.2.le⟩
    · rw [C93_labels hF hT hr hP hfig hx hy hax c1 hm (x := true) (y := true) (tx := true) (ty := false)
        (by simp [twinFig, figMakes])]
      simp only [hasAxis, axisLabelKey, List.cons_append, List.nil_append, r0, r5, sub_zero, true_and]
  · intro hx hy
    let P : Placement := ⟨fun k =>
        if k = k!"Figure" then ⟨0, 0, W, H⟩
        else if k = k!"Axes/Frame" then ⟨x0, y0, x1, y1⟩
        else if k = k!"Axes/XAxis" then ⟨x0, bottom, x1, y0⟩
        else if k = k!"Axes/TwinXAxis" then ⟨x0, y1, x1, H - top⟩
        else ⟨left, y0, x0, y1⟩, fun _ => ((x0 + x1) / 2, pad)⟩
    obtain ⟨r, h1, h2, h3⟩ := C93_exists hF hT (P := P)
      (by simp [twinFig, figDemands, Demand.Regular, P, hx])
      (by
        simp only [twinFig, figDemands, List.forall_mem_cons, Demand.Holds, Spot.place, Edge.start, Rect.Carries,
          axisBoxKey, twinBoxKey, axisLabelKey, con.Side.opposite, List.cons_append, List.nil_append]
        simp [P, x0, x1, y0, y1]
        ring)
    exact ⟨r, P, h1, h3, h2, hx, hy⟩

/-- The hypotheses of `C93_twin_axes` are met before the axes has been drawn: the thickness constraints have no
axis yet. -/
example : ∃ r P, Moves shippedTool (twinFig 4 3 (1 / 2) (1 / 4) (1 / 2) (1 / 4) (1 / 10) (fun _ => .none) fun _ => 0) r ∧
    HoldsAll shippedTool (twinFig 4 3 (1 / 2) (1 / 4) (1 / 2) (1 / 4) (1 / 10) (fun _ => .none) fun _ => 0) r ∧
    PlacedIn (twinFig 4 3 (1 / 2) (1 / 4) (1 / 2) (1 / 4) (1 / 10) (fun _ => .none) fun _ => 0) P r ∧
    (P.box k!"Axes/Frame").Positive :=
  (C93_twin_axes 4 3 (1 / 2) (1 / 4) (1 / 2) (1 / 4) (1 / 10) (fun _ => .none) (fun _ => 0)
    (fun _ _ _ => ⟨rfl, .inl rfl⟩) (fun _ => le_refl _) (by norm_num) (by norm_num)).2 (by norm_num) (by norm_num)

end MplLayout.Props
