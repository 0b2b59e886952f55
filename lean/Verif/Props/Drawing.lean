import Verif.Lemmas.Drawing
import Verif.Props.Geometry2

/-!
# Placing and drawing axes (C43, C44, C62–C64)
-/

namespace MplLayout.Props

open Flt Cons

variable {root ax frame box fig p : Prim Flt} {a b c d a' b' c' d' : ℝ × ℝ}

/-! ## C43: axis positions -/

/-- C43 (constraint): `PositionXAxis(side)` / `PositionYAxis(side)` is satisfied exactly if the axis box
sits on the outside of that side of the frame. -/
theorem C43_constraint (hax : ax.ty.IsA .axes) (hF : HasPart ax k!"Frame" frame)
    (hf : IsQuad frame a b c d) {kind : AxisKind} (hB : HasPart ax (axisBoxKey kind) box)
    (hb : IsQuad box a' b' c' d') (side : con.Side) :
    SatisfiedPy (ct.positionAxis kind side false) [ax] [] ↔ SitsOn side a b c d a' b' c' d' := by
  rw [satisfiedPy_iff ((ev_position hax hF hf hB hb side).returnsPy (position_eq kind side false)),
    faceVal_zero]

/-- C43 (constraint, with a twin axis): the twin box sits on the opposite side. -/
theorem C43_constraint_twin (hax : ax.ty.IsA .axes) (hF : HasPart ax k!"Frame" frame)
    (hf : IsQuad frame a b c d) {kind : AxisKind} (hB : HasPart ax (axisBoxKey kind) box)
    (hb : IsQuad box a' b' c' d') {tbox : Prim Flt} {at' bt ct' dt : ℝ × ℝ}
    (hT : HasPart ax (twinBoxKey kind) tbox) (ht : IsQuad tbox at' bt ct' dt) (side : con.Side) :
    SatisfiedPy (ct.positionAxis kind side true) [ax] [] ↔
      SitsOn side a b c d a' b' c' d' ∧ SitsOn side.opposite a b c d at' bt ct' dt := by
  rw [satisfiedPy_iff ((ev_position_twin hax hF hf hB hb hT ht side).returnsPy
    (position_eq kind side true))]
  simp only [List.mem_append, or_imp, forall_and, faceVal_zero]

/-- C43 (detection, any quadrilaterals): if the axis box sits on some side of the frame then
`find_axis_position` reports a side on which it sits, without a warning; in any case it reports a
side for which the distance between the frame side and the box side is smallest. -/
theorem C43_detection (hf : IsQuad frame a b c d) (hb : IsQuad box a' b' c' d') :
    ∃ side warn, findAxisPosition frame box = .ok (side, warn) ∧
      ((∃ s, SitsOn s a b c d a' b' c' d') → SitsOn side a b c d a' b' c' d' ∧ warn = false) ∧
      (∀ s, dist2 (edge side a b c d).1 (edge side.opposite a' b' c' d').2 ^ 2 +
            dist2 (edge side a b c d).2 (edge side.opposite a' b' c' d').1 ^ 2
          ≤ dist2 (edge s a b c d).1 (edge s.opposite a' b' c' d').2 ^ 2 +
            dist2 (edge s a b c d).2 (edge s.opposite a' b' c' d').1 ^ 2) := by
  obtain ⟨m, hm, hd, hle⟩ := findAxisPosition_eq hf hb
  have hsq : ∀ s, faceDist s a b c d a' b' c' d' ^ 2 =
      dist2 (edge s a b c d).1 (edge s.opposite a' b' c' d').2 ^ 2 +
        dist2 (edge s a b c d).2 (edge s.opposite a' b' c' d').1 ^ 2 := by
    intro s
    rw [faceDist, Real.sq_sqrt, dist2_sq, dist2_sq]
    · simp only [faceVal, List.map_cons, List.map_nil, List.sum_cons, List.sum_nil]; ring
    · simp only [faceVal, List.map_cons, List.map_nil, List.sum_cons, List.sum_nil]
      nlinarith [mul_self_nonneg ((edge s a b c d).2.1 - (edge s.opposite a' b' c' d').1.1),
        mul_self_nonneg ((edge s a b c d).2.2 - (edge s.opposite a' b' c' d').1.2),
        mul_self_nonneg ((edge s a b c d).1.1 - (edge s.opposite a' b' c' d').2.1),
        mul_self_nonneg ((edge s a b c d).1.2 - (edge s.opposite a' b' c' d').2.2)]
  refine ⟨m.1, _, hm, ?_, ?_⟩
  · rintro ⟨s, hs⟩
    have h0 : m.2 = 0 := le_antisymm ((hle s).trans ((faceDist_zero s).mpr hs).le)
      (hd ▸ faceDist_nonneg m.1)
    refine ⟨(faceDist_zero m.1).mp (hd ▸ h0), ?_⟩
    rw [h0]
    norm_num
  · intro s
    rw [← hsq, ← hsq]
    have h1 := hle s
    rw [hd] at h1
    exact pow_le_pow_left₀ (faceDist_nonneg _) h1 2

/-- A box with non-negative width and height sits on at most one side of a frame of positive
size. -/
theorem sitsOn_unique {r r' : Rect} (hr : r.Positive) (hr' : r'.Upright) {s s' : con.Side}
    (h : SitsOn s (r.x0, r.y0) (r.x1, r.y0) (r.x1, r.y1) (r.x0, r.y1)
      (r'.x0, r'.y0) (r'.x1, r'.y0) (r'.x1, r'.y1) (r'.x0, r'.y1))
    (h' : SitsOn s' (r.x0, r.y0) (r.x1, r.y0) (r.x1, r.y1) (r.x0, r.y1)
      (r'.x0, r'.y0) (r'.x1, r'.y0) (r'.x1, r'.y1) (r'.x0, r'.y1)) : s = s' := by
  obtain ⟨h1, h2⟩ := hr
  obtain ⟨h3, h4⟩ := hr'
  cases s <;> cases s' <;> first | rfl | (
    exfalso
    simp only [SitsOn, edge, con.Side.opposite, Prod.mk.injEq] at h h'
    obtain ⟨⟨_, _⟩, _, _⟩ := h
    obtain ⟨⟨_, _⟩, _, _⟩ := h'
    linarith)

/-- C43: in a figure drawn from a tree in which `PositionXAxis(side)` (`PositionYAxis(side)`, with or
without a twin axis) is satisfied for an axes with a frame of positive size and an axis box of
non-negative size, the ticks of that axis are put on that side, and on no other side.  Missing from
the property as first stated: boxes of negative width or height (see
`C43_flipped_counterexample`). -/
theorem C43_drawn_partial {figKey key : Str} {i : Nat} {axs : List (Str × Nat)} {A B C D : ℝ × ℝ}
    {r r' : Rect} {kind : AxisKind} {side : con.Side} {twin : Bool}
    (hfig : root.getChild figKey = .ok fig) (hq : IsQuad fig A B C D)
    (hw : C.1 ≠ A.1) (he : C.2 ≠ A.2)
    (hshape : ∀ kv ∈ axs, ∃ a b c d, AxesShape root kv.1 a b c d)
    (hmem : (key, i) ∈ axs) (hids : (axs.map Prod.snd).Nodup)
    (hax : root.getChild key = .ok ax) (hty : ax.ty.IsA .axes)
    (hF : HasPart ax k!"Frame" frame) (hf : IsRect frame r) (hr : r.Positive)
    (hB : HasPart ax (axisBoxKey kind) box) (hb : IsRect box r') (hr' : r'.Upright)
    (htwin : twin = true → ∃ tbox a b c d, HasPart ax (twinBoxKey kind) tbox ∧ IsQuad tbox a b c d)
    (hsat : SatisfiedPy (ct.positionAxis kind side twin) [ax] []) :
    findAxisPosition frame box = .ok (side, false) ∧
    ∃ calls, updateSubplots root figKey axs = .ok calls ∧
      ∀ s, .setTicksPosition i kind s ∈ calls ↔ s = side := by
  have hs : SitsOn side (r.x0, r.y0) (r.x1, r.y0) (r.x1, r.y1) (r.x0, r.y1)
      (r'.x0, r'.y0) (r'.x1, r'.y0) (r'.x1, r'.y1) (r'.x0, r'.y1) := by
    cases twin
    · exact (C43_constraint hty hF hf hB hb side).mp hsat
    · obtain ⟨tbox, _, _, _, _, hT, ht⟩ := htwin rfl
      exact ((C43_constraint_twin hty hF hf hB hb hT ht side).mp hsat).1
  obtain ⟨sd, warn, hfind, hs', -⟩ := C43_detection hf hb
  obtain ⟨hs1, rfl⟩ := hs' ⟨side, hs⟩
  have : sd = side := sitsOn_unique hr hr' hs1 hs
  subst this
  refine ⟨hfind, ?_⟩
  obtain ⟨rest, hrest, hiff⟩ := updateSubplots_spec hfig hq hw he hshape
  refine ⟨_, hrest, fun s => ?_⟩
  simp only [List.mem_cons, reduceCtorEq, false_or, hiff]
  constructor
  · rintro ⟨kv, hkv, ax', frame', _, _, _, _, g1, g2, g3, h | ⟨k, ⟨_, _, _, _, h⟩ | ⟨q, sd', wn, g4, g5, h⟩⟩⟩
    · cases h
    · cases h
    · simp only [DrawCall.setTicksPosition.injEq] at h
      obtain ⟨h1, rfl, rfl⟩ := h
      have : kv = (key, i) := List.inj_on_of_nodup_map hids hkv hmem h1.symm
      subst this
      rw [hax] at g1
      cases g1
      have e1 := hF.unique g2
      have e2 := hB.unique g4
      subst e1 e2
      rw [hfind] at g5
      cases g5
      rfl
  · rintro rfl
    exact ⟨(key, i), hmem, ax, frame, _, _, _, _, hax, hF, hf,
      .inr ⟨kind, .inr ⟨box, s, false, hB, hfind, rfl⟩⟩⟩

/-- A concrete figure with one axes for the examples: frame `r`, x axis box `r'`, label at `l`. -/
def oneAxes (r r' : Rect) (l : ℝ × ℝ) : Prim Flt :=
  .mk .axes ⟨4, []⟩ [(k!"Frame", realRect r), (k!"XAxis", realRect r'), (k!"XAxisLabel", realPoint l)]
/-- The root of a tree with a figure box `f` and that axes. -/
def oneFigure (f r r' : Rect) (l : ℝ × ℝ) : Prim Flt :=
  .mk .primitiveNode ⟨5, []⟩ [(k!"Figure", realRect f), (k!"Axes", oneAxes r r' l)]

theorem oneAxes_part (r r' : Rect) (l : ℝ × ℝ) : HasPart (oneAxes r r' l) k!"Frame" (realRect r) ∧
    HasPart (oneAxes r r' l) (axisBoxKey .x) (realRect r') ∧
    HasPart (oneAxes r r' l) (axisLabelKey .x false) (realPoint l) := by
  have hn : (oneAxes r r' l).keys.Nodup := by
    show [k!"Frame", k!"XAxis", k!"XAxisLabel"].Nodup
    decide
  exact ⟨⟨hn, by simp [oneAxes]⟩, ⟨hn, by simp [oneAxes, axisBoxKey]⟩,
    ⟨hn, by simp [oneAxes, axisLabelKey]⟩⟩

theorem oneFigure_shape (f r r' : Rect) (l : ℝ × ℝ) : AxesShape (oneFigure f r r' l) k!"Axes"
    (r.x0, r.y0) (r.x1, r.y0) (r.x1, r.y1) (r.x0, r.y1) := by
  obtain ⟨h1, h2, h3⟩ := oneAxes_part r r' l
  refine ⟨oneAxes r r' l, realRect r, rfl, h1, isRect_realRect r, ?_⟩
  intro kind
  have hk : (oneAxes r r' l).keys = [k!"Frame", k!"XAxis", k!"XAxisLabel"] := rfl
  cases kind
  · exact ⟨fun _ => ⟨_, _, _, _, _, h2, isRect_realRect r'⟩, fun _ => ⟨_, _, h3, isPoint_realPoint l⟩⟩
  · rw [hk]
    exact ⟨fun h => absurd h (by decide), fun h => absurd h (by decide)⟩

/-- The hypotheses of `C43_drawn_partial` are met: an axes with its x axis at the bottom. -/
example : findAxisPosition (realRect ⟨1, 1, 4, 3⟩) (realRect ⟨1, 1/2, 4, 1⟩) = .ok (.bottom, false) ∧
    ∃ calls, updateSubplots (oneFigure ⟨0, 0, 5, 4⟩ ⟨1, 1, 4, 3⟩ ⟨1, 1/2, 4, 1⟩ (2, 0)) k!"Figure"
        [(k!"Axes", 0)] = .ok calls ∧
      ∀ s, .setTicksPosition 0 .x s ∈ calls ↔ s = .bottom := by
  obtain ⟨h1, h2, h3⟩ := oneAxes_part ⟨1, 1, 4, 3⟩ ⟨1, 1/2, 4, 1⟩ (2, 0)
  refine C43_drawn_partial (twin := false) (key := k!"Axes") rfl (isRect_realRect _) (by norm_num) (by norm_num) ?_ (by simp) (by simp)
    rfl (.refl _) h1 (isRect_realRect _) (by constructor <;> norm_num) h2 (isRect_realRect _)
    (by constructor <;> norm_num) (by simp) ?_
  · simp only [List.mem_singleton, forall_eq]
    exact ⟨_, _, _, _, oneFigure_shape _ _ _ _⟩
  · refine (C43_constraint (.refl _) h1 (isRect_realRect _) h2 (isRect_realRect _) _).mpr ?_
    simp [SitsOn, edge, con.Side.opposite]

/-- The code violates C43 for axis boxes of negative height: with frame `[0,1] × [0,1]`, the box whose
lower side is at 1 and whose upper side is at 0 satisfies `PositionXAxis("top")`, and it also satisfies
`PositionXAxis("bottom")`; `find_axis_position` reports `bottom`. -/
theorem C43_flipped_counterexample :
    SatisfiedPy (ct.positionAxis .x .top false) [oneAxes ⟨0, 0, 1, 1⟩ ⟨0, 1, 1, 0⟩ (0, 0)] [] ∧
    findAxisPosition (realRect ⟨0, 0, 1, 1⟩) (realRect ⟨0, 1, 1, 0⟩) = .ok (.bottom, false) := by
  obtain ⟨h1, h2, h3⟩ := oneAxes_part ⟨0, 0, 1, 1⟩ ⟨0, 1, 1, 0⟩ (0, 0)
  have hf := isRect_realRect ⟨0, 0, 1, 1⟩
  have hb := isRect_realRect ⟨0, 1, 1, 0⟩
  refine ⟨(C43_constraint (.refl _) h1 hf h2 hb _).mpr (by simp [SitsOn, edge, con.Side.opposite]), ?_⟩
  exact findAxisPosition_bottom hf hb (by simp [SitsOn, edge, con.Side.opposite])

/-! ## C44: axis labels -/

theorem ev_label (hax : ax.ty.IsA .axes) (hF : HasPart ax k!"Frame" frame)
    (hf : IsQuad frame a b c d) {kind : AxisKind} {twin : Bool} {l : ℝ × ℝ}
    (hL : HasPart ax (axisLabelKey kind twin) p) (hp : IsPoint p l)
    {e f : ℝ × ℝ} (hef : match kind with | .x => (a, b) = (e, f) | .y => (b, c) = (e, f))
    (hne : e ≠ f) (v : ℝ) :
    Ev (labelT kind twin) [ax] [.num (fin v)] [along e f l / dist2 e f - v] := by
  have g0 : resolve [ax] (k!"arg0/" ++ axisLabelKey kind twin) = .ok p :=
    (resolve_arg0 ax [] _).trans (hL.getChild (axisLabelKey_noslash kind twin))
  have g1 : ∃ ln, resolve [ax] (k!"arg0/Frame/" ++ labelLine kind) = .ok ln ∧ IsLine ln e f := by
    obtain ⟨l0, l1, l2, l3, c0, c1, c2, c3, h0, h1, h2, h3⟩ := QuadAt.lines hf
    cases kind
    · cases hef
      refine ⟨l0, ?_, h0⟩
      refine (resolve_arg0 ax [] (k!"Frame" ++ '/' :: k!"Line0")).trans ?_
      exact getChild_slash (hF.getChild (by decide)) c0
    · cases hef
      refine ⟨l1, ?_, h1⟩
      refine (resolve_arg0 ax [] (k!"Frame" ++ '/' :: k!"Line1")).trans ?_
      exact getChild_slash (hF.getChild (by decide)) c1
  obtain ⟨ln, g1, hln⟩ := g1
  have := Ev.compound (cls := { name := labelName kind, assem := compoundAssem 1 })
    (sig := ⟨[.axes], [.float], 0⟩) (cp := ct.labelParams)
    (cs := [(k!"RelativePointOnLineDistance", cstr con.relativePointOnLineDistance)])
    (vs := [[along e f l / dist2 e f - v]])
    (params := [.num (fin v)]) (by simp) rfl rfl (.cons hax .nil) rfl
    (.cons (pyMap2 g0 g1) (by simpa using ev_ct_relPoint hp hln hne false v) (.nil _))
  simpa [labelT] using this

/-- C44, x axis: `PositionXAxisLabel(v)` is satisfied exactly if the label anchor is at the fraction `v`
of the frame width from the left. -/
theorem C44_x {r : Rect} (hax : ax.ty.IsA .axes) (hF : HasPart ax k!"Frame" frame)
    (hf : IsRect frame r) (hr : r.x0 < r.x1) {twin : Bool} {l : ℝ × ℝ}
    (hL : HasPart ax (axisLabelKey .x twin) p) (hp : IsPoint p l) (v : ℝ) :
    SatisfiedPy (ct.positionAxisLabel .x twin) [ax] [.num (fin v)] ↔
      l.1 = r.x0 + v * (r.x1 - r.x0) := by
  have hne : (r.x0, r.y0) ≠ (r.x1, r.y0) := fun h => hr.ne (Prod.mk.inj h).1
  rw [satisfiedPy_iff ((ev_label hax hF hf hL hp (kind := .x) rfl hne v).returnsPy (label_eq .x twin))]
  have hd : dist2 (r.x0, r.y0) (r.x1, r.y0) = r.x1 - r.x0 := by
    simp only [dist2, sub_self]
    rw [show (r.x1 - r.x0) ^ 2 + (0:ℝ) ^ 2 = (r.x1 - r.x0) ^ 2 by ring, Real.sqrt_sq (by linarith)]
  have hpos : r.x1 - r.x0 ≠ 0 := by linarith
  simp only [List.mem_singleton, forall_eq, sub_eq_zero, along, hd]
  rw [div_div, div_eq_iff (mul_ne_zero hpos hpos)]
  constructor
  · intro h
    have : (l.1 - (r.x0 + v * (r.x1 - r.x0))) * (r.x1 - r.x0) = 0 := by linear_combination h
    have := (mul_eq_zero.mp this).resolve_right hpos
    linarith
  · intro h; rw [h]; ring

/-- C44, y axis: `PositionYAxisLabel(v)` is satisfied exactly if the label anchor is at the fraction `v`
of the frame height from the bottom. -/
theorem C44_y {r : Rect} (hax : ax.ty.IsA .axes) (hF : HasPart ax k!"Frame" frame)
    (hf : IsRect frame r) (hr : r.y0 < r.y1) {twin : Bool} {l : ℝ × ℝ}
    (hL : HasPart ax (axisLabelKey .y twin) p) (hp : IsPoint p l) (v : ℝ) :
    SatisfiedPy (ct.positionAxisLabel .y twin) [ax] [.num (fin v)] ↔
      l.2 = r.y0 + v * (r.y1 - r.y0) := by
  have hne : (r.x1, r.y0) ≠ (r.x1, r.y1) := fun h => hr.ne (Prod.mk.inj h).2
  rw [satisfiedPy_iff ((ev_label hax hF hf hL hp (kind := .y) rfl hne v).returnsPy (label_eq .y twin))]
  have hd : dist2 (r.x1, r.y0) (r.x1, r.y1) = r.y1 - r.y0 := by
    simp only [dist2, sub_self]
    rw [show (0:ℝ) ^ 2 + (r.y1 - r.y0) ^ 2 = (r.y1 - r.y0) ^ 2 by ring, Real.sqrt_sq (by linarith)]
  have hpos : r.y1 - r.y0 ≠ 0 := by linarith
  simp only [List.mem_singleton, forall_eq, sub_eq_zero, along, hd]
  rw [div_div, div_eq_iff (mul_ne_zero hpos hpos)]
  constructor
  · intro h
    have : (l.2 - (r.y0 + v * (r.y1 - r.y0))) * (r.y1 - r.y0) = 0 := by linear_combination h
    have := (mul_eq_zero.mp this).resolve_right hpos
    linarith
  · intro h; rw [h]; ring

/-- The hypotheses of `C44_x` are met: a label half way along a frame from 1 to 4. -/
example : SatisfiedPy (ct.positionAxisLabel .x false) [oneAxes ⟨1, 1, 4, 3⟩ ⟨1, 1/2, 4, 1⟩ (5/2, 0)]
    [.num (fin (1/2))] := by
  obtain ⟨h1, h2, h3⟩ := oneAxes_part ⟨1, 1, 4, 3⟩ ⟨1, 1/2, 4, 1⟩ (5/2, 0)
  exact (C44_x (.refl _) h1 (isRect_realRect _) (by norm_num) h3 (isPoint_realPoint _) _).mpr
    (by norm_num)

/-! ## C45: axis thickness -/

/-- The thickness on the tick side of an axis whose label is hidden: how far its bounding box reaches
beyond the axes on that side, in inches; 0 if nothing is drawn. -/
noncomputable def thicknessOf (m : MplAxis Flt) (side : con.Side) : Flt :=
  match m.tightbbox false with
  | none => fin 0
  | some bb =>
    match side with
    | .bottom => m.figHeight * (m.axesBbox.ymin - bb.ymin)
    | .top => m.figHeight * (bb.ymax - m.axesBbox.ymax)
    | .left => m.figWidth * (m.axesBbox.xmin - bb.xmin)
    | .right => m.figWidth * (bb.xmax - m.axesBbox.xmax)

/-- `matplotlib`'s name of a side. -/
def sideName : con.Side → Str
  | .bottom => k!"bottom"
  | .top => k!"top"
  | .left => k!"left"
  | .right => k!"right"

/-- C45 (measuring): if the ticks are on one side of the axes, `get_axis_thickness` returns the distance
from the axes to the outer edge of the ticks on that side and leaves the axis as it was.  Missing from
the property as first stated: the other tick positions (see `C45_restores_partial`). -/
theorem C45_measure_partial (m : MplAxis Flt) (side : con.Side) (h : m.ticksPosition = sideName side) :
    ct.getAxisThickness m = (.ok (thicknessOf m side), m) := by
  cases m with
  | mk vis tb tp w ht bb =>
    simp only at h
    subst h
    cases ht : tb false with
    | none =>
      cases side <;> simp [ct.getAxisThickness, ct.axisDim, ct.setLabelVisible, ht, thicknessOf] <;> rfl
    | some b =>
      cases side <;> simp [ct.getAxisThickness, ct.axisDim, ct.setLabelVisible, ht, thicknessOf, sideName]

/-- C45 (measuring), every tick position: the axis is left as it was if and only if the call returns or
the label was invisible before; nothing but the visibility ever changes; and the call raises exactly
if there is something to draw and the ticks are on no single side (`"default"`, `"unknown"`). -/
theorem C45_restores_partial (m : MplAxis Flt) :
    ((ct.getAxisThickness m).2 = m ↔
      (∃ v, (ct.getAxisThickness m).1 = .ok v) ∨ m.labelVisible = false) ∧
    (ct.getAxisThickness m).2 = { m with labelVisible := (ct.getAxisThickness m).2.labelVisible } ∧
    ((∃ e, (ct.getAxisThickness m).1 = .error e) ↔
      m.tightbbox false ≠ none ∧ ∀ side, m.ticksPosition ≠ sideName side) := by
  cases m with
  | mk vis tb tp w ht bb =>
    have hside : (∀ side, tp ≠ sideName side) ↔
        tp ≠ k!"bottom" ∧ tp ≠ k!"top" ∧ tp ≠ k!"left" ∧ tp ≠ k!"right" :=
      ⟨fun h => ⟨h .bottom, h .top, h .left, h .right⟩,
        fun ⟨h1, h2, h3, h4⟩ s => by cases s <;> assumption⟩
    simp only [hside]
    cases ht : tb false with
    | none => simp [ct.getAxisThickness, ct.axisDim, ct.setLabelVisible, ht]
    | some b =>
      by_cases h1 : tp = k!"bottom"
      · simp [ct.getAxisThickness, ct.axisDim, ct.setLabelVisible, ht, h1]
      by_cases h2 : tp = k!"top"
      · subst h2; simp [ct.getAxisThickness, ct.axisDim, ct.setLabelVisible, ht]
      by_cases h3 : tp = k!"left"
      · subst h3; simp [ct.getAxisThickness, ct.axisDim, ct.setLabelVisible, ht]
      by_cases h4 : tp = k!"right"
      · subst h4; simp [ct.getAxisThickness, ct.axisDim, ct.setLabelVisible, ht]
      simp [ct.getAxisThickness, ct.axisDim, ct.setLabelVisible, ht, h1, h2, h3, h4, eq_comm]

/-- The code violates C45: an axis with ticks on both sides and a visible label loses its label. -/
theorem C45_counterexample : ∃ m : MplAxis Flt, m.ticksPosition = k!"default" ∧
    m.labelVisible = true ∧ (ct.getAxisThickness m).1 = .error .valueError ∧
    (ct.getAxisThickness m).2.labelVisible = false :=
  ⟨⟨true, fun _ => some ⟨fin 0, fin 0, fin 1, fin 1⟩, k!"default", fin 1, fin 1,
    ⟨fin 0, fin 0, fin 1, fin 1⟩⟩, rfl, rfl, rfl, rfl⟩

/-- The extent of a rectangle across an axis: height for an x axis, width for a y axis. -/
noncomputable def Rect.across (r : Rect) : AxisKind → ℝ
  | .x => r.y1 - r.y0
  | .y => r.x1 - r.x0

theorem thickness_sat {kind : AxisKind} {r : Rect} (hb : IsRect box r) {y : Param Flt} {v : ℝ}
    (hy : ct.axisThicknessParams [y] = .ok [[.num (fin v)]]) :
    SatisfiedPy (ct.axisThickness kind) [box] [y] ↔ Rect.across r kind = v := by
  have : ∃ l0 l1, resolve [box] k!"arg0/Line0" = .ok l0 ∧ resolve [box] k!"arg0/Line1" = .ok l1 ∧
      IsLine l0 (r.x0, r.y0) (r.x1, r.y0) ∧ IsLine l1 (r.x1, r.y0) (r.x1, r.y1) := by
    obtain ⟨l0, l1, l2, l3, h0, h1, h2, h3, g0, g1, g2, g3⟩ := quad_resolve hb []
    exact ⟨l0, l1, g0, g1, h0, h1⟩
  obtain ⟨l0, l1, g0, g1, h0, h1⟩ := this
  have hv : Ev (thicknessT kind) [box] [y] [Rect.across r kind - v] := by
    cases kind
    · exact Ev.compound (vs := [[Rect.across r .x - v]]) (by simp) rfl hy (.cons hb.1 .nil) rfl
        (.cons (pyMap1 g1) (ev_ct_yLength h1 v) (.nil _))
    · exact Ev.compound (vs := [[Rect.across r .y - v]]) (by simp) rfl hy (.cons hb.1 .nil) rfl
        (.cons (pyMap1 g0) (ev_ct_xLength h0 v) (.nil _))
  rw [satisfiedPy_iff (hv.returnsPy (thickness_eq kind))]
  simp [sub_eq_zero]

/-- C45 (constraint): `XAxisThickness` / `YAxisThickness` of an axis with ticks on one side is satisfied
exactly if the height / width of the axis box is the measured thickness. -/
theorem C45_constraint {kind : AxisKind} {r : Rect} (hb : IsRect box r) (m : MplAxis Flt)
    (side : con.Side) (h : m.ticksPosition = sideName side) {v : ℝ} (hv : thicknessOf m side = fin v) :
    SatisfiedPy (ct.axisThickness kind) [box] [.axis m] ↔ Rect.across r kind = v := by
  refine thickness_sat hb ?_
  simp only [ct.axisThicknessParams, C45_measure_partial m side h, hv, bind, Except.bind]

/-- C45 (constraint, no axis attached): the axis box has thickness 0. -/
theorem C45_constraint_none {kind : AxisKind} {r : Rect} (hb : IsRect box r) :
    SatisfiedPy (ct.axisThickness kind) [box] [.none] ↔ Rect.across r kind = 0 :=
  thickness_sat hb rfl

/-- The hypotheses of `C45_constraint` are met: ticks at the bottom that reach from 0.05 to 0.15 in a
figure of height 4. -/
example : SatisfiedPy (ct.axisThickness .x) [realRect ⟨1, 1, 4, 7/5⟩]
    [.axis ⟨true, fun _ => some ⟨fin 0, fin (1/20), fin 1, fin (1/5)⟩, k!"bottom", fin 5, fin 4,
      ⟨fin 0, fin (3/20), fin 1, fin 1⟩⟩] := by
  refine (C45_constraint (isRect_realRect _) _ .bottom rfl (v := 4 * (3/20 - 1/20)) rfl).mpr ?_
  norm_num [Rect.across]

end MplLayout.Props
