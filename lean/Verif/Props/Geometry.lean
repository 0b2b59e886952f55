import Verif.Lemmas.Shapes

/-!
# C32–C36: what the shipped constraints mean in the plane
-/

namespace MplLayout.Props

open Flt Cons

variable {l l' p p' q q' : Prim Flt} {a b c d a' b' c' d' : ℝ × ℝ}

/-! ## C32 -/

/-- C32, `Horizontal`: satisfied exactly when both end points have the same height. -/
theorem C32_horizontal (h : IsLine l a b) : Satisfied ct.horizontal [l] [] ↔ a.2 = b.2 := by
  rw [satisfied_iff (ev_horizontal h).returns]
  simp [sub_eq_zero, eq_comm]

/-- C32, `Vertical`: satisfied exactly when both end points have the same abscissa. -/
theorem C32_vertical (h : IsLine l a b) : Satisfied ct.vertical [l] [] ↔ a.1 = b.1 := by
  rw [satisfied_iff (ev_vertical h).returns]
  simp [sub_eq_zero, eq_comm]

/-- C32, `Parallel`: satisfied exactly when the directions of the two lines are proportional. -/
theorem C32_parallel (h : IsLine l a b) (h' : IsLine l' c d) :
    Satisfied ct.parallel [l, l'] [] ↔
      ∃ s t : ℝ, (s ≠ 0 ∨ t ≠ 0) ∧ s * (b.1 - a.1) = t * (d.1 - c.1) ∧
        s * (b.2 - a.2) = t * (d.2 - c.2) := by
  rw [satisfied_iff (ev_parallel h h').returns]
  simp only [List.mem_singleton, forall_eq]
  constructor
  · intro h0
    by_cases h1 : d.1 - c.1 = 0 ∧ d.2 - c.2 = 0
    · exact ⟨0, 1, Or.inr one_ne_zero, by rw [h1.1]; ring, by rw [h1.2]; ring⟩
    · by_cases h2 : d.1 - c.1 = 0
      · have h3 : d.2 - c.2 ≠ 0 := fun h3 => h1 ⟨h2, h3⟩
        refine ⟨d.2 - c.2, b.2 - a.2, Or.inl h3, ?_, by ring⟩
        linarith
      · refine ⟨d.1 - c.1, b.1 - a.1, Or.inl h2, by ring, ?_⟩
        linarith
  · rintro ⟨s, t, hst, e1, e2⟩
    rcases hst with hs | ht
    · have : s * ((b.1 - a.1) * (d.2 - c.2) - (b.2 - a.2) * (d.1 - c.1)) = 0 := by
        linear_combination (d.2 - c.2) * e1 - (d.1 - c.1) * e2
      exact (mul_eq_zero.mp this).resolve_left hs
    · have : t * ((b.1 - a.1) * (d.2 - c.2) - (b.2 - a.2) * (d.1 - c.1)) = 0 := by
        linear_combination (b.2 - a.2) * e1 - (b.1 - a.1) * e2
      exact (mul_eq_zero.mp this).resolve_left ht

/-- C32, `Orthogonal`: satisfied exactly when the scalar product of the directions is zero. -/
theorem C32_orthogonal (h : IsLine l a b) (h' : IsLine l' c d) :
    Satisfied ct.orthogonal [l, l'] [] ↔
      (b.1 - a.1) * (d.1 - c.1) + (b.2 - a.2) * (d.2 - c.2) = 0 := by
  rw [satisfied_iff (ev_orthogonal h h').returns]
  simp

/-- C32, `Coincident`: satisfied exactly when the two points are equal. -/
theorem C32_coincident (h : IsPoint p a) (h' : IsPoint q b) :
    Satisfied ct.coincident [p, q] [] ↔ a = b := by
  rw [satisfied_iff (ev_coincident h h').returns]
  simp only [List.mem_cons, List.not_mem_nil, or_false, forall_eq_or_imp, forall_eq, sub_eq_zero]
  constructor
  · rintro ⟨h1, h2⟩; exact Prod.ext h1.symm h2.symm
  · rintro rfl; exact ⟨rfl, rfl⟩

/-- C32, `CoincidentLines`: satisfied exactly when the lines have the same end points; in the same
order for `reverse=False`, in the opposite order for `reverse=True`. -/
theorem C32_coincidentLines (h : IsLine l a b) (h' : IsLine l' c d) (reverse : Bool) :
    Satisfied ct.coincidentLines [l, l'] [.bool reverse] ↔
      if reverse then a = d ∧ b = c else a = c ∧ b = d := by
  rw [satisfied_iff (ev_coincidentLines h h' (r := .bool reverse) rfl).returns]
  cases reverse <;>
  simp only [Bool.false_eq_true, if_false, if_true, List.mem_cons, List.not_mem_nil, or_false,
    forall_eq_or_imp, forall_eq, sub_eq_zero, Prod.ext_iff] <;> tauto

/-- The hypotheses of C32 hold for a line that is neither horizontal nor vertical. -/
example : IsLine (realLine (0, 0) (2, 1)) (0, 0) (2, 1) ∧
    ¬ Satisfied ct.horizontal [realLine (0, 0) (2, 1)] [] ∧
    ¬ Satisfied ct.vertical [realLine (0, 0) (2, 1)] [] ∧
    Satisfied ct.parallel [realLine (0, 0) (2, 1), realLine (1, 1) (-3, -1)] [] ∧
    Satisfied ct.orthogonal [realLine (0, 0) (2, 1), realLine (1, 1) (0, 3)] [] ∧
    Satisfied ct.coincidentLines [realLine (0, 0) (2, 1), realLine (2, 1) (0, 0)] [.bool true] := by
  refine ⟨isLine_realLine _ _, ?_, ?_, ?_, ?_, ?_⟩
  · rw [C32_horizontal (isLine_realLine _ _)]; norm_num
  · rw [C32_vertical (isLine_realLine _ _)]; norm_num
  · rw [C32_parallel (isLine_realLine _ _) (isLine_realLine _ _)]
    exact ⟨2, -1, by norm_num⟩
  · rw [C32_orthogonal (isLine_realLine _ _) (isLine_realLine _ _)]; norm_num
  · rw [C32_coincidentLines (isLine_realLine _ _) (isLine_realLine _ _)]; simp

/-! ## C33 -/

/-- C33: `Box` is satisfied exactly when the quadrilateral runs around an axis-aligned rectangle:
its vertices are `(x0,y0), (x1,y0), (x1,y1), (x0,y1)` in this order. -/
theorem C33_box (h : IsQuad q a b c d) :
    SatisfiedPy ct.box [q] [] ↔ ∃ x0 y0 x1 y1 : ℝ,
      a = (x0, y0) ∧ b = (x1, y0) ∧ c = (x1, y1) ∧ d = (x0, y1) := by
  rw [satisfiedPy_iff ((ev_box h).returnsPy box_eq)]
  simp only [List.mem_cons, List.not_mem_nil, or_false, forall_eq_or_imp, forall_eq, sub_eq_zero]
  constructor
  · rintro ⟨h1, h2, h3, h4⟩
    exact ⟨a.1, a.2, b.1, c.2, rfl, Prod.ext rfl h1, Prod.ext h4 rfl, Prod.ext h3.symm h2⟩
  · rintro ⟨x0, y0, x1, y1, rfl, rfl, rfl, rfl⟩
    exact ⟨rfl, rfl, rfl, rfl⟩

example : IsQuad (realQuad (0, 0) (2, 0) (2, 1) (0, 1)) (0, 0) (2, 0) (2, 1) (0, 1) ∧
    SatisfiedPy ct.box [realQuad (0, 0) (2, 0) (2, 1) (0, 1)] [] ∧
    ¬ SatisfiedPy ct.box [realQuad (0, 0) (2, 0) (2, 1) (0, 2)] [] := by
  refine ⟨isQuad_realQuad _ _ _ _, ?_, ?_⟩
  · rw [C33_box (isQuad_realQuad _ _ _ _)]
    exact ⟨0, 0, 2, 1, rfl, rfl, rfl, rfl⟩
  · rw [C33_box (isQuad_realQuad _ _ _ _)]
    rintro ⟨x0, y0, x1, y1, h1, h2, h3, h4⟩
    simp only [Prod.mk.injEq] at *
    linarith [h3.2, h4.2]

/-! ## C34 -/

theorem sat_one {c : Py (Cons Flt)} {prims : List (Prim Flt)} {params : List (Param Flt)} {x y : ℝ}
    (h : ReturnsPy c prims params [x - y]) : SatisfiedPy c prims params ↔ x = y := by
  rw [satisfiedPy_iff h]; simp [sub_eq_zero]

/-- C34, `XLength(v)`: the signed horizontal extent is `v`. -/
theorem C34_xLength (h : IsLine l a b) (v : ℝ) :
    SatisfiedPy ct.xLength [l] [.num (fin v)] ↔ b.1 - a.1 = v :=
  sat_one ((ev_ct_xLength h v).returnsPy ct_xLength_eq)

/-- C34, `YLength(v)`: the signed vertical extent is `v`. -/
theorem C34_yLength (h : IsLine l a b) (v : ℝ) :
    SatisfiedPy ct.yLength [l] [.num (fin v)] ↔ b.2 - a.2 = v :=
  sat_one ((ev_ct_yLength h v).returnsPy ct_yLength_eq)

/-- C34, `DirectedLength(direction, v)`: the extent along the direction is `v`. -/
theorem C34_directedLength (h : IsLine l a b) (u : ℝ × ℝ) (v : ℝ) :
    SatisfiedPy ct.directedLength [l] [.arr [fin u.1, fin u.2], .num (fin v)] ↔
      (b.1 - a.1) * u.1 + (b.2 - a.2) * u.2 = v :=
  sat_one ((ev_ct_directedLength h u v).returnsPy ct_directedLength_eq)

/-- C34, `Length(v)`: the Euclidean length is `v`. -/
theorem C34_length (h : IsLine l a b) (v : ℝ) :
    SatisfiedPy ct.length [l] [.num (fin v)] ↔ dist2 a b = v :=
  sat_one ((ev_ct_length h v).returnsPy ct_length_eq)

/-- C34, `DirectedDistance(direction, v)`. -/
theorem C34_directedDistance (h : IsPoint p a) (h' : IsPoint q b) (u : ℝ × ℝ) (v : ℝ) :
    SatisfiedPy ct.directedDistance [p, q] [.arr [fin u.1, fin u.2], .num (fin v)] ↔
      (b.1 - a.1) * u.1 + (b.2 - a.2) * u.2 = v :=
  sat_one ((ev_ct_directedDistance h h' u v).returnsPy ct_directedDistance_eq)

/-- C34, `XDistance(v)`. -/
theorem C34_xDistance (h : IsPoint p a) (h' : IsPoint q b) (v : ℝ) :
    SatisfiedPy ct.xDistance [p, q] [.num (fin v)] ↔ b.1 - a.1 = v :=
  sat_one ((ev_ct_xDistance h h' v).returnsPy ct_xDistance_eq)

/-- C34, `YDistance(v)`. -/
theorem C34_yDistance (h : IsPoint p a) (h' : IsPoint q b) (v : ℝ) :
    SatisfiedPy ct.yDistance [p, q] [.num (fin v)] ↔ b.2 - a.2 = v :=
  sat_one ((ev_ct_yDistance h h' v).returnsPy ct_yDistance_eq)

/-- C34, `MidpointXDistance(v)`. -/
theorem C34_midpointXDistance (h : IsLine l a b) (h' : IsLine l' c d) (v : ℝ) :
    SatisfiedPy ct.midpointXDistance [l, l'] [.num (fin v)] ↔
      (c.1 + d.1) / 2 - (a.1 + b.1) / 2 = v :=
  sat_one ((ev_ct_midX h h' v).returnsPy ct_midpointXDistance_eq)

/-- C34, `MidpointYDistance(v)`. -/
theorem C34_midpointYDistance (h : IsLine l a b) (h' : IsLine l' c d) (v : ℝ) :
    SatisfiedPy ct.midpointYDistance [l, l'] [.num (fin v)] ↔
      (c.2 + d.2) / 2 - (a.2 + b.2) / 2 = v :=
  sat_one ((ev_ct_midY h h' v).returnsPy ct_midpointYDistance_eq)

/-- C34, `Fix((x, y))`: the point is at `(x, y)`. -/
theorem C34_fix (h : IsPoint p a) (v : ℝ × ℝ) :
    SatisfiedPy ct.fix [p] [.arr [fin v.1, fin v.2]] ↔ a = v := by
  rw [satisfiedPy_iff ((ev_ct_fix h v).returnsPy ct_fix_eq)]
  simp [sub_eq_zero, Prod.ext_iff]

/-- C34, `Width(v)`: the bottom edge, from the first to the second vertex, extends by `v` to the
right. -/
theorem C34_width (h : IsQuad q a b c d) (v : ℝ) :
    SatisfiedPy ct.width [q] [.num (fin v)] ↔ b.1 - a.1 = v :=
  sat_one (((ev_width h).2 v).returnsPy ct_width_eq)

/-- C34, `Height(v)`: the right edge, from the second to the third vertex, extends by `v`
upwards. -/
theorem C34_height (h : IsQuad q a b c d) (v : ℝ) :
    SatisfiedPy ct.height [q] [.num (fin v)] ↔ c.2 - b.2 = v :=
  sat_one (((ev_height h).2 v).returnsPy ct_height_eq)

/-- For rectangles, `Width` and `Height` are the width and the height. -/
theorem C34_rect {r : Rect} (h : IsRect q r) (v : ℝ) :
    (SatisfiedPy ct.width [q] [.num (fin v)] ↔ r.x1 - r.x0 = v) ∧
    (SatisfiedPy ct.height [q] [.num (fin v)] ↔ r.y1 - r.y0 = v) :=
  ⟨C34_width h v, C34_height h v⟩

example : IsRect (realRect ⟨1, 2, 4, 4⟩) ⟨1, 2, 4, 4⟩ ∧
    SatisfiedPy ct.width [realRect ⟨1, 2, 4, 4⟩] [.num (fin 3)] ∧
    ¬ SatisfiedPy ct.height [realRect ⟨1, 2, 4, 4⟩] [.num (fin 3)] := by
  refine ⟨isRect_realRect _, ?_, ?_⟩
  · rw [(C34_rect (isRect_realRect _) 3).1]; norm_num
  · rw [(C34_rect (isRect_realRect _) 3).2]; norm_num

/-! ## C35 -/

/-- The signed gap of an inner margin: from the side of the outer box `s` inwards to the same side
of the inner box `r`. -/
def innerGap (side : con.Side) (r s : Rect) : ℝ :=
  match side with
  | .left => r.x0 - s.x0
  | .right => s.x1 - r.x1
  | .bottom => r.y0 - s.y0
  | .top => s.y1 - r.y1

/-- The signed gap of an outer margin: from the named side of `r` outwards to the facing side of
`s`. -/
def outerGap (side : con.Side) (r s : Rect) : ℝ :=
  match side with
  | .left => r.x0 - s.x1
  | .right => s.x0 - r.x1
  | .bottom => r.y0 - s.y1
  | .top => s.y0 - r.y1

theorem marginVal_rect (outer : Bool) (side : con.Side) (r s : Rect) :
    marginVal outer side (r.x0, r.y0) (r.x1, r.y0) (r.x1, r.y1) (r.x0, r.y1)
      (s.x0, s.y0) (s.x1, s.y0) (s.x1, s.y1) (s.x0, s.y1)
      = if outer then outerGap side r s else innerGap side r s := by
  cases outer <;> cases side <;> simp [marginVal, outerGap, innerGap]

/-- C35: the constructions `InnerMargin(side)` and `OuterMargin(side)` measure the gaps. -/
theorem C35_margin_value {r s : Rect} (h : IsRect q r) (h' : IsRect q' s) (side : con.Side) :
    ReturnsPy (con.margin false side) [q, q'] [] [innerGap side r s] ∧
    ReturnsPy (con.margin true side) [q, q'] [] [outerGap side r s] := by
  have h1 := (ev_margin h h' false side).1.returnsPy (margin_eq _ _)
  have h2 := (ev_margin h h' true side).1.returnsPy (margin_eq _ _)
  rw [marginVal_rect] at h1 h2
  exact ⟨h1, h2⟩

/-- C35: for rectangles, `InnerMargin(side)(v)` is satisfied exactly when the signed gap from the
side of the second (outer) box to the same side of the first box is `v`. -/
theorem C35_innerMargin {r s : Rect} (h : IsRect q r) (h' : IsRect q' s) (side : con.Side) (v : ℝ) :
    SatisfiedPy (ct.margin false side) [q, q'] [.num (fin v)] ↔ innerGap side r s = v := by
  have h1 := ((ev_margin h h' false side).2 v).returnsPy (ct_margin_eq _ _)
  rw [marginVal_rect] at h1
  exact sat_one h1

/-- C35: for rectangles, `OuterMargin(side)(v)` is satisfied exactly when the signed gap from the
side of the first box to the facing side of the second box is `v`. -/
theorem C35_outerMargin {r s : Rect} (h : IsRect q r) (h' : IsRect q' s) (side : con.Side) (v : ℝ) :
    SatisfiedPy (ct.margin true side) [q, q'] [.num (fin v)] ↔ outerGap side r s = v := by
  have h1 := ((ev_margin h h' true side).2 v).returnsPy (ct_margin_eq _ _)
  rw [marginVal_rect] at h1
  exact sat_one h1

/-- C35: swapping the two boxes and the side gives the same outer margin (this holds for arbitrary
quadrilaterals). -/
theorem C35_outerMargin_swap (h : IsQuad q a b c d) (h' : IsQuad q' a' b' c' d')
    (side : con.Side) : ∃ x : ℝ, ReturnsPy (con.margin true side) [q, q'] [] [x] ∧
      ReturnsPy (con.margin true side.opposite) [q', q] [] [x] := by
  refine ⟨_, (ev_margin h h' true side).1.returnsPy (margin_eq _ _), ?_⟩
  have := (ev_margin h' h true side.opposite).1.returnsPy (margin_eq _ _)
  cases side <;> exact this

/-- C35: the left and right inner margins and the width of the inner box add up to the width of the
outer box; likewise vertically. -/
theorem C35_margins_add_up {r s : Rect} (h : IsRect q r) (h' : IsRect q' s) :
    ∃ ml mr w W mb mt t T : ℝ,
      ReturnsPy (con.margin false .left) [q, q'] [] [ml] ∧
      ReturnsPy (con.margin false .right) [q, q'] [] [mr] ∧
      ReturnsPy con.width [q] [] [w] ∧ ReturnsPy con.width [q'] [] [W] ∧ ml + w + mr = W ∧
      ReturnsPy (con.margin false .bottom) [q, q'] [] [mb] ∧
      ReturnsPy (con.margin false .top) [q, q'] [] [mt] ∧
      ReturnsPy con.height [q] [] [t] ∧ ReturnsPy con.height [q'] [] [T] ∧ mb + t + mt = T := by
  refine ⟨_, _, _, _, _, _, _, _, (C35_margin_value h h' _).1, (C35_margin_value h h' _).1,
    (ev_width h).1.returnsPy width_eq, (ev_width h').1.returnsPy width_eq, ?_,
    (C35_margin_value h h' _).1, (C35_margin_value h h' _).1,
    (ev_height h).1.returnsPy height_eq, (ev_height h').1.returnsPy height_eq, ?_⟩ <;>
  simp [innerGap]

example : let q := realRect ⟨1, 1, 2, 2⟩; let f := realRect ⟨0, 0, 4, 5⟩
    SatisfiedPy (ct.margin false .left) [q, f] [.num (fin 1)] ∧
    SatisfiedPy (ct.margin false .top) [q, f] [.num (fin 3)] ∧
    ¬ SatisfiedPy (ct.margin true .right) [q, f] [.num (fin 1)] := by
  refine ⟨?_, ?_, ?_⟩
  · rw [C35_innerMargin (isRect_realRect _) (isRect_realRect _)]; norm_num [innerGap]
  · rw [C35_innerMargin (isRect_realRect _) (isRect_realRect _)]; norm_num [innerGap]
  · rw [C35_outerMargin (isRect_realRect _) (isRect_realRect _)]; norm_num [outerGap]

/-! ## C36 -/

/-- The four points lie on one straight line. -/
def OnOneLine (a b c d : ℝ × ℝ) : Prop :=
  ∃ o u : ℝ × ℝ, u ≠ 0 ∧ ∀ x ∈ [a, b, c, d], ∃ t : ℝ, x = o + t • u

/-- C36, partly: if the first line is not degenerate, `Collinear` is satisfied exactly when the
four end points lie on one straight line.  Missing: a first line of length zero, for which the
constraint is always satisfied (see below). -/
theorem C36_collinear_partial (h : IsLine l a b) (h' : IsLine l' c d) (hab : a ≠ b) :
    Satisfied ct.collinear [l, l'] [] ↔ OnOneLine a b c d := by
  rw [satisfied_iff (ev_collinear h h').returns]
  simp only [List.mem_cons, List.not_mem_nil, or_false, forall_eq_or_imp, forall_eq]
  have hu : (b.1 - a.1) ^ 2 + (b.2 - a.2) ^ 2 ≠ 0 := by
    intro h0
    have h1 : b.1 - a.1 = 0 := by nlinarith [sq_nonneg (b.1 - a.1), sq_nonneg (b.2 - a.2)]
    have h2 : b.2 - a.2 = 0 := by nlinarith [sq_nonneg (b.1 - a.1), sq_nonneg (b.2 - a.2)]
    exact hab (Prod.ext (by linarith) (by linarith))
  constructor
  · rintro ⟨h1, h2⟩
    set N := (b.1 - a.1) ^ 2 + (b.2 - a.2) ^ 2 with hN
    have key : ∀ x : ℝ × ℝ, (b.1 - a.1) * (x.2 - a.2) - (b.2 - a.2) * (x.1 - a.1) = 0 →
        ∃ t : ℝ, x = a + t • (b - a) := by
      intro x hx
      refine ⟨((x.1 - a.1) * (b.1 - a.1) + (x.2 - a.2) * (b.2 - a.2)) / N, ?_⟩
      apply Prod.ext
      · simp only [Prod.fst_add, Prod.smul_fst, Prod.fst_sub, smul_eq_mul]
        rw [div_mul_eq_mul_div, ← sub_eq_iff_eq_add', eq_div_iff hu, hN]
        linear_combination (-(b.2 - a.2)) * hx
      · simp only [Prod.snd_add, Prod.smul_snd, Prod.snd_sub, smul_eq_mul]
        rw [div_mul_eq_mul_div, ← sub_eq_iff_eq_add', eq_div_iff hu, hN]
        linear_combination (b.1 - a.1) * hx
    refine ⟨a, b - a, sub_ne_zero.mpr hab.symm, ?_⟩
    intro x hx
    simp only [List.mem_cons, List.not_mem_nil, or_false] at hx
    rcases hx with rfl | rfl | rfl | rfl
    · exact key _ (by ring)
    · exact key _ (by ring)
    · exact key _ (by linarith)
    · exact key _ (by linarith)
  · rintro ⟨o, u, hu0, hx⟩
    obtain ⟨ta, rfl⟩ := hx a (by simp)
    obtain ⟨tb, rfl⟩ := hx b (by simp)
    obtain ⟨tc, rfl⟩ := hx c (by simp)
    obtain ⟨td, rfl⟩ := hx d (by simp)
    simp only [Prod.fst_add, Prod.smul_fst, Prod.snd_add, Prod.smul_snd, smul_eq_mul]
    constructor <;> ring

/-- C36 is false when the first line is degenerate: a point and an arbitrary line are accepted as
collinear. -/
theorem C36_degenerate_counterexample :
    ∃ l l' : Prim Flt, IsLine l (0, 1) (0, 1) ∧ IsLine l' (0, 0) (1, 0) ∧
      Satisfied ct.collinear [l, l'] [] ∧ ¬ OnOneLine (0, 1) (0, 1) (0, 0) (1, 0) := by
  refine ⟨realLine (0, 1) (0, 1), realLine (0, 0) (1, 0), isLine_realLine _ _, isLine_realLine _ _,
    ?_, ?_⟩
  · rw [satisfied_iff (ev_collinear (isLine_realLine _ _) (isLine_realLine _ _)).returns]
    simp
  · rintro ⟨o, u, hu0, hx⟩
    obtain ⟨ta, h1⟩ := hx (0, 1) (by simp)
    obtain ⟨tc, h2⟩ := hx (0, 0) (by simp)
    obtain ⟨td, h3⟩ := hx (1, 0) (by simp)
    simp only [Prod.ext_iff, Prod.fst_add, Prod.smul_fst, Prod.snd_add, Prod.smul_snd,
      smul_eq_mul] at h1 h2 h3
    obtain ⟨a1, a2⟩ := h1
    obtain ⟨b1, b2⟩ := h2
    obtain ⟨c1, c2⟩ := h3
    -- differences: (td - tc) u = (1, 0), (ta - tc) u = (0, 1)
    have e1 : (td - tc) * u.1 = 1 := by linarith
    have e2 : (td - tc) * u.2 = 0 := by linarith
    have e3 : (ta - tc) * u.1 = 0 := by linarith
    have e4 : (ta - tc) * u.2 = 1 := by linarith
    have : (1 : ℝ) = 0 := by
      calc (1 : ℝ) = ((td - tc) * u.1) * ((ta - tc) * u.2) := by rw [e1, e4]; ring
        _ = ((td - tc) * u.2) * ((ta - tc) * u.1) := by ring
        _ = 0 := by rw [e2]; ring
    norm_num at this

/-- In the degenerate case the constraint says nothing. -/
theorem C36_degenerate_vacuous (h : IsLine l a a) (h' : IsLine l' c d) :
    Satisfied ct.collinear [l, l'] [] := by
  rw [satisfied_iff (ev_collinear h h').returns]
  simp

example : Satisfied ct.collinear [realLine (0, 0) (1, 1), realLine (2, 2) (3, 3)] [] ∧
    ¬ Satisfied ct.collinear [realLine (0, 0) (1, 0), realLine (0, 1) (1, 1)] [] := by
  constructor
  · rw [satisfied_iff (ev_collinear (isLine_realLine _ _) (isLine_realLine _ _)).returns]
    norm_num
  · rw [satisfied_iff (ev_collinear (isLine_realLine _ _) (isLine_realLine _ _)).returns]
    norm_num

end MplLayout.Props
