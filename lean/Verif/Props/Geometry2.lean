import Verif.Lemmas.Grid
import Mathlib.Analysis.SpecialFunctions.Complex.Arg

/-!
# C39–C41: point–line distances, angles, ratios
-/

namespace MplLayout.Props

open Flt Cons

variable {l l' p p' q q' : Prim Flt} {a b c d : ℝ × ℝ}

/-! ## C39 -/

/-- Component of `c - a` along the direction from `a` to `b`. -/
noncomputable def along (a b c : ℝ × ℝ) : ℝ :=
  ((c.1 - a.1) * (b.1 - a.1) + (c.2 - a.2) * (b.2 - a.2)) / dist2 a b

/-- Component of `c - a` to the left of the direction from `a` to `b`. -/
noncomputable def leftOf (a b c : ℝ × ℝ) : ℝ :=
  ((b.1 - a.1) * (c.2 - a.2) - (b.2 - a.2) * (c.1 - a.1)) / dist2 a b

theorem dist2_comm (a b : ℝ × ℝ) : dist2 a b = dist2 b a := by
  simp only [dist2]; congr 1; ring

theorem pointOnA (hp : IsPoint p c) (h : IsLine l a b) (hne : a ≠ b) (t : Bool) :
    con.pointOnLineDistanceA [p, l] (.bool t) = .ok (.scalar (fin
      (if t then along b a c else along a b c))) := by
  rw [pointOnLine (r := .bool t) rfl hp h]
  have hd := (dist2_pos hne).ne'
  simp only [sqrt_len2]
  cases t
  · simp only [Bool.false_eq_true, if_false, up, fin_sub, fin_div hd]
    rw [dot2_fin (c.1 - a.1, c.2 - a.2) ((b.1 - a.1) / dist2 a b, (b.2 - a.2) / dist2 a b)]
    simp only [along]; congr 3; ring
  · simp only [if_true, up, fin_sub, fin_div hd, fin_neg]
    rw [dot2_fin (c.1 - b.1, c.2 - b.2) (-((b.1 - a.1) / dist2 a b), -((b.2 - a.2) / dist2 a b))]
    simp only [along, dist2_comm b a]; congr 3; ring

theorem pointToA (hp : IsPoint p c) (h : IsLine l a b) (hne : a ≠ b) (t : Bool) :
    con.pointToLineDistanceA [p, l] (.bool t) = .ok (.scalar (fin
      (if t then - leftOf a b c else leftOf a b c))) := by
  rw [pointToLine (r := .bool t) rfl hp h]
  have hd := (dist2_pos hne).ne'
  have h1 : (-1 : Flt) = fin (-1) := rfl
  simp only [sqrt_len2]
  simp only [up, fin_sub, fin_div hd]
  cases t
  · simp only [Bool.false_eq_true, if_false, zero_eq, h1, fin_mul, fin_sub]
    rw [dot2_fin (c.1 - a.1, c.2 - a.2) ((b.2 - a.2) / dist2 a b * -1 - 0 * 0,
      0 * 0 - (b.1 - a.1) / dist2 a b * -1)]
    simp only [leftOf]; congr 3; ring
  · simp only [if_true, zero_eq, one_eq, fin_mul, fin_sub]
    rw [dot2_fin (c.1 - a.1, c.2 - a.2) ((b.2 - a.2) / dist2 a b * 1 - 0 * 0,
      0 * 0 - (b.1 - a.1) / dist2 a b * 1)]
    simp only [leftOf]; congr 3; ring

/-- C39: `PointOnLineDistance` is the component of the offset from the start of the line along the
line; with `reverse=True`, of the offset from the end of the line in the opposite direction. -/
theorem C39_pointOnLine (hp : IsPoint p c) (h : IsLine l a b) (hne : a ≠ b) :
    Returns con.pointOnLineDistance [p, l] [.bool false] [along a b c] ∧
    Returns con.pointOnLineDistance [p, l] [.bool true] [along b a c] :=
  ⟨leaf1_returns (.cons hp.1 (.cons h.1 .nil)) (pointOnA hp h hne false) rfl,
    leaf1_returns (.cons hp.1 (.cons h.1 .nil)) (pointOnA hp h hne true) rfl⟩

/-- C39: `PointToLineDistance` is the component of the offset orthogonal to the line, positive on
the left of the line; with `reverse=True`, positive on the right. -/
theorem C39_pointToLine (hp : IsPoint p c) (h : IsLine l a b) (hne : a ≠ b) :
    Returns con.pointToLineDistance [p, l] [.bool false] [leftOf a b c] ∧
    Returns con.pointToLineDistance [p, l] [.bool true] [- leftOf a b c] :=
  ⟨leaf1_returns (.cons hp.1 (.cons h.1 .nil)) (pointToA hp h hne false) rfl,
    leaf1_returns (.cons hp.1 (.cons h.1 .nil)) (pointToA hp h hne true) rfl⟩

/-- C39: the squares of the two distances add up to the squared distance from the start. -/
theorem C39_pythagoras (hp : IsPoint p c) (h : IsLine l a b) (hne : a ≠ b) :
    ∃ x y : ℝ, Returns con.pointOnLineDistance [p, l] [.bool false] [x] ∧
      Returns con.pointToLineDistance [p, l] [.bool false] [y] ∧
      x ^ 2 + y ^ 2 = dist2 a c ^ 2 := by
  refine ⟨_, _, (C39_pointOnLine hp h hne).1, (C39_pointToLine hp h hne).1, ?_⟩
  have hd := (dist2_pos hne).ne'
  have h2 := dist2_sq a b
  rw [dist2_sq, along, leftOf, div_pow, div_pow, ← add_div, h2,
    div_eq_iff (by rw [← h2]; positivity)]
  ring

/-- C39: the two components determine the point: it is the start of the line plus the components
times the unit vectors along and to the left of the line. -/
theorem C39_decomposition (hne : a ≠ b) (c : ℝ × ℝ) :
    c.1 = a.1 + along a b c * ((b.1 - a.1) / dist2 a b) - leftOf a b c * ((b.2 - a.2) / dist2 a b) ∧
    c.2 = a.2 + along a b c * ((b.2 - a.2) / dist2 a b)
      + leftOf a b c * ((b.1 - a.1) / dist2 a b) := by
  have hd := (dist2_pos hne).ne'
  have h2 := dist2_sq a b
  constructor
  · rw [along, leftOf, div_mul_div_comm, div_mul_div_comm, ← pow_two, h2]
    have h3 : (b.1 - a.1) ^ 2 + (b.2 - a.2) ^ 2 ≠ 0 := by rw [← h2]; positivity
    rw [add_sub_assoc, ← sub_div, ← sub_eq_iff_eq_add', eq_div_iff h3]
    ring
  · rw [along, leftOf, div_mul_div_comm, div_mul_div_comm, ← pow_two, h2]
    have h3 : (b.1 - a.1) ^ 2 + (b.2 - a.2) ^ 2 ≠ 0 := by rw [← h2]; positivity
    rw [add_assoc, ← add_div, ← sub_eq_iff_eq_add', eq_div_iff h3]
    ring

/-- C39: the distances along the line from both ends add up to the length. -/
theorem C39_reverse (hp : IsPoint p c) (h : IsLine l a b) (hne : a ≠ b) :
    ∃ x y : ℝ, Returns con.pointOnLineDistance [p, l] [.bool false] [x] ∧
      Returns con.pointOnLineDistance [p, l] [.bool true] [y] ∧ x + y = dist2 a b := by
  refine ⟨_, _, (C39_pointOnLine hp h hne).1, (C39_pointOnLine hp h hne).2, ?_⟩
  have hd := (dist2_pos hne).ne'
  rw [along, along, dist2_comm b a, ← add_div, div_eq_iff hd, ← pow_two, dist2_sq]
  ring

theorem sat_one' {c : Py (Cons Flt)} {prims : List (Prim Flt)} {params : List (Param Flt)} {x y : ℝ}
    (h : ReturnsPy c prims params [x - y]) : SatisfiedPy c prims params ↔ x = y := by
  rw [satisfiedPy_iff h]; simp [sub_eq_zero]

theorem ev_ct_pointOnLine (hp : IsPoint p c) (h : IsLine l a b) (hne : a ≠ b) (t : Bool) (v : ℝ) :
    Ev (cstr con.pointOnLineDistance) [p, l] [.bool t, .num (fin v)]
      [(if t then along b a c else along a b c) - v] :=
  ct_leaf1 (v := [if t then along b a c else along a b c]) (.cons hp.1 (.cons h.1 .nil))
    (pointOnA hp h hne t) rfl rfl v

theorem ev_ct_pointToLine (hp : IsPoint p c) (h : IsLine l a b) (hne : a ≠ b) (t : Bool) (v : ℝ) :
    Ev (cstr con.pointToLineDistance) [p, l] [.bool t, .num (fin v)]
      [(if t then - leftOf a b c else leftOf a b c) - v] :=
  ct_leaf1 (v := [if t then - leftOf a b c else leftOf a b c]) (.cons hp.1 (.cons h.1 .nil))
    (pointToA hp h hne t) rfl rfl v

/-- C39: the constraints pin these distances. -/
theorem C39_constraints (hp : IsPoint p c) (h : IsLine l a b) (hne : a ≠ b) (t : Bool) (v : ℝ) :
    (SatisfiedPy ct.pointOnLineDistance [p, l] [.bool t, .num (fin v)] ↔
      (if t then along b a c else along a b c) = v) ∧
    (SatisfiedPy ct.pointToLineDistance [p, l] [.bool t, .num (fin v)] ↔
      (if t then - leftOf a b c else leftOf a b c) = v) :=
  ⟨sat_one' ((ev_ct_pointOnLine hp h hne t v).returnsPy ct_pointOnLineDistance_eq),
    sat_one' ((ev_ct_pointToLine hp h hne t v).returnsPy ct_pointToLineDistance_eq)⟩

example : IsPoint (realPoint (2, 3)) (2, 3) ∧ IsLine (realLine (0, 0) (4, 0)) (0, 0) (4, 0) ∧
    ((0, 0) : ℝ × ℝ) ≠ (4, 0) ∧ along (0, 0) (4, 0) (2, 3) = 2 ∧ leftOf (0, 0) (4, 0) (2, 3) = 3 := by
  refine ⟨isPoint_realPoint _, isLine_realLine _ _, by simp, ?_, ?_⟩
  · have : dist2 (0, 0) (4, 0) = 4 := by
      rw [dist2]; norm_num
      rw [show (16 : ℝ) = 4 ^ 2 by norm_num, Real.sqrt_sq (by norm_num)]
    rw [along, this]; norm_num
  · have : dist2 (0, 0) (4, 0) = 4 := by
      rw [dist2]; norm_num
      rw [show (16 : ℝ) = 4 ^ 2 by norm_num, Real.sqrt_sq (by norm_num)]
    rw [leftOf, this]; norm_num

/-! ## C40 -/

/-- The direction of the line from `a` to `b`, as a complex number. -/
def dir (a b : ℝ × ℝ) : ℂ := ⟨b.1 - a.1, b.2 - a.2⟩

/-- The counter-clockwise angle from the direction `u` to the direction `w`, in `(-π, π]`. -/
noncomputable def ccwAngle (u w : ℂ) : ℝ := (w / u).arg

theorem dir_ne (h : a ≠ b) : dir a b ≠ 0 := by
  intro h0
  have h1 := congrArg Complex.re h0
  have h2 := congrArg Complex.im h0
  simp only [dir, Complex.zero_re, Complex.zero_im, sub_eq_zero] at h1 h2
  exact h (Prod.ext h1.symm h2.symm)

theorem arg_unit (h : a ≠ b) :
    Complex.arg ⟨(b.1 - a.1) / dist2 a b, (b.2 - a.2) / dist2 a b⟩ = (dir a b).arg := by
  have hd := dist2_pos h
  rw [← Complex.arg_real_mul (dir a b) (inv_pos.mpr hd)]
  congr 1
  apply Complex.ext
  · rw [Complex.re_ofReal_mul]; simp [dir, div_eq_inv_mul]
  · rw [Complex.im_ofReal_mul]; simp [dir, div_eq_inv_mul]

theorem angleA_eq (h : IsLine l a b) (h' : IsLine l' c d) (hab : a ≠ b) (hcd : c ≠ d) :
    con.angleA [l, l'] = .ok (.scalar (fin ((dir c d).arg - (dir a b).arg))) := by
  rw [LineAt.angle h h', sqrt_len2, sqrt_len2]
  simp only [up, fin_sub, fin_div (dist2_pos hab).ne', fin_div (dist2_pos hcd).ne', fin_atan2,
    arg_unit hab, arg_unit hcd]

/-- C40, partly: `Angle` returns the counter-clockwise angle from the first line to the second up to
a multiple of a full turn, more precisely the difference of the two polar angles; it lies strictly
between minus two and two times π.  Missing: the range `(-π, π]` (see below). -/
theorem C40_angle_partial (h : IsLine l a b) (h' : IsLine l' c d) (hab : a ≠ b) (hcd : c ≠ d) :
    ∃ v : ℝ, Returns con.angle [l, l'] [] [v] ∧ v = (dir c d).arg - (dir a b).arg ∧
      -(2 * Real.pi) < v ∧ v < 2 * Real.pi ∧
      ∃ k : ℤ, |k| ≤ 1 ∧ v = ccwAngle (dir a b) (dir c d) + k * (2 * Real.pi) := by
  refine ⟨_, leaf0_returns (.cons h.1 (.cons h'.1 .nil)) (angleA_eq h h' hab hcd) rfl, rfl, ?_⟩
  have b1 := Complex.neg_pi_lt_arg (dir c d)
  have b2 := Complex.arg_le_pi (dir c d)
  have b3 := Complex.neg_pi_lt_arg (dir a b)
  have b4 := Complex.arg_le_pi (dir a b)
  have hpi := Real.pi_pos
  refine ⟨by linarith, by linarith, ?_⟩
  have hangle := Complex.arg_div_coe_angle (dir_ne hcd) (dir_ne hab)
  rw [← Real.Angle.coe_sub] at hangle
  obtain ⟨k, hk⟩ := Real.Angle.angle_eq_iff_two_pi_dvd_sub.mp hangle.symm
  refine ⟨k, ?_, by rw [ccwAngle]; linarith⟩
  have b5 := Complex.neg_pi_lt_arg (dir c d / dir a b)
  have b6 := Complex.arg_le_pi (dir c d / dir a b)
  rw [abs_le]
  constructor
  · by_contra hlt
    have : (k : ℝ) ≤ -2 := by exact_mod_cast (by omega : k ≤ -2)
    nlinarith
  · by_contra hlt
    have : (2 : ℝ) ≤ k := by exact_mod_cast (by omega : 2 ≤ k)
    nlinarith

/-- C40 holds when the difference of the polar angles is in `(-π, π]`. -/
theorem C40_angle_in_range_partial (h : IsLine l a b) (h' : IsLine l' c d) (hab : a ≠ b)
    (hcd : c ≠ d) (h1 : -Real.pi < (dir c d).arg - (dir a b).arg)
    (h2 : (dir c d).arg - (dir a b).arg ≤ Real.pi) :
    Returns con.angle [l, l'] [] [ccwAngle (dir a b) (dir c d)] := by
  obtain ⟨v, hr, hv, _, _, k, hk, e⟩ := C40_angle_partial h h' hab hcd
  have b5 := Complex.neg_pi_lt_arg (dir c d / dir a b)
  have b6 := Complex.arg_le_pi (dir c d / dir a b)
  have hpi := Real.pi_pos
  rw [← hv] at h1 h2
  rw [ccwAngle] at e
  have hk0 : k = 0 := by
    by_contra hk0
    rcases lt_or_gt_of_ne hk0 with hk1 | hk1
    · have : (k : ℝ) ≤ -1 := by exact_mod_cast (by omega : k ≤ -1)
      nlinarith
    · have : (1 : ℝ) ≤ k := by exact_mod_cast (by omega : 1 ≤ k)
      nlinarith
  rw [hk0] at e
  simp only [Int.cast_zero, zero_mul, add_zero] at e
  rw [ccwAngle, ← e]
  exact hr

/-- C40 is false: from the direction `-i` to the direction `-1` the counter-clockwise angle is
`-π/2`, but `Angle` returns `3π/2`. -/
theorem C40_range_counterexample :
    Returns con.angle [realLine (0, 0) (0, -1), realLine (0, 0) (-1, 0)] []
      [3 * Real.pi / 2] ∧
    ccwAngle (dir (0, 0) (0, -1)) (dir (0, 0) (-1, 0)) = -(Real.pi / 2) ∧
    ¬ 3 * Real.pi / 2 ≤ Real.pi := by
  have hpi := Real.pi_pos
  have d1 : dir (0, 0) (0, -1) = -Complex.I := by
    apply Complex.ext <;> simp [dir]
  have d2 : dir (0, 0) (-1, 0) = -1 := by
    apply Complex.ext <;> simp [dir]
  refine ⟨?_, ?_, by linarith⟩
  · obtain ⟨v, hr, hv, _⟩ := C40_angle_partial (isLine_realLine (0, 0) (0, -1))
      (isLine_realLine (0, 0) (-1, 0)) (by simp) (by simp)
    rw [d1, d2, Complex.arg_neg_one, Complex.arg_neg_I] at hv
    have : v = 3 * Real.pi / 2 := by rw [hv]; ring
    rwa [this] at hr
  · rw [ccwAngle, d1, d2]
    have : (-1 : ℂ) / -Complex.I = -Complex.I := by
      rw [neg_div_neg_eq, one_div, Complex.inv_I]
    rw [this, Complex.arg_neg_I]

theorem ev_ct_angle (h : IsLine l a b) (h' : IsLine l' c d) (hab : a ≠ b) (hcd : c ≠ d) (v : ℝ) :
    Ev (cstr con.angle) [l, l'] [.num (fin v)] [(dir c d).arg - (dir a b).arg - v] :=
  ct_leaf0 (v := [(dir c d).arg - (dir a b).arg]) (.cons h.1 (.cons h'.1 .nil))
    (angleA_eq h h' hab hcd) rfl rfl v

/-- C40, the constraint `Angle(v)`: if it is satisfied then turning the first line counter-clockwise
by `v` gives the direction of the second line. -/
theorem C40_constraint_sound (h : IsLine l a b) (h' : IsLine l' c d) (hab : a ≠ b) (hcd : c ≠ d)
    (v : ℝ) (hs : SatisfiedPy ct.angle [l, l'] [.num (fin v)]) :
    (d.1 - c.1) / dist2 c d
      = Real.cos v * ((b.1 - a.1) / dist2 a b) - Real.sin v * ((b.2 - a.2) / dist2 a b) ∧
    (d.2 - c.2) / dist2 c d
      = Real.sin v * ((b.1 - a.1) / dist2 a b) + Real.cos v * ((b.2 - a.2) / dist2 a b) := by
  rw [sat_one' ((ev_ct_angle h h' hab hcd v).returnsPy ct_angle_eq)] at hs
  have key : ∀ {a b : ℝ × ℝ}, a ≠ b → Real.cos (dir a b).arg = (b.1 - a.1) / dist2 a b ∧
      Real.sin (dir a b).arg = (b.2 - a.2) / dist2 a b := by
    intro a b hab
    have hn : ‖dir a b‖ = dist2 a b := by
      rw [Complex.norm_eq_sqrt_sq_add_sq]; rfl
    rw [Complex.cos_arg (dir_ne hab), Complex.sin_arg, hn]
    exact ⟨rfl, rfl⟩
  rw [← (key hab).1, ← (key hab).2, ← (key hcd).1, ← (key hcd).2]
  have : (dir c d).arg = v + (dir a b).arg := by linarith
  rw [this, Real.cos_add, Real.sin_add]
  constructor <;> ring

/-! ## C41 -/

theorem relLen_assem {K : Type} [PyNum K] (l l' : Prim K) (v : K) :
    (relLenT : Cons K).eval [l, l'] [.num v] = (do
      let own ← (do
        let x ← con.lengthA [l]
        let y ← con.lengthA [l']
        let z ← Arr.mul (.scalar (-1)) y
        let z ← Arr.mul (.scalar v) z
        x.add z)
      .ok (own.atleast1d ++ [])) := by
  show (do
      let own ← (do
        let x ← con.lengthA [l]
        let z ← (do
          let z ← (do
            let y ← con.lengthA [l']
            Arr.mul (.scalar (-1)) y)
          Arr.mul (.scalar v) z)
        x.add z)
      .ok (own.atleast1d ++ [])) = _
  simp only [bind, Except.bind]
  cases con.lengthA [l] <;> simp only
  cases con.lengthA [l'] <;> simp only
  rename_i y
  cases Arr.mul (.scalar (-1)) y <;> simp only

theorem ev_relLen (h : IsLine l a b) (h' : IsLine l' c d) (v : ℝ) :
    Ev relLenT [l, l'] [.num (fin v)] [dist2 a b - v * dist2 c d] := by
  refine ⟨Node.WF_mk.mpr ⟨by simp [sumTreeL], by
    intro k c hm; cases hm⟩, ⟨.cons h.1 (.cons h'.1 .nil), rfl⟩, ⟨rfl, ?_⟩, ?_⟩
  · intro pss e
    cases e
    exact ⟨le_rfl, trivial⟩
  · rw [relLen_assem, h.length, h'.length]
    show Except.ok [fin (dist2 a b) + fin v * (fin (-1) * fin (dist2 c d))] = _
    simp only [fin_mul, fin_add, List.map_cons, List.map_nil]
    congr 3; ring

/-- C41: `RelativeLength(v)` is satisfied exactly if the first line is `v` times as long as the
second. -/
theorem C41_relativeLength (h : IsLine l a b) (h' : IsLine l' c d) (v : ℝ) :
    SatisfiedPy ct.relativeLength [l, l'] [.num (fin v)] ↔ dist2 a b = v * dist2 c d := by
  rw [satisfiedPy_iff ((ev_relLen h h' v).returnsPy relativeLength_eq)]
  simp [sub_eq_zero]

theorem aspectA (h : IsQuad q a b c d) : con.aspectRatioA [q] =
    .ok (.scalar (fin (dist2 a b) / fin (dist2 b c))) := by
  obtain ⟨l0, l1, l2, l3, g0, g1, g2, g3, h0, h1, h2, h3⟩ := QuadAt.lines h
  simp only [con.aspectRatioA, g0, g1, IsLine.length h0, IsLine.length h1, bind, Except.bind]
  rfl

/-- C41: `AspectRatio` returns width over height, for a quadrilateral whose right side has a
length. -/
theorem C41_aspectRatio_value (h : IsQuad q a b c d) (hne : b ≠ c) :
    Returns con.aspectRatio [q] [] [dist2 a b / dist2 b c] := by
  refine leaf0_returns (.cons h.1 .nil) (aspectA h) ?_
  rw [fin_div (dist2_pos hne).ne']
  rfl

/-- C41: `AspectRatio(v)` is satisfied exactly if the bottom side is `v` times as long as the right
side, which has a positive length. -/
theorem C41_aspectRatio (h : IsQuad q a b c d) (v : ℝ) :
    SatisfiedPy ct.aspectRatio [q] [.num (fin v)] ↔ b ≠ c ∧ dist2 a b = v * dist2 b c := by
  obtain ⟨h1, h2, h3⟩ := MplLayout.cstr_num (c := con.aspectRatio)
    (v := [fin (dist2 a b) / fin (dist2 b c)])
    (prims := [q]) (params := []) (leaf_WF _ _) (by simp [con.aspectRatio, con.leaf0, leaf])
    (leaf_consistent _ _ [] rfl) (leaf_sized _ _ _ _ fun x hx => by
      have e : Except.ok _ = Except.ok x := (aspectA h).symm.trans hx
      cases e
      rfl) ⟨.cons h.1 .nil, rfl⟩ (leaf0_eval (aspectA h)) (fin v)
  have hc : (cstr con.aspectRatio).call [q] [.num (fin v)]
      = .ok [fin (dist2 a b) / fin (dist2 b c) - fin v] :=
    (call_ok_iff _ (sumTree_WF (leaf_WF _ _) (negVec_shape _)) _ _ h3 _).mpr ⟨h1, h2⟩
  have : SatisfiedPy ct.aspectRatio [q] [.num (fin v)] ↔
      fin (dist2 a b) / fin (dist2 b c) - fin v = fin 0 := by
    constructor
    · rintro ⟨r, e, w, hw, h0⟩
      rw [ct_aspectRatio_eq] at e
      cases e
      rw [hc] at hw
      cases hw
      exact h0 _ (by simp)
    · intro h0
      exact ⟨_, ct_aspectRatio_eq, _, hc, by simpa using h0⟩
  rw [this]
  by_cases hne : b = c
  · subst hne
    rw [dist2_self, div_zero']
    simp
  · have hd := (dist2_pos hne).ne'
    rw [fin_div hd, fin_sub, fin_inj, sub_eq_zero, div_eq_iff hd]
    simp [hne]

theorem relPointA (hp : IsPoint p c) (h : IsLine l a b) (hne : a ≠ b) (t : Bool) :
    con.relativePointOnLineDistanceA [p, l] (.bool t) = .ok (.vec [fin
      ((if t then along b a c else along a b c) / dist2 a b)]) := by
  simp only [con.relativePointOnLineDistanceA, pointOnA hp h hne t, h.length, bind, Except.bind]
  show Except.ok (Arr.vec [fin _ / fin (dist2 a b)]) = _
  rw [fin_div (dist2_pos hne).ne']

theorem ev_ct_relPoint (hp : IsPoint p c) (h : IsLine l a b) (hne : a ≠ b) (t : Bool) (v : ℝ) :
    Ev (cstr con.relativePointOnLineDistance) [p, l] [.bool t, .num (fin v)]
      [(if t then along b a c else along a b c) / dist2 a b - v] :=
  ct_leaf1 (v := [(if t then along b a c else along a b c) / dist2 a b])
    (.cons hp.1 (.cons h.1 .nil)) (relPointA hp h hne t) rfl rfl v

/-- The point of the line through `a` and `b` at the fraction `v` of the way from `a` to `b`. -/
def lerp (a b : ℝ × ℝ) (v : ℝ) : ℝ × ℝ := (a.1 + v * (b.1 - a.1), a.2 + v * (b.2 - a.2))

/-- C41: `RelativePointOnLineDistance(v)` is satisfied exactly if the foot of the perpendicular from
the point on the line is at the fraction `v` of the way from the start to the end of the line (from
the end to the start with `reverse=True`): the point minus that foot is orthogonal to the line. -/
theorem C41_relativePointOnLine (hp : IsPoint p c) (h : IsLine l a b) (hne : a ≠ b) (t : Bool)
    (v : ℝ) :
    SatisfiedPy ct.relativePointOnLineDistance [p, l] [.bool t, .num (fin v)] ↔
      (c.1 - (if t then lerp b a v else lerp a b v).1) * (b.1 - a.1) +
      (c.2 - (if t then lerp b a v else lerp a b v).2) * (b.2 - a.2) = 0 := by
  rw [satisfiedPy_iff ((ev_ct_relPoint hp h hne t v).returnsPy ct_relativePointOnLineDistance_eq)]
  have hd := (dist2_pos hne).ne'
  have h2 := dist2_sq a b
  have hs : dist2 b a = dist2 a b := by
    simp only [dist2]; congr 1; ring
  simp only [List.mem_singleton, forall_eq, sub_eq_zero]
  cases t
  · simp only [Bool.false_eq_true, if_false, along, lerp]
    rw [div_div, div_eq_iff (by positivity), ← pow_two, h2]
    constructor <;> intro h <;> linarith
  · simp only [if_true, along, lerp, hs]
    rw [div_div, div_eq_iff (by positivity), ← pow_two, h2]
    constructor <;> intro h <;> linarith

example : IsPoint (realPoint (2, 3)) (2, 3) ∧ IsLine (realLine (0, 0) (4, 0)) (0, 0) (4, 0) ∧
    IsQuad (realQuad (0, 0) (4, 0) (4, 2) (0, 2)) (0, 0) (4, 0) (4, 2) (0, 2) ∧
    dist2 (0, 0) (4, 0) = 2 * dist2 (4, 0) (4, 2) ∧ ((4, 0) : ℝ × ℝ) ≠ (4, 2) ∧
    lerp (0, 0) (4, 0) (1 / 2) = (2, 0) := by
  refine ⟨isPoint_realPoint _, isLine_realLine _ _, isQuad_realQuad _ _ _ _, ?_, by simp, ?_⟩
  · rw [dist2, dist2]; norm_num
    rw [show (16 : ℝ) = 4 ^ 2 by norm_num, Real.sqrt_sq (by norm_num)]
    rw [show (4 : ℝ) = 2 ^ 2 by norm_num, Real.sqrt_sq (by norm_num)]; norm_num
  · simp [lerp]; norm_num

end MplLayout.Props
