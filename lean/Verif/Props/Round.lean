import Verif.Lemmas.Ieee
import Verif.Props.Geometry

/-!
# C99: floating point arithmetic

What it means that a residual that is *computed in floating point arithmetic* is zero.
-/

namespace MplLayout.Props

open Flt

variable {f : FloatFormat} {p q l l' : Prim (Rnd f)} {a b c d : f.nums × f.nums}

theorem vanishes_iff {c : Py (Cons (Rnd f))} {r : Cons (Rnd f)} {prims : List (Prim (Rnd f))}
    {params : List (Param (Rnd f))} {v : List (Rnd f)} (hc : c = .ok r) (h : r.call prims params = .ok v) :
    Vanishes c prims params ↔ ∀ x ∈ v, x.val = fin 0 := by
  constructor
  · rintro ⟨r', v', e, h', hv⟩
    rw [hc] at e; cases e
    rw [h] at h'; cases h'
    exact hv
  · exact fun hv => ⟨r, v, hc, h, hv⟩

theorem sub_coord (hf : f.Gradual) (x y : f.nums) : (Rnd.num x - Rnd.num y).val = fin 0 ↔ x = y := by
  rw [Rnd.sub_val, hf.sub_zero x.2 y.2, Subtype.ext_iff]

/-- C99: with gradual underflow, the residual of `Coincident` is computed as zero exactly if the two points
have the same coordinates: rounding neither hides a difference nor makes one up. -/
theorem C99_coincident (hf : f.Gradual) (hp : FPoint p a) (hq : FPoint q b) :
    Vanishes (.ok ct.coincident) [p, q] [] ↔ a = b := by
  have e : ct.coincidentA [p, q] = .ok (.vec [Rnd.num b.1 - Rnd.num a.1, Rnd.num b.2 - Rnd.num a.2]) := by
    simp only [ct.coincidentA, hp.2, hq.2]; rfl
  rw [vanishes_iff (r := ct.coincident) rfl (leaf0_call (.cons hp.1 (.cons hq.1 .nil)) e)]
  simp only [Arr.atleast1d, List.mem_cons, List.not_mem_nil, or_false, forall_eq_or_imp, forall_eq,
    sub_coord hf]
  rw [Prod.ext_iff]
  exact ⟨fun h => ⟨h.1.symm, h.2.symm⟩, fun h => ⟨h.1.symm, h.2.symm⟩⟩

/-- C99, `CoincidentLines(reverse)`: the end points are the same, in the same or in the opposite order. -/
theorem C99_coincidentLines (hf : f.Gradual) (h : FLine l a b) (h' : FLine l' c d) (rev : Bool) :
    Vanishes (.ok ct.coincidentLines) [l, l'] [.bool rev] ↔
      if rev then c = b ∧ d = a else c = a ∧ d = b := by
  obtain ⟨p0, p1, g0, g1, hp0, hp1⟩ := LineAt.points h
  obtain ⟨p0', p1', g0', g1', hp0', hp1'⟩ := LineAt.points h'
  have co : ∀ {p q : Prim (Rnd f)} {a b : f.nums × f.nums}, FPoint p a → FPoint q b →
      ct.coincidentA [p, q] = .ok (.vec [Rnd.num b.1 - Rnd.num a.1, Rnd.num b.2 - Rnd.num a.2]) := by
    intro p q a b hp hq
    simp only [ct.coincidentA, hp.2, hq.2]; rfl
  cases rev
  · have e : ct.coincidentLinesA [l, l'] (.bool false) = .ok (.vec
        [Rnd.num a.1 - Rnd.num c.1, Rnd.num a.2 - Rnd.num c.2,
         Rnd.num b.1 - Rnd.num d.1, Rnd.num b.2 - Rnd.num d.2]) := by
      simp only [ct.coincidentLinesA, Param.truthy, g0, g1, g0', g1', bind, Except.bind,
        Bool.false_eq_true, if_false, co hp0' hp0, co hp1' hp1]
      rfl
    rw [vanishes_iff (r := ct.coincidentLines) rfl (leaf1_call (.cons h.1 (.cons h'.1 .nil)) e)]
    simp only [Arr.atleast1d, List.mem_cons, List.not_mem_nil, or_false, forall_eq_or_imp, forall_eq,
      sub_coord hf, Bool.false_eq_true, if_false]
    rw [Prod.ext_iff, Prod.ext_iff]
    constructor
    · rintro ⟨h1, h2, h3, h4⟩; exact ⟨⟨h1.symm, h2.symm⟩, h3.symm, h4.symm⟩
    · rintro ⟨⟨h1, h2⟩, h3, h4⟩; exact ⟨h1.symm, h2.symm, h3.symm, h4.symm⟩
  · have e : ct.coincidentLinesA [l, l'] (.bool true) = .ok (.vec
        [Rnd.num b.1 - Rnd.num c.1, Rnd.num b.2 - Rnd.num c.2,
         Rnd.num a.1 - Rnd.num d.1, Rnd.num a.2 - Rnd.num d.2]) := by
      simp only [ct.coincidentLinesA, Param.truthy, g0, g1, g0', g1', bind, Except.bind,
        if_true, co hp0' hp1, co hp1' hp0]
      rfl
    rw [vanishes_iff (r := ct.coincidentLines) rfl (leaf1_call (.cons h.1 (.cons h'.1 .nil)) e)]
    simp only [Arr.atleast1d, List.mem_cons, List.not_mem_nil, or_false, forall_eq_or_imp, forall_eq,
      sub_coord hf, if_true]
    rw [Prod.ext_iff, Prod.ext_iff]
    constructor
    · rintro ⟨h1, h2, h3, h4⟩; exact ⟨⟨h1.symm, h2.symm⟩, h3.symm, h4.symm⟩
    · rintro ⟨⟨h1, h2⟩, h3, h4⟩; exact ⟨h1.symm, h2.symm, h3.symm, h4.symm⟩

theorem dot_ey_pt (a b : f.nums × f.nums) (v : ℝ) :
    (dot2 ((Rnd.pt b).1 - (Rnd.pt a).1, (Rnd.pt b).2 - (Rnd.pt a).2) (0, 1)).val = fin v ↔
      f.rnd (b.2 - a.2) = fin v ∧ f.Fits (b.1 - a.1) := by
  rw [Rnd.dot_ey]
  simp only [Rnd.pt, Rnd.sub_val, FloatFormat.Fits]

theorem dot_ex_pt (a b : f.nums × f.nums) (v : ℝ) :
    (dot2 ((Rnd.pt b).1 - (Rnd.pt a).1, (Rnd.pt b).2 - (Rnd.pt a).2) (1, 0)).val = fin v ↔
      f.rnd (b.1 - a.1) = fin v ∧ f.Fits (b.2 - a.2) := by
  rw [Rnd.dot_ex]
  simp only [Rnd.pt, Rnd.sub_val, FloatFormat.Fits]

theorem rnd_sub_zero (hf : f.Gradual) (x y : f.nums) : f.rnd (y - x) = fin 0 ↔ x = y := by
  rw [hf.sub_zero y.2 x.2, Subtype.ext_iff]
  exact eq_comm

/-- C99, `Horizontal`: the ordinates are the same number.  (If the difference of the abscissas overflows the
residual is not a number.) -/
theorem C99_horizontal (hf : f.Gradual) (h : FLine l a b) :
    Vanishes (.ok ct.horizontal) [l] [] ↔ a.2 = b.2 ∧ f.Fits (b.1 - a.1) := by
  rw [vanishes_iff rfl (gev_horizontal h).call]
  simp only [List.mem_singleton, forall_eq, dot_ey_pt, rnd_sub_zero hf]

/-- C99, `Vertical`: the abscissas are the same number. -/
theorem C99_vertical (hf : f.Gradual) (h : FLine l a b) :
    Vanishes (.ok ct.vertical) [l] [] ↔ a.1 = b.1 ∧ f.Fits (b.2 - a.2) := by
  rw [vanishes_iff rfl (gev_vertical h).call]
  simp only [List.mem_singleton, forall_eq, dot_ex_pt, rnd_sub_zero hf]

/-- C99, `Box`: the quadrilateral runs around an exact axis-aligned rectangle (whose sides do not
overflow). -/
theorem C99_box (hf : f.Gradual) (h : FQuad q a b c d) :
    Vanishes ct.box [q] [] ↔ ∃ x0 y0 x1 y1 : f.nums,
      a = (x0, y0) ∧ b = (x1, y0) ∧ c = (x1, y1) ∧ d = (x0, y1) ∧
      f.Fits (x1 - x0) ∧ f.Fits (x0 - x1) ∧ f.Fits (y1 - y0) ∧ f.Fits (y0 - y1) := by
  rw [vanishes_iff gBox_eq (gev_box h).call]
  simp only [List.mem_cons, List.not_mem_nil, or_false, forall_eq_or_imp, forall_eq, dot_ex_pt, dot_ey_pt,
    rnd_sub_zero hf]
  constructor
  · rintro ⟨⟨h1, g1⟩, ⟨h2, g2⟩, ⟨h3, g3⟩, h4, g4⟩
    obtain ⟨a1, a2⟩ := a; obtain ⟨b1, b2⟩ := b; obtain ⟨c1, c2⟩ := c; obtain ⟨d1, d2⟩ := d
    simp only at *
    subst h1 h2 h3 h4
    exact ⟨_, _, _, _, rfl, rfl, rfl, rfl, g1, g2, g4, g3⟩
  · rintro ⟨x0, y0, x1, y1, rfl, rfl, rfl, rfl, h1, h2, h3, h4⟩
    exact ⟨⟨rfl, h1⟩, ⟨rfl, h2⟩, ⟨rfl, h4⟩, rfl, h3⟩

/-- C99, `Fix(location)`: the point has exactly these coordinates. -/
theorem C99_fix (hf : f.Gradual) (hp : FPoint p a) (x y : f.nums) :
    Vanishes ct.fix [p] [.arr [Rnd.num x, Rnd.num y]] ↔ a = (x, y) := by
  rw [vanishes_iff ct_fix_eq (GEv.ct_leaf0_arr (.cons hp.1 .nil) (PointAt.coord hp) rfl
    [Rnd.num x, Rnd.num y] rfl).call]
  simp only [Arr.atleast1d, List.zipWith_cons_cons, List.zipWith_nil_left, List.mem_cons,
    List.not_mem_nil, or_false, forall_eq_or_imp, forall_eq, Rnd.pt, sub_coord hf]
  rw [Prod.ext_iff]

theorem sub_num (hf : f.Gradual) (x : Rnd f) (v : f.nums) :
    (x - Rnd.num v).val = fin 0 ↔ x.val = fin v := by
  rw [hf.sub_val_zero, Rnd.num_val]
  exact ⟨fun h => h.1, fun h => ⟨h, by rw [h]; simp⟩⟩

/-- C99, `XLength(v)`: `v` is the correctly rounded horizontal extent. -/
theorem C99_xLength (hf : f.Gradual) (h : FLine l a b) (v : f.nums) :
    Vanishes ct.xLength [l] [.num (Rnd.num v)] ↔
      f.rnd (b.1 - a.1) = fin v ∧ f.Fits (b.2 - a.2) := by
  rw [vanishes_iff ct_xLength_eq (GEv.ct_leaf0 (.cons h.1 .nil) (LineAt.directedLength h (1, 0)) rfl
    (Rnd.num v)).call]
  simp only [Arr.atleast1d, List.map_cons, List.map_nil, List.mem_singleton, forall_eq, sub_num hf, dot_ex_pt]

/-- C99, `YLength(v)`: `v` is the correctly rounded vertical extent. -/
theorem C99_yLength (hf : f.Gradual) (h : FLine l a b) (v : f.nums) :
    Vanishes ct.yLength [l] [.num (Rnd.num v)] ↔
      f.rnd (b.2 - a.2) = fin v ∧ f.Fits (b.1 - a.1) := by
  rw [vanishes_iff ct_yLength_eq (GEv.ct_leaf0 (.cons h.1 .nil) (LineAt.directedLength h (0, 1)) rfl
    (Rnd.num v)).call]
  simp only [Arr.atleast1d, List.map_cons, List.map_nil, List.mem_singleton, forall_eq, sub_num hf, dot_ey_pt]

/-- C99, `XDistance(v)`: `v` is the correctly rounded difference of the abscissas. -/
theorem C99_xDistance (hf : f.Gradual) (hp : FPoint p a) (hq : FPoint q b) (v : f.nums) :
    Vanishes ct.xDistance [p, q] [.num (Rnd.num v)] ↔
      f.rnd (b.1 - a.1) = fin v ∧ f.Fits (b.2 - a.2) := by
  rw [vanishes_iff ct_xDistance_eq (GEv.ct_leaf0 (.cons hp.1 (.cons hq.1 .nil))
    (PointAt.directedDistance hp hq (1, 0)) rfl (Rnd.num v)).call]
  simp only [Arr.atleast1d, List.map_cons, List.map_nil, List.mem_singleton, forall_eq, sub_num hf, dot_ex_pt]

/-- C99, `YDistance(v)`: `v` is the correctly rounded difference of the ordinates. -/
theorem C99_yDistance (hf : f.Gradual) (hp : FPoint p a) (hq : FPoint q b) (v : f.nums) :
    Vanishes ct.yDistance [p, q] [.num (Rnd.num v)] ↔
      f.rnd (b.2 - a.2) = fin v ∧ f.Fits (b.1 - a.1) := by
  rw [vanishes_iff ct_yDistance_eq (GEv.ct_leaf0 (.cons hp.1 (.cons hq.1 .nil))
    (PointAt.directedDistance hp hq (0, 1)) rfl (Rnd.num v)).call]
  simp only [Arr.atleast1d, List.map_cons, List.map_nil, List.mem_singleton, forall_eq, sub_num hf, dot_ey_pt]

/-- C99, `Width(v)`: `v` is the correctly rounded width of the lower side. -/
theorem C99_width (hf : f.Gradual) (h : FQuad q a b c d) (v : f.nums) :
    Vanishes ct.width [q] [.num (Rnd.num v)] ↔ f.rnd (b.1 - a.1) = fin v ∧ f.Fits (b.2 - a.2) := by
  rw [vanishes_iff gct_width_eq (gev_ct_width h (Rnd.num v)).call]
  simp only [List.mem_singleton, forall_eq, sub_num hf, dot_ex_pt]

/-- C99, `Height(v)`: `v` is the correctly rounded height of the right side. -/
theorem C99_height (hf : f.Gradual) (h : FQuad q a b c d) (v : f.nums) :
    Vanishes ct.height [q] [.num (Rnd.num v)] ↔ f.rnd (c.2 - b.2) = fin v ∧ f.Fits (c.1 - b.1) := by
  rw [vanishes_iff gct_height_eq (gev_ct_height h (Rnd.num v)).call]
  simp only [List.mem_singleton, forall_eq, sub_num hf, dot_ey_pt]

/-! ## Margins -/

/-- An axis-aligned rectangle with floating point coordinates: left, bottom, right, top. -/
structure FRect (f : FloatFormat) where
  x0 : f.nums
  y0 : f.nums
  x1 : f.nums
  y1 : f.nums

/-- `q` runs counter-clockwise around `r` from its lower left corner. -/
def IsFRect (q : Prim (Rnd f)) (r : FRect f) : Prop :=
  FQuad q (r.x0, r.y0) (r.x1, r.y0) (r.x1, r.y1) (r.x0, r.y1)

/-- The exact rectangle. -/
def FRect.exact (r : FRect f) : Rect := ⟨r.x0, r.y0, r.x1, r.y1⟩

/-- No coordinate is larger than `M` in absolute value. -/
def FRect.Within (r : FRect f) (M : ℝ) : Prop :=
  |(r.x0 : ℝ)| ≤ M ∧ |(r.y0 : ℝ)| ≤ M ∧ |(r.x1 : ℝ)| ≤ M ∧ |(r.y1 : ℝ)| ≤ M

/-- Results between two numbers of the format. -/
theorem rnd_between {M x : ℝ} (hM : M ∈ f.nums) (hx : |x| ≤ M) : ∃ y, f.rnd x = fin y ∧ |y| ≤ M := by
  rw [abs_le] at hx
  have := f.fits x _ _ (f.neg_mem _ hM) hM hx.1 hx.2
  cases h : f.rnd x with
  | bad => exact absurd h this
  | fin y =>
    exact ⟨y, rfl, abs_le.mpr ⟨f.mono _ _ _ _ hx.1 (f.rnd_of_mem _ (f.neg_mem _ hM)) h,
      f.mono _ _ _ _ hx.2 h (f.rnd_of_mem _ hM)⟩⟩

theorem half_val (hb : f.Binary) : ((1 : Rnd f) / ((2 : Nat) : Rnd f)).val = fin (1 / 2) := by
  have h2 : ((2 : Nat) : Rnd f).val = fin 2 := by
    show f.rnd ((2 : Nat) : ℝ) = _
    push_cast
    exact f.rnd_of_mem 2 hb.2.1
  rw [Rnd.div_def, h2, Rnd.one_val, fin_div (by norm_num)]
  exact f.rnd_of_mem _ hb.1

/-- A computed midpoint is a number between `-M` and `M`. -/
theorem mid_coord (hb : f.Binary) {M : ℝ} (hM : M ∈ f.nums) (hM2 : 2 * M ∈ f.nums) (x y : f.nums)
    (hx : |(x : ℝ)| ≤ M) (hy : |(y : ℝ)| ≤ M) :
    ∃ z : f.nums, 1 / ((2 : Nat) : Rnd f) * (Rnd.num x + Rnd.num y) = Rnd.num z ∧ |(z : ℝ)| ≤ M := by
  obtain ⟨s, hs, hsM⟩ := rnd_between (x := x + y) hM2 ((abs_add_le _ _).trans (by linarith))
  obtain ⟨z, hz, hzM⟩ := rnd_between (x := 1 / 2 * s) hM (by rw [abs_mul, abs_of_pos (by norm_num)]; linarith)
  refine ⟨⟨z, f.rnd_mem _ _ hz⟩, Rnd.ext' ?_, hzM⟩
  have e1 : (Rnd.num x + Rnd.num y).val = fin s := by
    rw [Rnd.add_def, Rnd.num_val, Rnd.num_val, fin_add]; exact hs
  rw [Rnd.mul_def, half_val hb, e1, fin_mul]
  exact hz

/-- The computed midpoint of equal numbers is this number. -/
theorem mid_coord_self (hb : f.Binary) {M : ℝ} (hM2 : 2 * M ∈ f.nums) (x : f.nums) (hx : |(x : ℝ)| ≤ M) :
    1 / ((2 : Nat) : Rnd f) * (Rnd.num x + Rnd.num x) = Rnd.num x := by
  have hm : 2 * (x : ℝ) ∈ f.nums := by
    refine hb.2.2 x x.2 ?_
    obtain ⟨y, hy, _⟩ := rnd_between (x := 2 * (x : ℝ)) hM2 (by rw [abs_mul, abs_of_pos (by norm_num)]; linarith)
    unfold FloatFormat.Fits
    rw [hy]; simp
  refine Rnd.ext' ?_
  have e1 : (Rnd.num x + Rnd.num x).val = fin (2 * x) := by
    rw [Rnd.add_def, Rnd.num_val, fin_add, ← two_mul]; exact f.rnd_of_mem _ hm
  rw [Rnd.mul_def, half_val hb, e1, fin_mul, show 1 / 2 * (2 * (x : ℝ)) = x by ring]
  exact f.rnd_of_mem _ x.2

theorem mid_x (hb : f.Binary) {M : ℝ} (hM : M ∈ f.nums) (hM2 : 2 * M ∈ f.nums) {x x' : f.nums}
    {y1 y2 y1' y2' : f.nums} (hx : |(x : ℝ)| ≤ M) (hx' : |(x' : ℝ)| ≤ M) (h1 : |(y1 : ℝ)| ≤ M)
    (h2 : |(y2 : ℝ)| ≤ M) (h1' : |(y1' : ℝ)| ≤ M) (h2' : |(y2' : ℝ)| ≤ M) (v : ℝ) :
    (dot2 ((mid (Rnd.pt (x', y1')) (Rnd.pt (x', y2'))).1 - (mid (Rnd.pt (x, y1)) (Rnd.pt (x, y2))).1,
      (mid (Rnd.pt (x', y1')) (Rnd.pt (x', y2'))).2 - (mid (Rnd.pt (x, y1)) (Rnd.pt (x, y2))).2) (1, 0)).val
      = fin v ↔ f.rnd (x' - x) = fin v := by
  obtain ⟨z, hz, hzM⟩ := mid_coord hb hM hM2 y1 y2 h1 h2
  obtain ⟨z', hz', hzM'⟩ := mid_coord hb hM hM2 y1' y2' h1' h2'
  rw [Rnd.dot_ex]
  simp only [mid, Rnd.pt, hz, hz', mid_coord_self hb hM2 x hx, mid_coord_self hb hM2 x' hx', Rnd.sub_val]
  obtain ⟨w, hw, _⟩ := rnd_between (x := (z' : ℝ) - z) hM2 ((abs_sub _ _).trans (by linarith))
  simp [hw]

theorem mid_y (hb : f.Binary) {M : ℝ} (hM : M ∈ f.nums) (hM2 : 2 * M ∈ f.nums) {y y' : f.nums}
    {x1 x2 x1' x2' : f.nums} (hy : |(y : ℝ)| ≤ M) (hy' : |(y' : ℝ)| ≤ M) (h1 : |(x1 : ℝ)| ≤ M)
    (h2 : |(x2 : ℝ)| ≤ M) (h1' : |(x1' : ℝ)| ≤ M) (h2' : |(x2' : ℝ)| ≤ M) (v : ℝ) :
    (dot2 ((mid (Rnd.pt (x1', y')) (Rnd.pt (x2', y'))).1 - (mid (Rnd.pt (x1, y)) (Rnd.pt (x2, y))).1,
      (mid (Rnd.pt (x1', y')) (Rnd.pt (x2', y'))).2 - (mid (Rnd.pt (x1, y)) (Rnd.pt (x2, y))).2) (0, 1)).val
      = fin v ↔ f.rnd (y' - y) = fin v := by
  obtain ⟨z, hz, hzM⟩ := mid_coord hb hM hM2 x1 x2 h1 h2
  obtain ⟨z', hz', hzM'⟩ := mid_coord hb hM hM2 x1' x2' h1' h2'
  rw [Rnd.dot_ey]
  simp only [mid, Rnd.pt, hz, hz', mid_coord_self hb hM2 y hy, mid_coord_self hb hM2 y' hy', Rnd.sub_val]
  obtain ⟨w, hw, _⟩ := rnd_between (x := (z' : ℝ) - z) hM2 ((abs_sub _ _).trans (by linarith))
  simp [hw]

/-- C99, `InnerMargin(side)(v)` and `OuterMargin(side)(v)` of two rectangles in a binary format: `v` is the
correctly rounded gap, although it is computed from midpoints.  (No coordinate is larger than a number `M`
that can be doubled.)  In particular the margin `0` is computed exactly for sides that are exactly aligned. -/
theorem C99_margin (hf : f.Gradual) (hb : f.Binary) {M : ℝ} (hM : M ∈ f.nums) (hM2 : 2 * M ∈ f.nums)
    {q q' : Prim (Rnd f)} {r s : FRect f} (h : IsFRect q r) (h' : IsFRect q' s) (hr : r.Within M)
    (hs : s.Within M) (side : con.Side) (v : f.nums) :
    (Vanishes (ct.margin false side) [q, q'] [.num (Rnd.num v)] ↔
      f.rnd (innerGap side r.exact s.exact) = fin v) ∧
    (Vanishes (ct.margin true side) [q, q'] [.num (Rnd.num v)] ↔
      f.rnd (outerGap side r.exact s.exact) = fin v) := by
  obtain ⟨r1, r2, r3, r4⟩ := hr
  obtain ⟨s1, s2, s3, s4⟩ := hs
  constructor
  · rw [vanishes_iff (gct_margin_eq _ _) (gev_ct_margin h h' false side (Rnd.num v)).call]
    simp only [List.mem_singleton, forall_eq, sub_num hf]
    cases side
    · exact mid_y hb hM hM2 s2 r2 s1 s3 r1 r3 v
    · exact mid_y hb hM hM2 r4 s4 r3 r1 s3 s1 v
    · exact mid_x hb hM hM2 s1 r1 s4 s2 r4 r2 v
    · exact mid_x hb hM hM2 r3 s3 r2 r4 s2 s4 v
  · rw [vanishes_iff (gct_margin_eq _ _) (gev_ct_margin h h' true side (Rnd.num v)).call]
    simp only [List.mem_singleton, forall_eq, sub_num hf]
    cases side
    · exact mid_y hb hM hM2 s4 r2 s3 s1 r1 r3 v
    · exact mid_y hb hM hM2 r4 s2 r3 r1 s1 s3 v
    · exact mid_x hb hM hM2 s3 r1 s2 s4 r4 r2 v
    · exact mid_x hb hM hM2 r3 s1 r2 r4 s4 s2 v

/-! ## `float64` and `float32` -/

/-- C99: the hypotheses of the theorems hold for the IEEE 754 formats with 64 and 32 bits. -/
theorem C99_ieee : binary64.Gradual ∧ binary64.Binary ∧ binary32.Gradual ∧ binary32.Binary :=
  ⟨ieee_gradual, ieee_binary (by norm_num) (by norm_num), ieee_gradual,
    ieee_binary (by norm_num) (by norm_num)⟩

/-- A point. -/
def fltPoint (a : f.nums × f.nums) : Prim (Rnd f) := .mk .point ⟨1, [Rnd.num a.1, Rnd.num a.2]⟩ []
/-- A line. -/
def fltLine (a b : f.nums × f.nums) : Prim (Rnd f) :=
  .mk .line ⟨2, []⟩ [(k!"Point0", fltPoint a), (k!"Point1", fltPoint b)]
/-- A quadrilateral. -/
def fltQuad (a b c d : f.nums × f.nums) : Prim (Rnd f) :=
  .mk .quadrilateral ⟨3, []⟩ [(k!"Line0", fltLine a b), (k!"Line1", fltLine b c),
    (k!"Line2", fltLine c d), (k!"Line3", fltLine d a)]

theorem fpoint_fltPoint (a : f.nums × f.nums) : FPoint (fltPoint a) a := ⟨.refl _, rfl⟩
theorem fline_fltLine (a b : f.nums × f.nums) : FLine (fltLine a b) a b :=
  ⟨.refl _, _, _, rfl, fpoint_fltPoint a, fpoint_fltPoint b⟩
theorem fquad_fltQuad (a b c d : f.nums × f.nums) : FQuad (fltQuad a b c d) a b c d :=
  ⟨.refl _, _, _, _, _, rfl, fline_fltLine _ _, fline_fltLine _ _, fline_fltLine _ _, fline_fltLine _ _⟩

/-- Zero, as a number of the format. -/
def z0 : f.nums := ⟨0, f.zero_mem⟩
/-- One, as a number of the format. -/
def o1 : f.nums := ⟨1, f.one_mem⟩

/-- The smallest positive `float64`. -/
noncomputable def smallest64 : binary64.nums := ⟨(2 : ℝ) ^ (-1074 : ℤ), 1, -1074, by norm_num, le_rfl,
  by norm_num, by simp⟩

/-- Even the smallest possible distance is noticed. -/
example : ¬ Vanishes (.ok ct.coincident) [fltPoint (f := binary64) (z0, z0), fltPoint (smallest64, z0)] [] := by
  rw [C99_coincident C99_ieee.1 (fpoint_fltPoint _) (fpoint_fltPoint _)]
  intro h
  have h1 : (0 : ℝ) = (2 : ℝ) ^ (-1074 : ℤ) := congrArg (fun a => (a.1 : ℝ)) h
  have : (0:ℝ) < (2 : ℝ) ^ (-1074 : ℤ) := zpow_pos (by norm_num) _
  linarith

/-- A unit square, in `float32`. -/
example : Vanishes ct.box [fltQuad (f := binary32) (z0, z0) (o1, z0) (o1, o1) (z0, o1)] [] := by
  rw [C99_box C99_ieee.2.2.1 (fquad_fltQuad _ _ _ _)]
  have fit : ∀ x : ℝ, x ∈ binary32.nums → binary32.Fits x := fun x hx => by
    unfold FloatFormat.Fits
    rw [binary32.rnd_of_mem x hx]; simp
  have m1 : binary32.Fits (1 - 0) := fit _ (by rw [sub_zero]; exact binary32.one_mem)
  have m2 : binary32.Fits (0 - 1) := fit _ (by rw [zero_sub]; exact binary32.neg_mem _ binary32.one_mem)
  exact ⟨z0, z0, o1, o1, rfl, rfl, rfl, rfl, m1, m2, m1, m2⟩

theorem products_underflow (x : f.nums) (h0 : 0 < (x : ℝ)) (h1 : f.rnd ((x : ℝ) * x) = fin 0) :
    Vanishes (.ok ct.parallel) [fltLine (z0, z0) (x, z0), fltLine (z0, z0) (z0, x)] [] ∧
    Vanishes (.ok ct.orthogonal) [fltLine (z0, z0) (x, z0), fltLine (z0, z0) (x, z0)] [] ∧
    Vanishes ct.length [fltLine (z0, z0) (o1, x)] [.num (Rnd.num o1)] ∧
    1 < dist2 (0, 0) (1, (x : ℝ)) := by
  have ex : Rnd.num x - Rnd.num z0 = Rnd.num x := Rnd.ext' (by
    rw [Rnd.sub_val]
    simp only [z0, sub_zero]
    exact FloatFormat.rnd_of_mem _ _ x.2)
  have ez : Rnd.num (z0 : f.nums) - Rnd.num z0 = 0 := Rnd.ext' (by
    rw [Rnd.sub_val]
    simp only [z0, sub_zero]
    exact FloatFormat.rnd_of_mem _ _ (FloatFormat.zero_mem _))
  have eo : Rnd.num (o1 : f.nums) - Rnd.num z0 = 1 := Rnd.ext' (by
    rw [Rnd.sub_val]
    simp only [z0, o1, sub_zero]
    exact FloatFormat.rnd_of_mem _ _ (FloatFormat.one_mem _))
  have exx : Rnd.num x * Rnd.num x = 0 := Rnd.ext' (by
    rw [Rnd.mul_def, Rnd.num_val, fin_mul]
    exact h1)
  have e00 : (0 : Rnd f) * 0 = 0 := Rnd.round_eq (by simp)
  have ea : (0 : Rnd f) + 0 = 0 := Rnd.zero_add' 0
  have es : (0 : Rnd f) - 0 = 0 := Rnd.round_eq (by simp)
  have e11 : (1 : Rnd f) * 1 = 1 := Rnd.mul_one' 1
  have e01 : (0 : Rnd f) + 1 = 1 := Rnd.zero_add' 1
  have e10 : (1 : Rnd f) + 0 = 1 := Rnd.round_eq (by simp)
  have e1s : PyNum.sqrt (1 : Rnd f) = 1 := by
    refine Rnd.round_eq ?_
    rw [Rnd.one_val]
    show Flt.sqrt (fin 1) = fin 1
    simp only [Flt.sqrt]
    rw [if_neg (by norm_num), Real.sqrt_one]
  refine ⟨?_, ?_, ?_, ?_⟩
  · have e : ct.parallelA [fltLine (f := f) (z0, z0) (x, z0), fltLine (z0, z0) (z0, x)]
        = .ok (.scalar 0) := by
      simp only [ct.parallelA, LineAt.vec (fline_fltLine _ _), bind, Except.bind, Rnd.pt, ex, ez]
      show Except.ok (Arr.scalar (Rnd.num x * Rnd.num x - 0 * 0)) = _
      rw [exx, e00, es]
    rw [vanishes_iff (r := ct.parallel) rfl (leaf0_call (.cons (fline_fltLine _ _).1 (.cons (fline_fltLine _ _).1 .nil)) e)]
    simp only [Arr.atleast1d, List.mem_singleton, forall_eq, Rnd.zero_val]
  · have e : ct.orthogonalA [fltLine (f := f) (z0, z0) (x, z0), fltLine (z0, z0) (x, z0)]
        = .ok (.scalar 0) := by
      simp only [ct.orthogonalA, LineAt.vec (fline_fltLine _ _), bind, Except.bind, Rnd.pt, ex, ez]
      show Except.ok (Arr.scalar (0 + Rnd.num x * Rnd.num x + 0 * 0)) = _
      rw [exx, e00, ea, ea]
    rw [vanishes_iff (r := ct.orthogonal) rfl (leaf0_call (.cons (fline_fltLine _ _).1 (.cons (fline_fltLine _ _).1 .nil)) e)]
    simp only [Arr.atleast1d, List.mem_singleton, forall_eq, Rnd.zero_val]
  · have e : con.lengthA [fltLine (f := f) (z0, z0) (o1, x)] = .ok (.scalar 1) := by
      rw [LineAt.length (fline_fltLine _ _)]
      simp only [len2, Rnd.pt, ex, eo, exx, e11, e01, e10, e1s]
    rw [vanishes_iff ct_length_eq (GEv.ct_leaf0 (.cons (fline_fltLine _ _).1 .nil) e rfl (Rnd.num o1)).call]
    simp only [Arr.atleast1d, List.map_cons, List.map_nil, List.mem_singleton, forall_eq]
    rw [Rnd.sub_def, Rnd.one_val, Rnd.num_val, fin_sub]
    simp only [o1, sub_self]
    exact FloatFormat.rnd_of_mem _ _ (FloatFormat.zero_mem _)
  · unfold dist2
    rw [Real.lt_sqrt (by norm_num)]
    simp only [sub_zero]
    nlinarith

/-- C99: for `Parallel`, `Orthogonal` and `Length` this is not so, because products underflow.  Let `x > 0` be a
number whose square is less than half of the smallest positive number `2 ^ lo` (at most `2 ^ -538` for
`float64`, `2 ^ -75` for `float32`).  A horizontal and a vertical line of this length are computed to be
parallel, the horizontal one is computed to be orthogonal to itself, and a line from `(0, 0)` to `(1, x)` is
computed to have length one. -/
theorem C99_products_underflow {p : Nat} {lo hi : ℤ} {hp : 1 ≤ p} {hlo : lo ≤ 0} {hhi : 0 ≤ hi}
    (x : (ieee p lo hi hp hlo hhi).nums) (h0 : 0 < (x : ℝ)) (h1 : (x : ℝ) * x < (2 : ℝ) ^ lo / 2) :
    Vanishes (.ok ct.parallel) [fltLine (z0, z0) (x, z0), fltLine (z0, z0) (z0, x)] [] ∧
    Vanishes (.ok ct.orthogonal) [fltLine (z0, z0) (x, z0), fltLine (z0, z0) (x, z0)] [] ∧
    Vanishes ct.length [fltLine (z0, z0) (o1, x)] [.num (Rnd.num o1)] ∧
    1 < dist2 (0, 0) (1, (x : ℝ)) :=
  products_underflow x h0 (ieee_tiny (mul_nonneg h0.le h0.le) h1)

/-- There are such numbers. -/
example : ∃ x : binary64.nums, 0 < (x : ℝ) ∧ (x : ℝ) * x < (2 : ℝ) ^ (-1074 : ℤ) / 2 := by
  refine ⟨⟨(2 : ℝ) ^ (-538 : ℤ), 1, -538, by norm_num, by norm_num, by norm_num, by simp⟩,
    zpow_pos (by norm_num) _, ?_⟩
  show (2 : ℝ) ^ (-538 : ℤ) * (2 : ℝ) ^ (-538 : ℤ) < (2 : ℝ) ^ (-1074 : ℤ) / 2
  rw [← zpow_add₀ (by norm_num), show (-538 + -538 : ℤ) = -1074 + -2 by norm_num, zpow_add₀ (by norm_num)]
  have : (0:ℝ) < (2 : ℝ) ^ (-1074 : ℤ) := zpow_pos (by norm_num) _
  have e : (2 : ℝ) ^ (-2 : ℤ) = 1 / 4 := by norm_num
  rw [e]
  linarith

/-- `float64` on a processor that replaces results below the normal range by zero. -/
noncomputable abbrev flushed64 : FloatFormat := flushed 53 (-1074) 971 (by norm_num) (by norm_num) (by norm_num)

/-- C99: gradual underflow is needed: on a processor that flushes small results to zero there are two different
points (with normal coordinates) that are computed to coincide. -/
theorem C99_flush_to_zero : ∃ a b : flushed64.nums × flushed64.nums, a ≠ b ∧
    Vanishes (.ok ct.coincident) [fltPoint a, fltPoint b] [] := by
  have hpos := minNormal_pos (p := 53) (lo := -1074)
  have hN : minNormal 53 (-1074) ∈ binaryNums 53 (-1074) 971 := minNormal_mem (by norm_num) (by norm_num)
  have hN' : 3 / 2 * minNormal 53 (-1074) ∈ binaryNums 53 (-1074) 971 := by
    refine ⟨3, -1023, by norm_num, by norm_num, by norm_num, ?_⟩
    unfold minNormal
    rw [show (-1074 + ((53 : ℕ) : ℤ) - 1 : ℤ) = -1023 + 1 by norm_num, zpow_add₀ (by norm_num)]
    push_cast
    ring
  let x : flushed64.nums := ⟨minNormal 53 (-1074), Or.inr ⟨hN, le_abs_self _⟩⟩
  let y : flushed64.nums := ⟨3 / 2 * minNormal 53 (-1074), Or.inr ⟨hN', by
    rw [abs_of_pos (by linarith)]; linarith⟩⟩
  refine ⟨(x, z0), (y, z0), ?_, ?_⟩
  · intro h
    have h1 : minNormal 53 (-1074) = 3 / 2 * minNormal 53 (-1074) := congrArg (fun a => (a.1 : ℝ)) h
    linarith
  · have e : ct.coincidentA [fltPoint (x, z0), fltPoint (y, z0)] =
        .ok (.vec [Rnd.num y - Rnd.num x, Rnd.num z0 - Rnd.num z0]) := rfl
    rw [vanishes_iff (r := ct.coincident) rfl (leaf0_call (.cons (.refl _) (.cons (.refl _) .nil)) e)]
    simp only [Arr.atleast1d, List.mem_cons, List.not_mem_nil, or_false, forall_eq_or_imp, forall_eq,
      Rnd.sub_val]
    constructor
    · show roundFlush 53 (-1074) 971 (3 / 2 * minNormal 53 (-1074) - minNormal 53 (-1074)) = fin 0
      unfold roundFlush
      rw [if_pos]
      rw [show 3 / 2 * minNormal 53 (-1074) - minNormal 53 (-1074) = 1 / 2 * minNormal 53 (-1074) by ring,
        abs_of_pos (by linarith)]
      linarith
    · rw [sub_self]
      exact FloatFormat.rnd_of_mem _ _ (FloatFormat.zero_mem _)

end MplLayout.Props
