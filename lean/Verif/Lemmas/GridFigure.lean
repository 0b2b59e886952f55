import Verif.Props.Tutorial

/-!
# The geometry of the grid figure (C84)
-/

namespace MplLayout.Props

open Flt

/-- What the program of `examples/grid_axes.ipynb` is given: the number of rows and columns, the keys of
the axes (row after row), the width of the figure, the aspect ratio of the first axes, the margins to the
figure, and the relative sizes of and the gaps between the columns and the rows. -/
structure GridSpec where
  R : Nat
  C : Nat
  keys : List Str
  W : ℝ
  aspect : ℝ
  left : ℝ
  right : ℝ
  bottom : ℝ
  top : ℝ
  ws : Nat → ℝ
  hs : Nat → ℝ
  ms : Nat → ℝ
  ns : Nat → ℝ

namespace GridSpec

variable (g : GridSpec)

/-- The width that is left for the columns, in units of the first column. -/
noncomputable def colUnit : ℝ :=
  (g.W - g.left - g.right - ∑ i ∈ Finset.range (g.C - 1), g.ms i) /
    (1 + ∑ i ∈ Finset.range (g.C - 1), g.ws i)

/-- The height of the first row. -/
noncomputable def rowUnit : ℝ := g.colUnit / g.aspect

/-- The height of the figure. -/
noncomputable def height : ℝ :=
  g.bottom + g.top + g.rowUnit * (1 + ∑ i ∈ Finset.range (g.R - 1), g.hs i) +
    ∑ i ∈ Finset.range (g.R - 1), g.ns i

/-- A size relative to the first. -/
def rel (xs : Nat → ℝ) : Nat → ℝ
  | 0 => 1
  | n + 1 => xs n

/-- The left side of a column. -/
noncomputable def x (c : Nat) : ℝ := g.left + ∑ k ∈ Finset.range c, (g.colUnit * rel g.ws k + g.ms k)

/-- The top side of a row. -/
noncomputable def y (r : Nat) : ℝ :=
  g.height - g.top - ∑ k ∈ Finset.range r, (g.rowUnit * rel g.hs k + g.ns k)

/-- The place of the axes in row `r` and column `c`. -/
noncomputable def rect (r c : Nat) : Rect :=
  ⟨g.x c, g.y r - g.rowUnit * rel g.hs r, g.x c + g.colUnit * rel g.ws c, g.y r⟩

end GridSpec

open GridSpec

/-- `n` consecutive blocks of relative sizes with gaps. -/
theorem sum_blocks (u : ℝ) (ws ms : Nat → ℝ) (n : Nat) :
    ∑ k ∈ Finset.range n, (u * rel ws k + ms k) + u * rel ws n
      = u * (1 + ∑ i ∈ Finset.range n, ws i) + ∑ i ∈ Finset.range n, ms i := by
  induction n with
  | zero => simp [rel]
  | succ n ih =>
    rw [Finset.sum_range_succ, Finset.sum_range_succ, Finset.sum_range_succ]
    rw [show rel ws (n + 1) = ws n from rfl]
    linarith

/-- The explicit geometry has the properties that the constraints ask for. -/
theorem grid_geometry (g : GridSpec) (hC : 0 < g.C) (hw : 0 < g.colUnit) (ha : g.aspect ≠ 0)
    (hws : ∀ c, c + 1 < g.C → 0 < g.ws c) (hhs : ∀ r, r + 1 < g.R → 0 < g.hs r) :
    (∀ r c, r < g.R → c < g.C → (g.rect r c).Proper ∧ (0 < g.aspect → (g.rect r c).Positive)) ∧
    GridLaidOut g.R g.C g.rect g.ws g.hs g.ms g.ns ∧
    |(g.rect 0 0).x1 - (g.rect 0 0).x0| = |g.aspect| * |(g.rect 0 0).y1 - (g.rect 0 0).y0| ∧
    (g.rect 0 0).x0 = g.left ∧ (g.rect 0 0).y1 = g.height - g.top ∧
    (g.rect 0 (g.C - 1)).x1 = g.W - g.right ∧ (g.rect (g.R - 1) 0).y0 = g.bottom := by
  have hh : g.rowUnit ≠ 0 := div_ne_zero hw.ne' ha
  have pw : ∀ c, c < g.C → 0 < rel g.ws c := by
    intro c hc
    cases c with
    | zero => exact one_pos
    | succ c => exact hws c hc
  have ph : ∀ c, c < g.R → 0 < rel g.hs c := by
    intro c hc
    cases c with
    | zero => exact one_pos
    | succ c => exact hhs c hc
  have hden : 1 + ∑ i ∈ Finset.range (g.C - 1), g.ws i ≠ 0 := by
    have : 0 ≤ ∑ i ∈ Finset.range (g.C - 1), g.ws i := by
      apply Finset.sum_nonneg
      intro i hi
      rw [Finset.mem_range] at hi
      exact (hws i (by omega)).le
    linarith
  refine ⟨?_, ⟨⟨?_, ?_⟩, ?_, ?_, ?_, ?_⟩, ?_, ?_, ?_, ?_, ?_⟩
  · intro r c hr hc
    have h1 := mul_pos hw (pw c hc)
    have h2 := mul_ne_zero hh (ph r hr).ne'
    refine ⟨⟨?_, ?_⟩, fun hp => ⟨?_, ?_⟩⟩
    · simp only [rect]; linarith
    · simp only [rect]
      intro e
      exact h2 (by linarith)
    · simp only [rect]; linarith
    · have h3 : 0 < g.rowUnit * rel g.hs r := mul_pos (div_pos hw hp) (ph r hr)
      simp only [rect]; linarith
  · intro r c c' _ _ _; exact ⟨rfl, rfl⟩
  · intro c r r' _ _ _; exact ⟨rfl, rfl⟩
  · intro c hc
    simp only [rect, add_sub_cancel_left]
    rw [abs_mul, abs_mul, abs_of_pos (pw _ hc)]
    simp only [rel, abs_one, mul_one]
    ring
  · intro r hr
    simp only [rect, sub_sub_cancel]
    rw [abs_mul, abs_mul, abs_of_pos (ph _ hr)]
    simp only [rel, abs_one, mul_one]
    ring
  · intro c _
    simp only [rect, x, Finset.sum_range_succ]
    ring
  · intro r _
    simp only [rect, y, Finset.sum_range_succ]
    ring
  · simp only [rect, rel, add_sub_cancel_left, sub_sub_cancel, mul_one]
    rw [← abs_mul, rowUnit]
    congr 1
    field_simp
  · simp [rect, x]
  · simp [rect, y]
  · have := sum_blocks g.colUnit g.ws g.ms (g.C - 1)
    have e : g.colUnit * (1 + ∑ i ∈ Finset.range (g.C - 1), g.ws i)
        = g.W - g.left - g.right - ∑ i ∈ Finset.range (g.C - 1), g.ms i := by
      rw [colUnit, div_mul_cancel₀ _ hden]
    simp only [rect, x]
    linarith
  · have := sum_blocks g.rowUnit g.hs g.ns (g.R - 1)
    simp only [rect, y, height]
    linarith

/-- Nothing else with upright boxes has these properties. -/
theorem grid_unique (g : GridSpec) (hR : 0 < g.R) (hC : 0 < g.C) {rect : Nat → Nat → Rect} {H : ℝ}
    (hp : ∀ r c, r < g.R → c < g.C → (rect r c).Positive)
    (hg : GridLaidOut g.R g.C rect g.ws g.hs g.ms g.ns)
    (ha : (rect 0 0).x1 - (rect 0 0).x0 = g.aspect * ((rect 0 0).y1 - (rect 0 0).y0))
    (h1 : (rect 0 0).x0 = g.left) (h2 : (rect 0 0).y1 = H - g.top)
    (h3 : (rect 0 (g.C - 1)).x1 = g.W - g.right) (h4 : (rect (g.R - 1) 0).y0 = g.bottom) :
    H = g.height ∧ ∀ r c, r < g.R → c < g.C → rect r c = g.rect r c := by
  obtain ⟨⟨ga, gb⟩, gw, gh, gm, gn⟩ := hg
  set w := (rect 0 0).x1 - (rect 0 0).x0 with hw
  set h := (rect 0 0).y1 - (rect 0 0).y0 with hh
  have hw0 : 0 < w := sub_pos.mpr (hp 0 0 hR hC).1
  have hh0 : 0 < h := sub_pos.mpr (hp 0 0 hR hC).2
  rw [abs_of_pos hw0] at gw
  rw [abs_of_pos hh0] at gh
  have width : ∀ c, c < g.C → (rect 0 c).x1 - (rect 0 c).x0 = w * rel g.ws c := by
    intro c hc
    cases c with
    | zero => simp [rel, hw]
    | succ c =>
      have := gw c hc
      rw [abs_of_pos (sub_pos.mpr (hp 0 _ hR hc).1)] at this
      rw [this, rel]; ring
  have heightE : ∀ r, r < g.R → (rect r 0).y1 - (rect r 0).y0 = h * rel g.hs r := by
    intro c hc
    cases c with
    | zero => simp [rel, hh]
    | succ c =>
      have := gh c hc
      rw [abs_of_pos (sub_pos.mpr (hp _ 0 hc hC).2)] at this
      rw [this, rel]; ring
  have colX : ∀ c, c < g.C → (rect 0 c).x0 = g.left + ∑ k ∈ Finset.range c, (w * rel g.ws k + g.ms k) := by
    intro c
    induction c with
    | zero => intro _; simp [h1]
    | succ c ih =>
      intro hc
      have e1 := ih (by omega)
      have e2 := width c (by omega)
      have e3 := gm c hc
      rw [Finset.sum_range_succ]
      linarith
  have rowY : ∀ r, r < g.R → (rect r 0).y1 = H - g.top - ∑ k ∈ Finset.range r, (h * rel g.hs k + g.ns k) := by
    intro c
    induction c with
    | zero => intro _; simp [h2]
    | succ c ih =>
      intro hc
      have e1 := ih (by omega)
      have e2 := heightE c (by omega)
      have e3 := gn c hc
      rw [Finset.sum_range_succ]
      linarith
  have hden : 0 < 1 + ∑ i ∈ Finset.range (g.C - 1), g.ws i := by
    have : 0 ≤ ∑ i ∈ Finset.range (g.C - 1), g.ws i := by
      apply Finset.sum_nonneg
      intro i hi
      rw [Finset.mem_range] at hi
      have e1 := width (i + 1) (by omega)
      have e2 := sub_pos.mpr (hp 0 (i + 1) hR (by omega)).1
      rw [e1] at e2
      exact (pos_of_mul_pos_right e2 hw0.le).le
    linarith
  have eu : w = g.colUnit := by
    have e1 := colX (g.C - 1) (by omega)
    have e2 := width (g.C - 1) (by omega)
    have e3 := sum_blocks w g.ws g.ms (g.C - 1)
    rw [colUnit, eq_div_iff hden.ne']
    linarith
  have ha0 : g.aspect ≠ 0 := by
    rintro e
    rw [e, zero_mul] at ha
    exact hw0.ne' ha
  have ev : h = g.rowUnit := by
    rw [rowUnit, ← eu, eq_div_iff ha0, ha]; ring
  have eH : H = g.height := by
    have e1 := rowY (g.R - 1) (by omega)
    have e2 := heightE (g.R - 1) (by omega)
    have e3 := sum_blocks h g.hs g.ns (g.R - 1)
    rw [height, ← ev]
    linarith
  refine ⟨eH, ?_⟩
  intro r c hr hc
  obtain ⟨a1, a2⟩ := ga r c 0 hr hc hC
  obtain ⟨b1, b2⟩ := gb c r 0 hc hr hR
  have e1 := colX c hc
  have e2 := width c hc
  have e3 := rowY r hr
  have e4 := heightE r hr
  rw [eu] at e1 e2
  rw [ev] at e3 e4
  rw [eH] at e3
  have f1 : (rect r c).x0 = g.x c := by rw [b1, e1]; rfl
  have f2 : (rect r c).y1 = g.y r := by rw [a2, e3]; rfl
  have f3 : (rect r c).x1 = g.x c + g.colUnit * rel g.ws c := by rw [b2]; linarith
  have f4 : (rect r c).y0 = g.y r - g.rowUnit * rel g.hs r := by rw [a1]; linarith
  cases hrc : rect r c with
  | mk a b c' d =>
    rw [hrc] at f1 f2 f3 f4
    simp only [GridSpec.rect]
    simp only at f1 f2 f3 f4
    rw [f1, f2, f3, f4]

end MplLayout.Props
