import Verif.Lemmas.AspectNewton
import Verif.Props.FirstStep

/-!
# A box with an aspect ratio: all steps of the solver

C101 gives the first step.  Here are all of them, for a box in a fixed corner with a width and an aspect ratio: the
heights follow a recursion, which approaches the height that was asked for, or does not.
-/

namespace MplLayout.Props

open Flt Solver

/-- C104, figures with linear constraints and any aspect ratios.  Let `good k` be a set of placements for each number of
steps, such that `good 0` has the default geometry, and from every placement of `good k`, where the boxes with an aspect
ratio are not flat, the linearised equations have solutions, all of them in `good (k + 1)`.  Then the solver returns a
placement of `good n`, after `n` steps, between 1 and `maxIter`. -/
theorem C104_steps {tool : Shipped → Cons Flt} {items : List FigItem} (num : Numerics Flt) (hnum : Exact num)
    (hF : FigOK items) (hT : ToolsFor tool items) (hne : figDemands items ≠ [])
    (hk : ∀ d ∈ figDemands items, d.AspectOrAffine) {good : Nat → Placement → Prop}
    (h0 : good 0 ⟨fun _ => ⟨0, 0, 1, 1⟩, fun _ => (0, 0)⟩)
    (hgood : ∀ k P, good k P → (∀ d ∈ figDemands items, d.HasExtent P) ∧
      (∃ Q, ∀ d ∈ figDemands items, d.NewtonStep P Q) ∧
      ∀ Q, (∀ d ∈ figDemands items, d.NewtonStep P Q) → good (k + 1) Q)
    (base : Nat) (a b : ℝ) (maxIter : Int) (hmax : 1 ≤ maxIter) :
    ∃ r info Q, solve num ((Session.start : Session Flt).run (figProgram tool 0 items)).layout base (fin a) (fin b)
        maxIter k!"newton" = .ok (r, info) ∧ Moves tool items r ∧
      PlacedIn items Q r ∧ good info.absErrs.length Q ∧ 1 ≤ info.absErrs.length ∧ (info.absErrs.length : Int) ≤ maxIter := by
  obtain ⟨s, ts, h⟩ := figRan hF hT
  rw [h.does.run]
  exact h.aspect_chain num hnum hF hT hne hk h0 hgood base a b maxIter hmax

/-- C104: the solver ends after at least one and at most `maxIter` steps, one for each entry of its error list, with a
box at the origin of width `W` and the height that the recursion `heights` gives for this number of steps. -/
theorem C104_heights (num : Numerics Flt) (hnum : Exact num) (W v : ℝ) (hW : W ≠ 0) (hz : ∀ k, heights W v k ≠ 0)
    (base : Nat) (a b : ℝ) (maxIter : Int) (hmax : 1 ≤ maxIter) :
    ∃ r info q, solve num ((Session.start : Session Flt).run (figProgram shippedTool 0 (oneBox W v))).layout base
        (fin a) (fin b) maxIter k!"newton" = .ok (r, info) ∧
      1 ≤ info.absErrs.length ∧ (info.absErrs.length : Int) ≤ maxIter ∧
      r.getChild k!"Figure" = .ok q ∧ IsRect q ⟨0, 0, W, heights W v (info.absErrs.length - 1)⟩ := by
  have step : ∀ (P Q : Placement) (w ht : ℝ), P.box k!"Figure" = ⟨0, 0, w, ht⟩ → w ≠ 0 → ht ≠ 0 →
      (∀ d ∈ figDemands (oneBox W v), d.HasExtent P) ∧
      ((∀ d ∈ figDemands (oneBox W v), d.NewtonStep P Q) ↔
        Q.box k!"Figure" = ⟨0, 0, W, ht * (1 + W / w - v * |ht| / |w|)⟩) := by
    intro P Q w ht hP hw hh
    have hw' := abs_pos.mpr hw
    have hh' := abs_pos.mpr hh
    refine ⟨by simp [oneBox, figDemands, Demand.HasExtent, hP, hw, hh], ?_⟩
    simp only [oneBox, figDemands, List.forall_mem_cons, Demand.NewtonStep, Demand.Holds, Spot.place, Edge.start,
      Prod.mk.injEq, hP, sub_zero]
    constructor
    · rintro ⟨-, ⟨d1, d2⟩, d3, d4, -⟩
      apply rect_eq
      · linarith
      · linarith
      · linarith
      · rw [d3, d2, sub_zero] at d4
        have : (1 + W / w - (Q.box k!"Figure").y1 / ht) = v * |ht| / |w| := by
          rw [← d4]; field_simp
        have h2 : (Q.box k!"Figure").y1 / ht = 1 + W / w - v * |ht| / |w| := by linarith
        rw [← h2]; field_simp
    · intro e
      rw [e]
      refine ⟨trivial, ⟨by simp, by simp⟩, by simp, ?_, by simp⟩
      simp only [sub_zero]
      field_simp
      ring
  obtain ⟨r, info, Q, g1, -, g2, g3, g4, g5⟩ := C104_steps num hnum (oneBox_ok W v) (toolsFor _)
    (by simp [oneBox, figDemands])
    (by simp [oneBox, figDemands, Demand.AspectOrAffine, Demand.kind, Shipped.IsAffine])
    (good := fun k P => P.box k!"Figure" = match k with
      | 0 => ⟨0, 0, 1, 1⟩
      | k + 1 => ⟨0, 0, W, heights W v k⟩) rfl
    (fun k P hP => by
      match k, hP with
      | 0, hP =>
        refine ⟨(step P P 1 1 hP one_ne_zero one_ne_zero).1,
          ⟨⟨fun _ => ⟨0, 0, W, 1 * (1 + W / 1 - v * |(1 : ℝ)| / |(1 : ℝ)|)⟩, fun _ => (0, 0)⟩,
            (step P _ 1 1 hP one_ne_zero one_ne_zero).2.mpr rfl⟩, fun Q hQ => ?_⟩
        rw [(step P Q 1 1 hP one_ne_zero one_ne_zero).2.mp hQ]
        simp only [heights, abs_one]
        congr 1
        ring
      | k + 1, hP =>
        refine ⟨(step P P W _ hP hW (hz k)).1, ⟨⟨fun _ => _, fun _ => (0, 0)⟩,
            (step P _ W _ hP hW (hz k)).2.mpr rfl⟩, fun Q hQ => ?_⟩
        rw [(step P Q W _ hP hW (hz k)).2.mp hQ]
        simp only [heights, div_self hW]
        congr 2
        ring) base a b maxIter hmax
  obtain ⟨q, k1, k2⟩ := g2.1 k!"Figure" (by simp [oneBox, figDemands])
  refine ⟨r, info, q, g1, g4, g5, k1, ?_⟩
  obtain ⟨j, hj⟩ : ∃ j, info.absErrs.length = j + 1 := ⟨info.absErrs.length - 1, by omega⟩
  rw [hj] at g3 ⊢
  rw [g3] at k2
  exact k2

/-- The recursion in closed form. -/
theorem heights_closed {W v : ℝ} (hW : 0 < W) (hv : 0 < v) (he : |(v - 1) * (v - W)| < W) (k : Nat) :
    heights W v k = W / v * (1 - ((v - 1) * (v - W) / W) ^ 2 ^ k) ∧ 0 < heights W v k := by
  have he' : |(v - 1) * (v - W) / W| < 1 := by rw [abs_div, abs_of_pos hW, div_lt_one hW]; exact he
  have pos : ∀ k : Nat, 0 < 1 - ((v - 1) * (v - W) / W) ^ 2 ^ k := by
    intro k
    have h1 : |((v - 1) * (v - W) / W) ^ 2 ^ k| < 1 := by
      rw [abs_pow]
      exact pow_lt_one₀ (abs_nonneg _) he' (by positivity)
    linarith [(abs_lt.mp h1).2]
  have key : heights W v k = W / v * (1 - ((v - 1) * (v - W) / W) ^ 2 ^ k) := by
    induction k with
    | zero => simp only [heights, pow_zero, pow_one]; field_simp; ring
    | succ k ih =>
      have hp : 0 < heights W v k := by rw [ih]; exact mul_pos (div_pos hW hv) (pos k)
      rw [heights, abs_of_pos hp, abs_of_pos hW, ih, pow_succ, pow_mul]
      field_simp
      ring
  exact ⟨key, by rw [key]; exact mul_pos (div_pos hW hv) (pos k)⟩

/-- C104, the good case: if `|(v - 1) (v - W)| < W`, the height after `n` steps is the height `W / v` that was asked
for, up to the relative error `e ^ 2 ^ (n - 1)` with `e = (v - 1) (v - W) / W`. -/
theorem C104_converges (num : Numerics Flt) (hnum : Exact num) {W v : ℝ} (hW : 0 < W) (hv : 0 < v)
    (he : |(v - 1) * (v - W)| < W) (base : Nat) (a b : ℝ) (maxIter : Int) (hmax : 1 ≤ maxIter) :
    ∃ r info q, solve num ((Session.start : Session Flt).run (figProgram shippedTool 0 (oneBox W v))).layout base
        (fin a) (fin b) maxIter k!"newton" = .ok (r, info) ∧
      1 ≤ info.absErrs.length ∧ (info.absErrs.length : Int) ≤ maxIter ∧
      r.getChild k!"Figure" = .ok q ∧
      IsRect q ⟨0, 0, W, W / v * (1 - ((v - 1) * (v - W) / W) ^ 2 ^ (info.absErrs.length - 1))⟩ := by
  obtain ⟨r, info, q, h1, h2, h3, h4, h5⟩ := C104_heights num hnum W v hW.ne'
    (fun k => (heights_closed hW hv he k).2.ne') base a b maxIter hmax
  refine ⟨r, info, q, h1, h2, h3, h4, ?_⟩
  rw [← (heights_closed hW hv he _).1]
  exact h5

/-- The recursion in closed form, if the first step turns the box over. -/
theorem heights_turned {W v : ℝ} (hW : 0 < W) (hv : W + 1 < v) (he : v * (v - W - 1) < 2 * W) (k : Nat) :
    heights W v k = -(W / v * (1 - (1 - v * (v - W - 1) / W) ^ 2 ^ k)) ∧ heights W v k < 0 := by
  have h0 : 0 < v := by linarith
  have hp : 0 < v * (v - W - 1) := mul_pos h0 (by linarith)
  have he' : |1 - v * (v - W - 1) / W| < 1 := by
    rw [abs_lt]
    constructor
    · have : v * (v - W - 1) / W < 2 := (div_lt_iff₀ hW).mpr he
      linarith
    · have : 0 < v * (v - W - 1) / W := div_pos hp hW
      linarith
  have pos : ∀ k : Nat, 0 < 1 - (1 - v * (v - W - 1) / W) ^ 2 ^ k := by
    intro k
    have h1 : |(1 - v * (v - W - 1) / W) ^ 2 ^ k| < 1 := by
      rw [abs_pow]
      exact pow_lt_one₀ (abs_nonneg _) he' (by positivity)
    linarith [(abs_lt.mp h1).2]
  have key : heights W v k = -(W / v * (1 - (1 - v * (v - W - 1) / W) ^ 2 ^ k)) := by
    induction k with
    | zero => simp only [heights, pow_zero, pow_one]; field_simp; ring
    | succ k ih =>
      have hn : heights W v k < 0 := by rw [ih]; exact neg_neg_of_pos (mul_pos (div_pos hW h0) (pos k))
      rw [heights, abs_of_neg hn, abs_of_pos hW, ih, pow_succ, pow_mul]
      field_simp
      ring
  exact ⟨key, by rw [key]; exact neg_neg_of_pos (mul_pos (div_pos hW h0) (pos k))⟩

/-- C104, a box that comes out turned over: for an aspect ratio a bit larger than `W + 1` the steps approach the height
`-W / v`, which has the aspect ratio that was asked for, with the top below the bottom. -/
theorem C104_turned (num : Numerics Flt) (hnum : Exact num) {W v : ℝ} (hW : 0 < W) (hv : W + 1 < v)
    (he : v * (v - W - 1) < 2 * W) (base : Nat) (a b : ℝ) (maxIter : Int) (hmax : 1 ≤ maxIter) :
    ∃ r info q ht, solve num ((Session.start : Session Flt).run (figProgram shippedTool 0 (oneBox W v))).layout base
        (fin a) (fin b) maxIter k!"newton" = .ok (r, info) ∧
      1 ≤ info.absErrs.length ∧ (info.absErrs.length : Int) ≤ maxIter ∧
      r.getChild k!"Figure" = .ok q ∧ IsRect q ⟨0, 0, W, ht⟩ ∧ ht < 0 ∧
      ht = -(W / v * (1 - (1 - v * (v - W - 1) / W) ^ 2 ^ (info.absErrs.length - 1))) := by
  obtain ⟨r, info, q, h1, h2, h3, h4, h5⟩ := C104_heights num hnum W v hW.ne'
    (fun k => (heights_turned hW hv he k).2.ne) base a b maxIter hmax
  exact ⟨r, info, q, _, h1, h2, h3, h4, h5, (heights_turned hW hv he _).2, (heights_turned hW hv he _).1⟩

theorem heights_grow {W v : ℝ} (hW : 0 < W) (hv : 0 < v) (h : 3 * W ≤ v * |W + 1 - v|) (k : Nat) :
    3 * W ≤ v * |heights W v k| := by
  induction k with
  | zero => exact h
  | succ k ih =>
    simp only [heights]
    generalize heights W v k = u at ih ⊢
    rw [abs_mul, abs_of_pos hW]
    have h3 : 3 ≤ v * |u| / W := (le_div_iff₀ hW).mpr ih
    have h1 : 1 ≤ |2 - v * |u| / W| := by
      rw [abs_sub_comm]
      exact le_trans (by linarith) (le_abs_self _)
    have h2 : 0 ≤ v * |u| := mul_nonneg hv.le (abs_nonneg u)
    calc 3 * W ≤ v * |u| * 1 := by linarith
      _ ≤ v * |u| * |2 - v * |u| / W| := mul_le_mul_of_nonneg_left h1 h2
      _ = v * (|u| * |2 - v * |u| / W|) := by ring

/-- C104, the bad case: if `3 W ≤ v |W + 1 - v|`, the box of width `W` and aspect ratio `v` exists, but the solver
never gives it an aspect ratio larger than `v / 3`, with any number of iterations and any tolerances. -/
theorem C104_never_counterexample (num : Numerics Flt) (hnum : Exact num) {W v : ℝ} (hW : 0 < W) (hv : 0 < v)
    (h : 3 * W ≤ v * |W + 1 - v|) (base : Nat) (a b : ℝ) (maxIter : Int) (hmax : 1 ≤ maxIter) :
    (∃ P : Placement, P.box k!"Figure" = ⟨0, 0, W, W / v⟩ ∧ ∀ d ∈ figDemands (oneBox W v), d.Holds P) ∧
    ∃ r info q ht, solve num ((Session.start : Session Flt).run (figProgram shippedTool 0 (oneBox W v))).layout base
        (fin a) (fin b) maxIter k!"newton" = .ok (r, info) ∧
      r.getChild k!"Figure" = .ok q ∧ IsRect q ⟨0, 0, W, ht⟩ ∧ ht ≠ 0 ∧ W / |ht| ≤ v / 3 := by
  refine ⟨⟨⟨fun _ => ⟨0, 0, W, W / v⟩, fun _ => (0, 0)⟩, rfl, ?_⟩, ?_⟩
  · simp only [oneBox, figDemands, List.forall_mem_cons, Demand.Holds, Spot.place, Edge.start, sub_zero]
    refine ⟨trivial, trivial, trivial, ⟨(div_pos hW hv).ne', ?_⟩, by simp⟩
    rw [abs_of_pos hW, abs_of_pos (div_pos hW hv)]
    field_simp
  · have hg := heights_grow hW hv h
    have hpos : ∀ k, 0 < |heights W v k| := fun k => by
      have := hg k
      by_contra hn
      nlinarith [mul_nonneg hv.le (show 0 ≤ -|heights W v k| by linarith)]
    obtain ⟨r, info, q, h1, -, -, h4, h5⟩ := C104_heights num hnum W v hW.ne' (fun k => abs_pos.mp (hpos k)) base a b
      maxIter hmax
    refine ⟨r, info, q, _, h1, h4, h5, abs_pos.mp (hpos _), ?_⟩
    rw [div_le_iff₀ (hpos _)]
    linarith [hg (info.absErrs.length - 1)]

/-- Width 4, aspect ratio 2: `e = -1 / 2`, and the heights 3, 3 / 2, 15 / 8 are on the way to 2. -/
example : ∃ r info q, solve exactNum ((Session.start : Session Flt).run (figProgram shippedTool 0 (oneBox 4 2))).layout 10
    (fin 0) (fin 0) 3 k!"newton" = .ok (r, info) ∧ 1 ≤ info.absErrs.length ∧ (info.absErrs.length : Int) ≤ 3 ∧
      r.getChild k!"Figure" = .ok q ∧
      IsRect q ⟨0, 0, 4, 4 / 2 * (1 - ((2 - 1) * (2 - 4) / 4) ^ 2 ^ (info.absErrs.length - 1))⟩ :=
  C104_converges exactNum exactNum_exact (by norm_num) (by norm_num) (by norm_num) 10 0 0 3 (by norm_num)

example : heights 4 2 0 = 3 ∧ heights 4 2 1 = 3 / 2 ∧ heights 4 2 2 = 15 / 8 := by
  norm_num [heights, abs_of_pos]

/-- Width 1, aspect ratio 3: the steps turn the box over and back, between the heights -1 and 1. -/
example : heights 1 3 0 = -1 ∧ heights 1 3 1 = 1 ∧ heights 1 3 2 = -1 := by
  norm_num [heights]

/-- Sizes for which the solver never finds the box: 12 by 2, 1 / 10 by 1 / 5, 1 by 1 / 3. -/
example : (3 * 12 : ℝ) ≤ 6 * |12 + 1 - 6| ∧ (3 * (1 / 10) : ℝ) ≤ 1 / 2 * |1 / 10 + 1 - 1 / 2| ∧
    (3 * 1 : ℝ) ≤ 3 * |1 + 1 - 3| := by
  norm_num [abs_of_pos]

/-- Width 2, aspect ratio 16 / 5: turned over. -/
example : (2 + 1 : ℝ) < 16 / 5 ∧ (16 / 5 : ℝ) * (16 / 5 - 2 - 1) < 2 * 2 := by norm_num

end MplLayout.Props
