import Verif.Props.Round
import Verif.Spec.Shift
import Verif.Lemmas.Shift

/-!
# C99: conversion to the format

The primitives of a layout hold 64-bit numbers; compiled by `jax.jit` (`solver.py:109-118`), the residuals are
computed with 32-bit numbers unless `jax_enable_x64` is set, which the code does not do.
-/

namespace MplLayout.Props

open Flt

/-- The primitive with all coordinates converted to the format. -/
noncomputable def toFormat (f : FloatFormat) (p : Prim Flt) : Prim (Rnd f) :=
  p.mapV fun v => ⟨v.id, v.arr.map (Rnd.round f)⟩

theorem toFormat_pt (f : FloatFormat) {p : Prim Flt} {a : ℝ × ℝ} (h : IsPoint p a) :
    PointAt (toFormat f p) (Rnd.round f (fin a.1), Rnd.round f (fin a.2)) := by
  obtain ⟨h1, h2⟩ := h
  refine ⟨by rw [toFormat, Node.ty_mapV]; exact h1, ?_⟩
  rw [toFormat, Node.value_mapV, h2]
  rfl

/-- C99: after conversion, `Coincident` is computed to be satisfied exactly if the *rounded* coordinates of the
two points are the same (and do not overflow). -/
theorem C99_conversion {f : FloatFormat} (hf : f.Gradual) {p q : Prim Flt} {a b : ℝ × ℝ} (hp : IsPoint p a)
    (hq : IsPoint q b) : Vanishes (.ok ct.coincident) [toFormat f p, toFormat f q] [] ↔
      f.rnd a.1 = f.rnd b.1 ∧ f.rnd a.2 = f.rnd b.2 ∧ f.Fits a.1 ∧ f.Fits a.2 := by
  have hp' := toFormat_pt f hp
  have hq' := toFormat_pt f hq
  have e : ct.coincidentA [toFormat f p, toFormat f q] = .ok (.vec
      [Rnd.round f (fin b.1) - Rnd.round f (fin a.1), Rnd.round f (fin b.2) - Rnd.round f (fin a.2)]) := by
    simp only [ct.coincidentA, hp'.2, hq'.2]; rfl
  rw [vanishes_iff (r := ct.coincident) rfl (leaf0_call (.cons hp'.1 (.cons hq'.1 .nil)) e)]
  simp only [Arr.atleast1d, List.mem_cons, List.not_mem_nil, or_false, forall_eq_or_imp, forall_eq,
    hf.sub_val_zero]
  show ((f.rnd b.1 = f.rnd a.1 ∧ f.rnd b.1 ≠ bad) ∧ f.rnd b.2 = f.rnd a.2 ∧ f.rnd b.2 ≠ bad) ↔ _
  unfold FloatFormat.Fits
  constructor
  · rintro ⟨⟨h1, h2⟩, h3, h4⟩
    exact ⟨h1.symm, h3.symm, by rwa [← h1], by rwa [← h3]⟩
  · rintro ⟨h1, h3, h2, h4⟩
    exact ⟨⟨h1.symm, by rwa [← h1]⟩, h3.symm, by rwa [← h3]⟩

/-- Numbers of `float32` that are greater than one are at least `1 + 2 ^ -23`. -/
theorem next32 {y : ℝ} (hy : y ∈ binary32.nums) (h1 : 1 < y) : 1 + (2 : ℝ) ^ (-23 : ℤ) ≤ y := by
  obtain ⟨m, e, h0, h2, h3, rfl⟩ := hy
  have he : -23 ≤ e := by
    by_contra he
    have h4 : (2 : ℝ) ^ e ≤ (2 : ℝ) ^ (-24 : ℤ) := zpow_le_zpow_right₀ (by norm_num) (by omega)
    have h5 : (m : ℝ) < 2 ^ 24 := by exact_mod_cast (abs_lt.mp h0).2
    have h6 : (0:ℝ) < (2 : ℝ) ^ e := zpow_pos (by norm_num) _
    have h7 : ((2 : ℝ) ^ 24) * (2 : ℝ) ^ (-24 : ℤ) = 1 := by norm_num
    have h8 : (m : ℝ) * (2 : ℝ) ^ e < 2 ^ 24 * (2 : ℝ) ^ e := mul_lt_mul_of_pos_right h5 h6
    have h9 : (2 : ℝ) ^ 24 * (2 : ℝ) ^ e ≤ 2 ^ 24 * (2 : ℝ) ^ (-24 : ℤ) :=
      mul_le_mul_of_nonneg_left h4 (by norm_num)
    linarith
  obtain ⟨j, hj⟩ : ∃ j : ℤ, (m : ℝ) * (2 : ℝ) ^ e = j * (2 : ℝ) ^ (-23 : ℤ) := by
    refine ⟨m * 2 ^ (e - -23).toNat, ?_⟩
    push_cast
    rw [mul_assoc, ← zpow_natCast, Int.toNat_of_nonneg (by omega), ← zpow_add₀ (by norm_num)]
    congr 2
    omega
  rw [hj] at h1 ⊢
  have h7 : (2 ^ 23 : ℝ) * (2 : ℝ) ^ (-23 : ℤ) = 1 := by norm_num
  have h6 : (0:ℝ) < (2 : ℝ) ^ (-23 : ℤ) := zpow_pos (by norm_num) _
  have h8 : (2 ^ 23 : ℝ) < j := by
    by_contra hc
    have := mul_le_mul_of_nonneg_right (not_lt.mp hc) h6.le
    linarith
  have h9 : (2 ^ 23 : ℝ) + 1 ≤ j := by
    have : (2 ^ 23 : ℤ) < j := by exact_mod_cast h8
    exact_mod_cast (by omega : (2 ^ 23 : ℤ) + 1 ≤ j)
  have := mul_le_mul_of_nonneg_right h9 h6.le
  linarith

/-- Slightly more than one is one in `float32`. -/
theorem rnd32_one {x : ℝ} (h0 : 1 ≤ x) (h1 : x < 1 + (2 : ℝ) ^ (-24 : ℤ)) : binary32.rnd x = fin 1 := by
  rcases h0.eq_or_lt with rfl | hlt
  · exact binary32.rnd_of_mem 1 binary32.one_mem
  have hpos : (0:ℝ) < (2 : ℝ) ^ (-149 : ℤ) := zpow_pos (by norm_num) _
  have hF := binary_mul (p := 24) (lo := -149) (hi := 104) (by norm_num)
  have e24 : (2 : ℝ) ^ (-23 : ℤ) = 2 * (2 : ℝ) ^ (-24 : ℤ) := by norm_num
  have p24 : (0:ℝ) < (2 : ℝ) ^ (-24 : ℤ) := zpow_pos (by norm_num) _
  have m1 : (1 + (2 : ℝ) ^ (-23 : ℤ)) ∈ binary32.nums := by
    refine ⟨2 ^ 23 + 1, -23, by norm_num, by norm_num, by norm_num, by norm_num⟩
  have hb : below binary32.nums x = 1 := by
    refine (below_greatest hpos hF binary32.one_mem h0).unique ⟨⟨binary32.one_mem, h0⟩, ?_⟩
    rintro y ⟨hy, hyx⟩
    by_contra hc
    have := next32 hy (not_le.mp hc)
    linarith
  have ha : above binary32.nums x = 1 + (2 : ℝ) ^ (-23 : ℤ) := by
    refine (above_least hpos hF m1 (by linarith)).unique ⟨⟨m1, by linarith⟩, ?_⟩
    rintro y ⟨hy, hyx⟩
    exact next32 hy (by linarith)
  have hmax := binary_le_max m1
  rw [abs_of_pos (by linarith)] at hmax
  show roundEven 24 (-149) 104 x = _
  rw [roundEven_of_le (by rw [abs_of_pos (by linarith)]; linarith)]
  congr 1
  have hb' : below (binaryNums 24 (-149) 104) x = 1 := hb
  have ha' : above (binaryNums 24 (-149) 104) x = 1 + (2 : ℝ) ^ (-23 : ℤ) := ha
  unfold nearest
  rw [hb', ha', if_pos (by linarith)]

/-- C99: in `float32`, the precision in which the solver computes residuals, two points of a layout can be
computed to coincide although their coordinates differ by `2 ^ -25`, about `3 * 10 ^ -8`: much more than the
default tolerance `10 ^ -10`. -/
theorem C99_single_precision : ∃ p q : Prim Flt, IsPoint p (1, 0) ∧ IsPoint q (1 + 1 / 2 ^ 25, 0) ∧
    (1 : ℝ) / 10 ^ 10 < 1 / 2 ^ 25 ∧
    ¬ Satisfied ct.coincident [p, q] [] ∧
    Vanishes (.ok ct.coincident) [toFormat binary32 p, toFormat binary32 q] [] := by
  refine ⟨realPoint (1, 0), realPoint (1 + 1 / 2 ^ 25, 0), isPoint_realPoint _, isPoint_realPoint _,
    by norm_num, ?_, ?_⟩
  · intro h
    have := (C32_coincident (isPoint_realPoint _) (isPoint_realPoint _)).mp h
    have := congrArg Prod.fst this
    norm_num at this
  · rw [C99_conversion C99_ieee.2.2.1 (isPoint_realPoint _) (isPoint_realPoint _)]
    have h1 : binary32.rnd 1 = fin 1 := binary32.rnd_of_mem 1 binary32.one_mem
    have h2 : binary32.rnd (1 + 1 / 2 ^ 25) = fin 1 := rnd32_one (by norm_num) (by norm_num)
    have h3 : binary32.rnd 0 = fin 0 := binary32.rnd_of_mem 0 binary32.zero_mem
    refine ⟨by rw [h1, h2], rfl, ?_, ?_⟩
    · show binary32.rnd 1 ≠ bad
      rw [h1]; simp
    · show binary32.rnd 0 ≠ bad
      rw [h3]; simp

end MplLayout.Props
