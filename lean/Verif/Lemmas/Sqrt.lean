import Verif.Lemmas.Ieee

/-! The computed root of a computed square. -/

namespace MplLayout

open Flt

theorem nearest_le {F : Set ℝ} {u : ℝ} {even : ℝ → Prop} (hu : 0 < u) (hF : ∀ x ∈ F, ∃ k : ℤ, x = k * u)
    {x m w : ℝ} (hm : m ∈ F) (hmx : m ≤ x) (hw : w ∈ F) (hxw : x ≤ w) (z : ℝ) (hz : z ∈ F) :
    |nearest F even x - x| ≤ |z - x| := by
  have hb := below_greatest hu hF hm hmx
  have ha := above_least hu hF hw hxw
  have b1 := hb.1.2
  have a1 := ha.1.2
  have key : min (x - below F x) (above F x - x) ≤ |z - x| := by
    rcases le_total z x with h | h
    · have := hb.2 ⟨hz, h⟩
      rw [abs_of_nonpos (by linarith)]
      exact (min_le_left _ _).trans (by linarith)
    · have := ha.2 ⟨hz, h⟩
      rw [abs_of_nonneg (by linarith)]
      exact (min_le_right _ _).trans (by linarith)
  refine le_trans ?_ key
  unfold nearest
  split_ifs with h1 h2 h3
  · rw [abs_of_nonpos (by linarith), min_eq_left (by linarith)]; linarith
  · rw [abs_of_nonneg (by linarith), min_eq_right (by linarith)]
  · rw [abs_of_nonpos (by linarith), min_eq_left (by linarith)]; linarith
  · rw [abs_of_nonneg (by linarith), min_eq_right (by linarith)]

section
variable {p : Nat} {lo hi : ℤ} {hp : 1 ≤ p} {hlo : lo ≤ 0} {hhi : 0 ≤ hi}

theorem ieee_nearest {x : ℝ} (hx : |x| ≤ maxNum p hi) : ∃ y ∈ binaryNums p lo hi,
    (ieee p lo hi hp hlo hhi).rnd x = fin y ∧ ∀ z ∈ binaryNums p lo hi, |y - x| ≤ |z - x| := by
  have hpos : (0:ℝ) < (2 : ℝ) ^ lo := zpow_pos (by norm_num) _
  have hF := binary_mul (p := p) (hlo.trans hhi)
  have hm := binary_max (p := p) (hlo.trans hhi)
  have hx' := abs_le.mp hx
  refine ⟨_, nearest_mem hpos hF (binary_neg hm) hx'.1 hm hx'.2, roundEven_of_le hx,
    nearest_le hpos hF (binary_neg hm) hx'.1 hm hx'.2⟩

theorem two_le_pow : (2 : ℤ) ≤ 2 ^ p ↔ 1 ≤ p := by
  constructor
  · intro h
    by_contra h0
    obtain rfl : p = 0 := by omega
    simp at h
  · intro h
    calc (2 : ℤ) = 2 ^ 1 := by norm_num
      _ ≤ 2 ^ p := pow_le_pow_right₀ (by norm_num) h

/-- A positive number of the format, with a normalized significand (the exponent may be too small for the
format). -/
theorem normalize {x : ℝ} (h0 : 0 < x) (hx : x ∈ binaryNums p lo hi) :
    ∃ m e : ℤ, 2 ^ (p - 1) ≤ m ∧ m < 2 ^ p ∧ x = m * (2 : ℝ) ^ e := by
  obtain ⟨m, e, hm, h1, h2, rfl⟩ := hx
  have hpos : (0:ℝ) < (2 : ℝ) ^ e := zpow_pos (by norm_num) _
  have hm0 : 0 < m := by
    have : (0 : ℝ) < m := by
      by_contra h
      have : (m : ℝ) ≤ 0 := not_lt.mp h
      nlinarith
    exact_mod_cast this
  rw [abs_of_pos hm0] at hm
  -- the number of digits to shift
  have key : ∀ (n : Nat) (m e : ℤ), 0 < m → m < 2 ^ p → (2 ^ p - m).toNat ≤ n →
      ∃ m' e' : ℤ, 2 ^ (p - 1) ≤ m' ∧ m' < 2 ^ p ∧ (m : ℝ) * 2 ^ e = m' * (2 : ℝ) ^ e' := by
    intro n
    induction n with
    | zero => intro m e h0 h1 h2; omega
    | succ n ih =>
      intro m e h0 h1 h2
      by_cases h : 2 ^ (p - 1) ≤ m
      · exact ⟨m, e, h, h1, rfl⟩
      · have hp1 : (2 : ℤ) ^ p = 2 * 2 ^ (p - 1) ∨ p = 0 := by
          rcases Nat.eq_zero_or_pos p with h | h
          · exact Or.inr h
          · left
            obtain ⟨k, rfl⟩ : ∃ k, p = k + 1 := ⟨p - 1, by omega⟩
            simp [pow_succ]; ring
        rcases hp1 with hp1 | rfl
        · obtain ⟨m', e', a, b, c⟩ := ih (2 * m) (e - 1) (by omega) (by omega) (by omega)
          refine ⟨m', e', a, b, ?_⟩
          rw [← c, zpow_sub₀ (by norm_num)]
          push_cast
          ring
        · simp at h; omega
  obtain ⟨m', e', a, b, c⟩ := key _ m e hm0 hm le_rfl
  exact ⟨m', e', a, b, c⟩

/-- Close to a number that is not a power of two there is no other number. -/
theorem isolated {m e : ℤ} (hm : 2 ^ (p - 1) < m) (hp : 1 ≤ p) {z : ℝ} (hz : z ∈ binaryNums p lo hi)
    (h : |z - m * (2 : ℝ) ^ e| < (2 : ℝ) ^ e) : z = m * (2 : ℝ) ^ e := by
  obtain ⟨k, j, hk, h1, h2, rfl⟩ := hz
  have hpos : (0:ℝ) < (2 : ℝ) ^ e := zpow_pos (by norm_num) _
  rw [abs_lt] at h
  have hm' : ((2 : ℝ) ^ (p - 1)) + 1 ≤ m := by exact_mod_cast hm
  by_cases hj : e ≤ j
  · -- a multiple of `2 ^ e`
    have e1 : (k : ℝ) * 2 ^ j = ((k * 2 ^ (j - e).toNat : ℤ) : ℝ) * 2 ^ e := by
      push_cast
      rw [mul_assoc, ← zpow_natCast, Int.toNat_of_nonneg (by omega), ← zpow_add₀ (by norm_num)]
      congr 2
      omega
    rw [e1] at h ⊢
    generalize k * 2 ^ (j - e).toNat = n at *
    have a1 : (n : ℝ) - m < 1 := by nlinarith
    have a2 : -1 < (n : ℝ) - m := by nlinarith
    have b1 : n - m < 1 := by exact_mod_cast a1
    have b2 : -1 < n - m := by exact_mod_cast a2
    have : n = m := by omega
    rw [this]
  · exfalso
    have h3 : (2 : ℝ) ^ j ≤ 2 ^ (e - 1) := zpow_le_zpow_right₀ (by norm_num) (by omega)
    have h4 : (k : ℝ) ≤ 2 ^ p := by
      have : k < 2 ^ p := lt_of_le_of_lt (le_abs_self k) hk
      exact_mod_cast this.le
    have h5 : (2 : ℝ) ^ p * 2 ^ (e - 1) = 2 ^ (p - 1) * 2 ^ e := by
      obtain ⟨q, rfl⟩ : ∃ q, p = q + 1 := ⟨p - 1, by omega⟩
      rw [zpow_sub₀ (by norm_num), pow_succ]
      simp only [Nat.add_sub_cancel, zpow_one]
      ring
    have h6 : (k : ℝ) * 2 ^ j ≤ 2 ^ p * 2 ^ (e - 1) :=
      mul_le_mul h4 h3 (zpow_nonneg (by norm_num) _) (by positivity)
    nlinarith

/-- A number with at most `p` digits and an admissible exponent. -/
theorem binary_mk {k e : ℤ} (h0 : 0 ≤ k) (hk : k ≤ 2 ^ p) (hp : 1 ≤ p) (h1 : lo ≤ e) (h2 : e + 1 ≤ hi) :
    (k : ℝ) * 2 ^ e ∈ binaryNums p lo hi := by
  rcases hk.lt_or_eq with hk | rfl
  · exact ⟨k, e, by rwa [abs_of_nonneg h0], h1, by omega, rfl⟩
  · refine ⟨2 ^ (p - 1), e + 1, ?_, by omega, h2, ?_⟩
    · rw [abs_of_pos (by positivity)]
      exact pow_lt_pow_right₀ (by norm_num) (by omega)
    · obtain ⟨q, rfl⟩ : ∃ q, p = q + 1 := ⟨p - 1, by omega⟩
      rw [zpow_add₀ (by norm_num)]
      push_cast
      simp only [Nat.add_sub_cancel, pow_succ, zpow_one]
      ring

/-- Some number of the format lies within half a unit. -/
theorem close {n : ℤ} {s : Nat} {e : ℤ} (hn : 0 ≤ n) (hs : n ≤ 2 ^ (p + s)) (hp : 1 ≤ p) (h1 : lo ≤ e + s)
    (h2 : e + s + 1 ≤ hi) : ∃ z ∈ binaryNums p lo hi, |z - n * (2 : ℝ) ^ e| ≤ (2 : ℝ) ^ s / 2 * 2 ^ e := by
  have hpos : (0:ℝ) < (2 : ℝ) ^ e := zpow_pos (by norm_num) _
  have h2s : (0 : ℤ) < 2 ^ s := by positivity
  let k := (2 * n + 2 ^ s) / (2 * 2 ^ s)
  have k0 : 0 ≤ k := Int.ediv_nonneg (by omega) (by omega)
  have d1 : (2 * 2 ^ s) * k + (2 * n + 2 ^ s) % (2 * 2 ^ s) = 2 * n + 2 ^ s := Int.mul_ediv_add_emod _ _
  have d2 : 0 ≤ (2 * n + 2 ^ s) % (2 * 2 ^ s) := Int.emod_nonneg _ (by omega)
  have d3 : (2 * n + 2 ^ s) % (2 * 2 ^ s) < 2 * 2 ^ s := Int.emod_lt_of_pos _ (by omega)
  have kp : k ≤ 2 ^ p := by
    have : (2 : ℤ) ^ (p + s) = 2 ^ p * 2 ^ s := pow_add _ _ _
    by_contra h
    have : 2 ^ p + 1 ≤ k := by omega
    nlinarith
  refine ⟨(k : ℝ) * 2 ^ (e + s), binary_mk k0 kp hp h1 (by omega), ?_⟩
  have e1 : (k : ℝ) * 2 ^ (e + s) - n * 2 ^ e = (k * 2 ^ s - n) * 2 ^ e := by
    rw [zpow_add₀ (by norm_num), zpow_natCast]; ring
  rw [e1, abs_mul, abs_of_pos hpos]
  refine mul_le_mul_of_nonneg_right ?_ hpos.le
  rw [abs_le]
  have f1 : 2 * ((k : ℝ) * 2 ^ s) ≤ 2 * n + 2 ^ s := by
    have : 2 * (k * 2 ^ s) ≤ 2 * n + 2 ^ s := by nlinarith
    exact_mod_cast this
  have f2 : 2 * (n : ℝ) ≤ 2 * (k * 2 ^ s) + 2 ^ s := by
    have : 2 * n ≤ 2 * (k * 2 ^ s) + 2 ^ s := by nlinarith
    exact_mod_cast this
  constructor <;> linarith

theorem zpow_lt_iff {a b : ℤ} (h : (2 : ℝ) ^ a < 2 ^ b) : a < b := (zpow_lt_zpow_iff_right₀ (by norm_num)).mp h

set_option maxHeartbeats 1000000 in
/-- If the square of a number neither underflows nor overflows, the computed root of the computed square is the
number again. -/
theorem sqrt_sq_rnd {x : ℝ} (h0 : 0 < x) (hx : x ∈ binaryNums p lo hi) (hlow : minNormal p lo ≤ x * x)
    (hhigh : 2 * (x * x) ≤ maxNum p hi) : ∃ y, 0 ≤ y ∧ (ieee p lo hi hp hlo hhi).rnd (x * x) = fin y ∧
      (ieee p lo hi hp hlo hhi).rnd (Real.sqrt y) = fin x := by
  obtain ⟨m, e, m1, m2, hxm⟩ := normalize h0 hx
  have hpe : (0:ℝ) < (2 : ℝ) ^ e := zpow_pos (by norm_num) _
  have hpe2 : (0:ℝ) < (2 : ℝ) ^ (2 * e) := zpow_pos (by norm_num) _
  have e2 : (2 : ℝ) ^ (2 * e) = 2 ^ e * 2 ^ e := by rw [two_mul, zpow_add₀ (by norm_num)]
  obtain ⟨q, rfl⟩ : ∃ q, p = q + 1 := ⟨p - 1, by omega⟩
  simp only [Nat.add_sub_cancel] at m1
  have hxx : x * x = ((m * m : ℤ) : ℝ) * 2 ^ (2 * e) := by rw [hxm, e2]; push_cast; ring
  have q0 : (1 : ℤ) ≤ 2 ^ q := one_le_pow₀ (by norm_num)
  have m2' : m + 1 ≤ 2 * 2 ^ q := by rw [pow_succ] at m2; omega
  -- the size of the square
  obtain ⟨s, hs, n1, n2⟩ : ∃ s : Nat, (s = q ∨ (s = q + 1 ∧ 2 ^ q < m)) ∧ 2 ^ (q + s) ≤ m * m ∧
      m * m < 2 ^ (q + 1 + s) := by
    by_cases h : m * m < 2 ^ (q + 1 + q)
    · refine ⟨q, Or.inl rfl, ?_, h⟩
      rw [pow_add]
      exact mul_le_mul m1 m1 (by positivity) (by linarith)
    · refine ⟨q + 1, Or.inr ⟨rfl, ?_⟩, ?_, ?_⟩
      · rcases m1.lt_or_eq with h1 | h1
        · exact h1
        · exfalso
          apply h
          rw [← h1, ← pow_add]
          exact pow_lt_pow_right₀ (by norm_num) (by omega)
      · rw [not_lt] at h
        rwa [show q + (q + 1) = q + 1 + q by ring]
      · rw [pow_add]
        exact mul_lt_mul'' m2 m2 (by linarith) (by linarith)
  have n1' : (2 : ℝ) ^ (q + s) ≤ ((m * m : ℤ) : ℝ) := by exact_mod_cast n1
  have n2' : ((m * m : ℤ) : ℝ) < (2 : ℝ) ^ (q + 1 + s) := by exact_mod_cast n2
  -- the exponents are admissible
  have g1 : lo ≤ 2 * e + s := by
    have : (2 : ℝ) ^ (lo + ((q + 1 : ℕ) : ℤ) - 1) < 2 ^ (((q + 1 + s : ℕ) : ℤ) + 2 * e) := by
      rw [zpow_add₀ (by norm_num), zpow_natCast]
      refine lt_of_le_of_lt (hlow.trans hxx.le) ?_
      exact mul_lt_mul_of_pos_right n2' hpe2
    have := zpow_lt_iff this
    push_cast at this
    omega
  have g2 : 2 * e + s + 1 ≤ hi := by
    have hmax : maxNum (q + 1) hi < 2 ^ (((q + 1 : ℕ) : ℤ) + hi) := by
      unfold maxNum
      rw [zpow_add₀ (by norm_num), zpow_natCast]
      have : (0 : ℝ) < (2 : ℝ) ^ hi := zpow_pos (by norm_num) _
      nlinarith
    have : (2 : ℝ) ^ (((q + s + 1 : ℕ) : ℤ) + 2 * e) < 2 ^ (((q + 1 : ℕ) : ℤ) + hi) := by
      refine lt_of_le_of_lt ?_ hmax
      refine le_trans ?_ hhigh
      rw [zpow_add₀ (by norm_num), zpow_natCast, hxx, pow_succ]
      nlinarith
    have := zpow_lt_iff this
    push_cast at this
    omega
  obtain ⟨z, hz, hzd⟩ := close (n := m * m) (lo := lo) (hi := hi) (p := q + 1) (mul_self_nonneg m) n2.le hp g1 g2
  rw [← hxx] at hzd
  have hxmax : |x * x| ≤ maxNum (q + 1) hi := by
    rw [abs_of_pos (by positivity)]
    nlinarith
  obtain ⟨y, hy, hry, hmin⟩ := ieee_nearest (hp := hp) (hlo := hlo) (hhi := hhi) hxmax
  have hyd : |y - x * x| ≤ (2 : ℝ) ^ s / 2 * 2 ^ (2 * e) := (hmin z hz).trans hzd
  -- scale
  obtain ⟨Y, hY⟩ : ∃ Y, y = Y * 2 ^ (2 * e) := ⟨y / 2 ^ (2 * e), by field_simp⟩
  have hYd : |Y - ((m * m : ℤ) : ℝ)| ≤ (2 : ℝ) ^ s / 2 := by
    rw [hY, hxx, ← sub_mul, abs_mul, abs_of_pos hpe2] at hyd
    exact le_of_mul_le_mul_right hyd hpe2
  rw [abs_le] at hYd
  have s0 : (0 : ℝ) < 2 ^ s := by positivity
  have q1 : (1 : ℝ) ≤ 2 ^ q := one_le_pow₀ (by norm_num)
  have hqs : (2 : ℝ) ^ (q + s) = 2 ^ q * 2 ^ s := pow_add _ _ _
  have hYpos : 0 < Y := by nlinarith
  have hroot : Real.sqrt y = Real.sqrt Y * 2 ^ e := by
    rw [hY, e2, Real.sqrt_mul hYpos.le, Real.sqrt_mul_self hpe.le]
  have hσ := Real.sqrt_pos.mpr hYpos
  have hσ2 : Real.sqrt Y * Real.sqrt Y = Y := Real.mul_self_sqrt hYpos.le
  generalize Real.sqrt Y = σ at hroot hσ hσ2
  have hy0 : 0 ≤ y := by rw [hY]; positivity
  refine ⟨y, hy0, hry, ?_⟩
  have m1' : (2 : ℝ) ^ q ≤ m := by exact_mod_cast m1
  rcases m1.lt_or_eq with hlt | heq
  · have hlt' : (2 : ℝ) ^ q < m := by exact_mod_cast hlt
    have hsum : (2 : ℝ) ^ s < σ + m := by
      rcases hs with rfl | ⟨rfl, _⟩
      · linarith
      · have : (2 : ℝ) ^ q ≤ σ := by
          by_contra hc
          rw [not_le] at hc
          have h1 : Y < 2 ^ q * 2 ^ q := by rw [← hσ2]; exact mul_lt_mul'' hc hc hσ.le hσ.le
          rw [hqs, pow_succ] at n1'
          rw [pow_succ] at hYd
          nlinarith
        rw [pow_succ]
        linarith
    have hm0 : (0 : ℝ) < m := by linarith
    have hd : |σ - m| < 1 / 2 := by
      have h1 : (σ - m) * (σ + m) = Y - ((m * m : ℤ) : ℝ) := by push_cast; rw [← hσ2]; ring
      rw [abs_lt]
      constructor
      · by_contra hc
        rw [not_lt] at hc
        have := mul_le_mul_of_nonneg_right hc (show (0 : ℝ) ≤ σ + m by linarith)
        linarith
      · by_contra hc
        rw [not_lt] at hc
        have := mul_le_mul_of_nonneg_right hc (show (0 : ℝ) ≤ σ + m by linarith)
        linarith
    have hd' : |x - Real.sqrt y| < 2 ^ e / 2 := by
      rw [hroot, hxm, abs_sub_comm, ← sub_mul, abs_mul, abs_of_pos hpe]
      calc |σ - m| * 2 ^ e < 1 / 2 * 2 ^ e := mul_lt_mul_of_pos_right hd hpe
        _ = 2 ^ e / 2 := by ring
    have hymax : |Real.sqrt y| ≤ maxNum (q + 1) hi := by
      have h1 : y ≤ maxNum (q + 1) hi := (le_abs_self y).trans (binary_le_max hy)
      have h2 : (1 : ℝ) ≤ maxNum (q + 1) hi :=
        (le_abs_self 1).trans (binary_le_max (ieee (q + 1) lo hi hp hlo hhi).one_mem)
      rw [abs_of_nonneg (Real.sqrt_nonneg _)]
      refine Real.sqrt_le_iff.mpr ⟨by linarith, h1.trans ?_⟩
      rw [sq]
      exact le_mul_of_one_le_left (by linarith) h2
    obtain ⟨w, hw, hrw, hwmin⟩ := ieee_nearest (hp := hp) (hlo := hlo) (hhi := hhi) hymax
    rw [hrw]
    congr 1
    rw [hxm]
    refine isolated (by simpa using hlt) hp hw ?_
    rw [← hxm]
    have := hwmin x hx
    calc |w - x| = |(w - Real.sqrt y) - (x - Real.sqrt y)| := by congr 1; ring
      _ ≤ |w - Real.sqrt y| + |x - Real.sqrt y| := abs_sub _ _
      _ < 2 ^ e := by linarith
  · -- a power of two
    have hsq : s = q := by
      rcases hs with h | ⟨_, h⟩
      · exact h
      · omega
    have hmem : x * x ∈ binaryNums (q + 1) lo hi := by
      have := binary_mk (lo := lo) (hi := hi) (k := 2 ^ q) (e := 2 * e + s) (p := q + 1) (by positivity)
        (by rw [pow_succ]; omega) hp g1 (by omega)
      rw [hxx, ← heq]
      convert this using 1
      rw [zpow_add₀ (by norm_num), zpow_natCast, hsq]
      push_cast
      ring
    have : y = x * x := by
      have h1 := (ieee (q + 1) lo hi hp hlo hhi).rnd_of_mem _ hmem
      rw [hry] at h1
      exact fin_inj.mp h1
    rw [this, Real.sqrt_mul_self h0.le]
    exact (ieee (q + 1) lo hi hp hlo hhi).rnd_of_mem _ hx

end

end MplLayout
