import Verif.Lemmas.Round

/-! Rounding to nearest in the IEEE 754 formats. -/

namespace MplLayout

open Flt

section nearest
variable {F : Set ℝ} {u : ℝ}

theorem below_greatest (hu : 0 < u) (hF : ∀ x ∈ F, ∃ k : ℤ, x = k * u) {x m : ℝ} (hm : m ∈ F) (hx : m ≤ x) :
    IsGreatest {y | y ∈ F ∧ y ≤ x} (below F x) := by
  obtain ⟨k0, hk0⟩ := hF m hm
  obtain ⟨k, hk, hmax⟩ := Int.exists_greatest_of_bdd (P := fun k : ℤ => (k * u : ℝ) ∈ F ∧ (k * u : ℝ) ≤ x)
    ⟨⌊x / u⌋, fun z hz => Int.le_floor.mpr (by rw [le_div_iff₀ hu]; exact hz.2)⟩
    ⟨k0, by rw [← hk0]; exact ⟨hm, hx⟩⟩
  have : IsGreatest {y | y ∈ F ∧ y ≤ x} (k * u) := by
    refine ⟨hk, fun y hy => ?_⟩
    obtain ⟨j, rfl⟩ := hF y hy.1
    have := hmax j hy
    have : (j : ℝ) ≤ k := by exact_mod_cast this
    exact mul_le_mul_of_nonneg_right this hu.le
  unfold below
  rw [this.csSup_eq]
  exact this

theorem above_least (hu : 0 < u) (hF : ∀ x ∈ F, ∃ k : ℤ, x = k * u) {x m : ℝ} (hm : m ∈ F) (hx : x ≤ m) :
    IsLeast {y | y ∈ F ∧ x ≤ y} (above F x) := by
  obtain ⟨k0, hk0⟩ := hF m hm
  obtain ⟨k, hk, hmin⟩ := Int.exists_least_of_bdd (P := fun k : ℤ => (k * u : ℝ) ∈ F ∧ x ≤ (k * u : ℝ))
    ⟨⌈x / u⌉, fun z hz => Int.ceil_le.mpr (by rw [div_le_iff₀ hu]; exact hz.2)⟩
    ⟨k0, by rw [← hk0]; exact ⟨hm, hx⟩⟩
  have : IsLeast {y | y ∈ F ∧ x ≤ y} (k * u) := by
    refine ⟨hk, fun y hy => ?_⟩
    obtain ⟨j, rfl⟩ := hF y hy.1
    have := hmin j hy
    have : (k : ℝ) ≤ j := by exact_mod_cast this
    exact mul_le_mul_of_nonneg_right this hu.le
  unfold above
  rw [this.csInf_eq]
  exact this

theorem nearest_or (F : Set ℝ) (even : ℝ → Prop) (x : ℝ) :
    nearest F even x = below F x ∨ nearest F even x = above F x := by
  unfold nearest
  split_ifs <;> simp

variable {M : ℝ} {even : ℝ → Prop}

theorem nearest_mem (hu : 0 < u) (hF : ∀ x ∈ F, ∃ k : ℤ, x = k * u) {x m w : ℝ} (hm : m ∈ F) (hmx : m ≤ x)
    (hw : w ∈ F) (hxw : x ≤ w) : nearest F even x ∈ F := by
  have h1 := (below_greatest hu hF hm hmx).1.1
  have h2 := (above_least hu hF hw hxw).1.1
  rcases nearest_or F even x with e | e <;> rw [e] <;> assumption

theorem nearest_of_mem (hu : 0 < u) (hF : ∀ x ∈ F, ∃ k : ℤ, x = k * u) {x : ℝ} (hx : x ∈ F) :
    nearest F even x = x := by
  have h1 : below F x = x := ((below_greatest hu hF hx le_rfl).unique ⟨⟨hx, le_rfl⟩, fun y hy => hy.2⟩)
  have h2 : above F x = x := ((above_least hu hF hx le_rfl).unique ⟨⟨hx, le_rfl⟩, fun y hy => hy.2⟩)
  rcases nearest_or F even x with e | e <;> rw [e] <;> assumption

theorem nearest_mono (hu : 0 < u) (hF : ∀ x ∈ F, ∃ k : ℤ, x = k * u) {x y m w : ℝ} (hm : m ∈ F) (hmx : m ≤ x)
    (hw : w ∈ F) (hyw : y ≤ w) (hxy : x ≤ y) : nearest F even x ≤ nearest F even y := by
  have bx := below_greatest hu hF hm hmx
  have ax := above_least hu hF hw (hxy.trans hyw)
  have bY := below_greatest hu hF hm (hmx.trans hxy)
  have ay := above_least hu hF hw hyw
  by_cases hz : ∃ z ∈ F, x ≤ z ∧ z ≤ y
  · obtain ⟨z, hz, h1, h2⟩ := hz
    have e1 : above F x ≤ z := ax.2 ⟨hz, h1⟩
    have e2 : z ≤ below F y := bY.2 ⟨hz, h2⟩
    have e3 : below F x ≤ above F x := bx.1.2.trans ax.1.2
    have e4 : below F y ≤ above F y := bY.1.2.trans ay.1.2
    rcases nearest_or F even x with e | e <;> rcases nearest_or F even y with e' | e' <;>
      rw [e, e'] <;> linarith
  · have e1 : below F x = below F y := by
      unfold below
      congr 1
      ext z
      constructor
      · rintro ⟨h1, h2⟩; exact ⟨h1, h2.trans hxy⟩
      · rintro ⟨h1, h2⟩
        refine ⟨h1, ?_⟩
        by_contra h
        exact hz ⟨z, h1, (not_le.mp h).le, h2⟩
    have e2 : above F x = above F y := by
      unfold above
      congr 1
      ext z
      constructor
      · rintro ⟨h1, h2⟩
        refine ⟨h1, ?_⟩
        by_contra h
        exact hz ⟨z, h1, h2, (not_le.mp h).le⟩
      · rintro ⟨h1, h2⟩; exact ⟨h1, hxy.trans h2⟩
    have e3 : below F y ≤ above F y := bY.1.2.trans ay.1.2
    unfold nearest
    rw [e1, e2]
    split_ifs <;> linarith

end nearest

section ieee
variable {p : Nat} {lo hi : ℤ}

theorem binary_mul (h : lo ≤ hi) : ∀ x ∈ binaryNums p lo hi, ∃ k : ℤ, x = k * (2 : ℝ) ^ lo := by
  rintro x ⟨m, e, _, h1, _, rfl⟩
  refine ⟨m * 2 ^ (e - lo).toNat, ?_⟩
  push_cast
  rw [mul_assoc, ← zpow_natCast, Int.toNat_of_nonneg (by omega), ← zpow_add₀ (by norm_num)]
  congr 2
  omega

theorem binary_neg {x : ℝ} (h : x ∈ binaryNums p lo hi) : -x ∈ binaryNums p lo hi := by
  obtain ⟨m, e, h0, h1, h2, rfl⟩ := h
  exact ⟨-m, e, by rwa [abs_neg], h1, h2, by push_cast; ring⟩

theorem binary_max (h : lo ≤ hi) : maxNum p hi ∈ binaryNums p lo hi := by
  refine ⟨2 ^ p - 1, hi, ?_, h, le_rfl, by unfold maxNum; push_cast; ring⟩
  rw [abs_of_nonneg]
  · omega
  · have : (1 : ℤ) ≤ 2 ^ p := one_le_pow₀ (by norm_num)
    omega

theorem binary_le_max {x : ℝ} (h : x ∈ binaryNums p lo hi) : |x| ≤ maxNum p hi := by
  obtain ⟨m, e, h0, h1, h2, rfl⟩ := h
  rw [abs_mul, abs_of_pos (zpow_pos (by norm_num : (0:ℝ) < 2) e)]
  unfold maxNum
  have h3 : ((2 : ℝ) ^ e) ≤ 2 ^ hi := zpow_le_zpow_right₀ (by norm_num) h2
  have h4 : |(m : ℝ)| ≤ 2 ^ p - 1 := by
    have : |m| ≤ 2 ^ p - 1 := by omega
    have h5 : ((|m| : ℤ) : ℝ) ≤ ((2 ^ p - 1 : ℤ) : ℝ) := by exact_mod_cast this
    push_cast at h5
    exact h5
  exact mul_le_mul h4 h3 (zpow_nonneg (by norm_num) _) ((abs_nonneg _).trans h4)

theorem maxNum_nonneg : 0 ≤ maxNum p hi := by
  have : (1 : ℝ) ≤ 2 ^ p := one_le_pow₀ (by norm_num)
  exact mul_nonneg (by linarith) (zpow_nonneg (by norm_num) _)

/-- The clamped argument. -/
theorem clamp_mem (x : ℝ) : -maxNum p hi ≤ max (-maxNum p hi) (min (maxNum p hi) x) ∧
    max (-maxNum p hi) (min (maxNum p hi) x) ≤ maxNum p hi := by
  have := maxNum_nonneg (p := p) (hi := hi)
  exact ⟨le_max_left _ _, max_le (by linarith) (min_le_left _ _)⟩

theorem clamp_of_le {x : ℝ} (h : |x| ≤ maxNum p hi) :
    max (-maxNum p hi) (min (maxNum p hi) x) = x := by
  rw [abs_le] at h
  rw [min_eq_right h.2, max_eq_right h.1]

theorem half_pos' : (0 : ℝ) < (2 : ℝ) ^ hi / 2 := by
  have : (0:ℝ) < (2 : ℝ) ^ hi := zpow_pos (by norm_num) _
  linarith

theorem roundEven_of_le {x : ℝ} (h : |x| ≤ maxNum p hi) :
    roundEven p lo hi x = fin (nearest (binaryNums p lo hi) (EvenNum p lo) x) := by
  unfold roundEven
  rw [if_pos (lt_of_le_of_lt h (by linarith [half_pos' (hi := hi)])), clamp_of_le h]

/-- The IEEE 754 format with `p` binary digits and exponents of the last digit from `lo` to `hi`, with
rounding to nearest, ties to even. -/
noncomputable def ieee (p : Nat) (lo hi : ℤ) (hp : 1 ≤ p) (hlo : lo ≤ 0) (hhi : 0 ≤ hi) : FloatFormat where
  nums := binaryNums p lo hi
  rnd := roundEven p lo hi
  zero_mem := ⟨0, 0, by simp, hlo, hhi, by simp⟩
  one_mem := ⟨1, 0, by
    have : (2 : ℤ) ^ 1 ≤ 2 ^ p := pow_le_pow_right₀ (by norm_num) hp
    simp only [abs_one]; omega, hlo, hhi, by simp⟩
  neg_mem _ h := binary_neg h
  rnd_mem x y h := by
    unfold roundEven at h
    split_ifs at h
    cases h
    have hm := binary_max (p := p) (hlo.trans hhi)
    exact nearest_mem (zpow_pos (by norm_num : (0:ℝ) < 2) lo) (binary_mul (hlo.trans hhi))
      (binary_neg hm) (clamp_mem x).1 hm (clamp_mem x).2
  rnd_of_mem x h := by
    rw [roundEven_of_le (binary_le_max h),
      nearest_of_mem (zpow_pos (by norm_num : (0:ℝ) < 2) lo) (binary_mul (hlo.trans hhi)) h]
  mono x y a b hxy h1 h2 := by
    unfold roundEven at h1 h2
    split_ifs at h1 h2
    cases h1
    cases h2
    have hm := binary_max (p := p) (hlo.trans hhi)
    refine nearest_mono (zpow_pos (by norm_num : (0:ℝ) < 2) lo) (binary_mul (hlo.trans hhi))
      (binary_neg hm) (clamp_mem x).1 hm (clamp_mem y).2 ?_
    exact max_le_max le_rfl (min_le_min le_rfl hxy)
  fits x a b ha hb hax hxb := by
    have h1 := abs_le.mp (binary_le_max ha)
    have h2 := abs_le.mp (binary_le_max hb)
    rw [roundEven_of_le (abs_le.mpr ⟨by linarith, by linarith⟩)]
    simp

/-- `float64`. -/
noncomputable abbrev binary64 : FloatFormat := ieee 53 (-1074) 971 (by norm_num) (by norm_num) (by norm_num)

/-- `float32`. -/
noncomputable abbrev binary32 : FloatFormat := ieee 24 (-149) 104 (by norm_num) (by norm_num) (by norm_num)

variable {hp : 1 ≤ p} {hlo : lo ≤ 0} {hhi : 0 ≤ hi}

theorem ieee_gradual : (ieee p lo hi hp hlo hhi).Gradual := by
  refine ⟨(2 : ℝ) ^ lo, ⟨1, lo, ?_, le_rfl, hlo.trans hhi, by simp⟩, zpow_pos (by norm_num) _,
    binary_mul (hlo.trans hhi)⟩
  have : (2 : ℤ) ^ 1 ≤ 2 ^ p := pow_le_pow_right₀ (by norm_num) hp
  simp only [abs_one]; omega

theorem ieee_binary (hlo1 : lo ≤ -1) (hhi1 : 1 ≤ hi) : (ieee p lo hi hp hlo hhi).Binary := by
  refine ⟨⟨1, -1, ?_, hlo1, by omega, by norm_num⟩, ⟨1, 1, ?_, by omega, hhi1, by norm_num⟩, ?_⟩
  · have : (2 : ℤ) ^ 1 ≤ 2 ^ p := pow_le_pow_right₀ (by norm_num) hp
    simp only [abs_one]; omega
  · have : (2 : ℤ) ^ 1 ≤ 2 ^ p := pow_le_pow_right₀ (by norm_num) hp
    simp only [abs_one]; omega
  · rintro x ⟨m, e, h0, h1, h2, rfl⟩ hfit
    by_cases he : e + 1 ≤ hi
    · refine ⟨m, e + 1, h0, by omega, he, ?_⟩
      rw [zpow_add₀ (by norm_num)]; ring
    · obtain rfl : e = hi := by omega
      refine ⟨2 * m, e, ?_, h1, le_rfl, by push_cast; ring⟩
      by_contra hge
      apply hfit
      show roundEven p lo e _ = bad
      unfold roundEven
      rw [if_neg]
      rw [not_lt]
      have h3 : (2 : ℤ) ^ p ≤ |2 * m| := not_lt.mp hge
      have h4 : (2 : ℝ) ^ p ≤ |2 * (m : ℝ)| := by
        have : ((2 ^ p : ℤ) : ℝ) ≤ ((|2 * m| : ℤ) : ℝ) := by exact_mod_cast h3
        push_cast at this
        exact this
      have hpos : (0:ℝ) < (2 : ℝ) ^ e := zpow_pos (by norm_num) _
      rw [← mul_assoc, abs_mul, abs_of_pos hpos]
      unfold maxNum
      have := mul_le_mul_of_nonneg_right h4 hpos.le
      nlinarith

/-- Less than half of the smallest positive number is rounded to zero. -/
theorem ieee_tiny {x : ℝ} (h0 : 0 ≤ x) (h1 : x < (2 : ℝ) ^ lo / 2) :
    (ieee p lo hi hp hlo hhi).rnd x = fin 0 := by
  have hpos : (0:ℝ) < (2 : ℝ) ^ lo := zpow_pos (by norm_num) _
  have hF := binary_mul (p := p) (hlo.trans hhi)
  have z : (0 : ℝ) ∈ binaryNums p lo hi := (ieee p lo hi hp hlo hhi).zero_mem
  have um : (2 : ℝ) ^ lo ∈ binaryNums p lo hi := by
    refine ⟨1, lo, ?_, le_rfl, hlo.trans hhi, by simp⟩
    have : (2 : ℤ) ^ 1 ≤ 2 ^ p := pow_le_pow_right₀ (by norm_num) hp
    simp only [abs_one]; omega
  have hb : below (binaryNums p lo hi) x = 0 := by
    refine (below_greatest hpos hF z h0).unique ⟨⟨z, h0⟩, ?_⟩
    rintro y ⟨hy, hyx⟩
    obtain ⟨k, rfl⟩ := hF y hy
    have : (k : ℝ) < 1 := by
      by_contra hk
      have : (1 : ℝ) ≤ k := not_lt.mp hk
      nlinarith
    have : k < 1 := by exact_mod_cast this
    have : (k : ℝ) ≤ 0 := by exact_mod_cast (by omega : k ≤ 0)
    exact mul_nonpos_of_nonpos_of_nonneg this hpos.le
  show roundEven p lo hi x = _
  have hmax := binary_le_max um
  rw [abs_of_pos hpos] at hmax
  rw [roundEven_of_le (by rw [abs_of_nonneg h0]; linarith)]
  by_cases hx : x = 0
  · rw [hx, nearest_of_mem hpos hF z]
  · have hx0 : 0 < x := lt_of_le_of_ne h0 (Ne.symm hx)
    have ha : above (binaryNums p lo hi) x = (2 : ℝ) ^ lo := by
      refine (above_least hpos hF um (by linarith)).unique ⟨⟨um, by linarith⟩, ?_⟩
      rintro y ⟨hy, hyx⟩
      obtain ⟨k, rfl⟩ := hF y hy
      have : (0 : ℝ) < k := by
        by_contra hk
        have : (k : ℝ) ≤ 0 := not_lt.mp hk
        nlinarith
      have : 0 < k := by exact_mod_cast this
      have : (1 : ℝ) ≤ k := by exact_mod_cast this
      nlinarith
    unfold nearest
    rw [hb, ha, if_pos (by linarith)]

end ieee

section flush
variable {p : Nat} {lo hi : ℤ}

/-! ## Without gradual underflow -/

theorem minNormal_mem (hp : 1 ≤ p) (h : lo + p - 1 ≤ hi) : minNormal p lo ∈ binaryNums p lo hi := by
  refine ⟨1, lo + p - 1, ?_, by omega, h, by unfold minNormal; simp⟩
  have : (2 : ℤ) ^ 1 ≤ 2 ^ p := pow_le_pow_right₀ (by norm_num) hp
  simp only [abs_one]; omega

theorem minNormal_pos : 0 < minNormal p lo := zpow_pos (by norm_num) _

/-- The IEEE 754 format without the numbers below the normal range. -/
noncomputable def flushed (p : Nat) (lo hi : ℤ) (hp : 1 ≤ p) (hlo : lo + p - 1 ≤ 0) (hhi : 0 ≤ hi) :
    FloatFormat :=
  let g := ieee p lo hi hp (by omega) hhi
  have hN : minNormal p lo ∈ g.nums := minNormal_mem hp (by omega)
  have hNN : -minNormal p lo ∈ g.nums := g.neg_mem _ hN
  have key : ∀ x y, ¬ |x| < minNormal p lo → g.rnd x = fin y →
      (0 ≤ x → minNormal p lo ≤ y) ∧ (x ≤ 0 → y ≤ -minNormal p lo) := by
    intro x y hx h
    rw [not_lt] at hx
    refine ⟨fun h0 => ?_, fun h0 => ?_⟩
    · rw [abs_of_nonneg h0] at hx
      exact g.mono _ _ _ _ hx (g.rnd_of_mem _ hN) h
    · rw [abs_of_nonpos h0] at hx
      exact g.mono _ _ _ _ (by linarith) h (g.rnd_of_mem _ hNN)
  { nums := {x | x = 0 ∨ (x ∈ g.nums ∧ minNormal p lo ≤ |x|)}
    rnd := roundFlush p lo hi
    zero_mem := Or.inl rfl
    one_mem := by
      refine Or.inr ⟨g.one_mem, ?_⟩
      rw [abs_one]
      unfold minNormal
      exact zpow_le_one_of_nonpos₀ (by norm_num) hlo
    neg_mem := by
      rintro x (rfl | ⟨h1, h2⟩)
      · left; simp
      · exact Or.inr ⟨g.neg_mem x h1, by rwa [abs_neg]⟩
    rnd_mem := by
      intro x y h
      unfold roundFlush at h
      split_ifs at h with hx
      · cases h; exact Or.inl rfl
      · refine Or.inr ⟨g.rnd_mem x y h, ?_⟩
        rcases le_total 0 x with h0 | h0
        · exact ((key x y hx h).1 h0).trans (le_abs_self y)
        · have := (key x y hx h).2 h0
          exact le_trans (by linarith) (neg_le_abs y)
    rnd_of_mem := by
      rintro x (rfl | ⟨h1, h2⟩)
      · unfold roundFlush
        rw [if_pos (by rw [abs_zero]; exact minNormal_pos)]
      · unfold roundFlush
        rw [if_neg (not_lt.mpr h2)]
        exact g.rnd_of_mem x h1
    mono := by
      intro x y a b hxy h1 h2
      have hp0 := minNormal_pos (p := p) (lo := lo)
      unfold roundFlush at h1 h2
      split_ifs at h1 h2 with hx hy hy
      · cases h1; cases h2; exact le_rfl
      · cases h1
        rcases le_total 0 y with h0 | h0
        · linarith [(key y b hy h2).1 h0]
        · exfalso
          rw [abs_lt] at hx
          rw [abs_of_nonpos h0] at hy
          linarith
      · cases h2
        rcases le_total 0 x with h0 | h0
        · exfalso
          rw [abs_lt] at hy
          rw [abs_of_nonneg h0] at hx
          linarith
        · linarith [(key x a hx h1).2 h0]
      · exact g.mono x y a b hxy h1 h2
    fits := by
      intro x a b ha hb hax hxb
      have conv : ∀ z, (z = 0 ∨ (z ∈ g.nums ∧ minNormal p lo ≤ |z|)) → z ∈ g.nums := by
        rintro z (rfl | h)
        · exact g.zero_mem
        · exact h.1
      unfold roundFlush
      split_ifs
      · simp
      · exact g.fits x a b (conv a ha) (conv b hb) hax hxb }

end flush

end MplLayout
