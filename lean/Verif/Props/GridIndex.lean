import Verif.Props.Grid

/-!
# C46: for which shapes `idx_1d` is right
-/

namespace MplLayout.Props

theorem idx1d_cons (i n : Nat) (is ns : List Nat) (h : is.length = ns.length) :
    ct.idx1d (i :: is) (n :: ns) = i * ns.headD 1 + ct.idx1d is ns := by
  cases ns with
  | nil =>
    obtain rfl : is = [] := List.eq_nil_of_length_eq_zero (by simpa using h)
    simp [ct.idx1d]
  | cons m ns => simp [ct.idx1d]

/-- `idx_1d` gives the row-major position of every index of the shape. -/
def RightFor (shape : List Nat) : Prop :=
  ∀ idx, List.Forall₂ (· < ·) idx shape → ct.idx1d idx shape = rowMajor idx shape

theorem idx_zeros : ∀ shape : List Nat, (∀ n ∈ shape, 0 < n) →
    ∃ idx, List.Forall₂ (· < ·) idx shape ∧ ct.idx1d idx shape = 0 ∧ rowMajor idx shape = 0
  | [], _ => ⟨[], .nil, rfl, rfl⟩
  | n :: ns, h => by
    obtain ⟨is, h1, h2, h3⟩ := idx_zeros ns fun m hm => h m (List.mem_cons_of_mem _ hm)
    exact ⟨0 :: is, .cons (h n (by simp)) h1, by simp [idx1d_cons _ _ _ _ h1.length_eq, h2], by simp [rowMajor, h3]⟩

theorem rightFor_cons (n : Nat) (ns : List Nat) (hpos : ∀ m ∈ n :: ns, 0 < m) :
    RightFor (n :: ns) ↔ (2 ≤ n → (ns.drop 1).prod = 1) ∧ RightFor ns := by
  have hpos' : ∀ m ∈ ns, 0 < m := fun m hm => hpos m (List.mem_cons_of_mem _ hm)
  have hprod : (ns.drop 1).prod = 1 ↔ ns.headD 1 = ns.prod := by
    cases ns with
    | nil => simp
    | cons m ns =>
      have : 0 < m := hpos' m (by simp)
      simp only [List.drop_succ_cons, List.drop_zero, List.headD_cons, List.prod_cons]
      constructor
      · intro h; rw [h, Nat.mul_one]
      · intro h; exact Nat.eq_of_mul_eq_mul_left this (by omega)
  constructor
  · intro h
    refine ⟨fun h2 => ?_, fun is his => ?_⟩
    · obtain ⟨is, h3, h4, h5⟩ := idx_zeros ns hpos'
      have := h (1 :: is) (.cons (by omega) h3)
      rw [idx1d_cons _ _ _ _ h3.length_eq, h4] at this
      simp only [rowMajor, h5, Nat.one_mul, Nat.add_zero] at this
      exact hprod.mpr this
    · have := h (0 :: is) (.cons (hpos n (by simp)) his)
      simpa [idx1d_cons _ _ _ _ his.length_eq, rowMajor] using this
  · rintro ⟨h1, h2⟩ idx hidx
    cases hidx with
    | @cons i _ is _ hi his =>
      rw [idx1d_cons _ _ _ _ his.length_eq, rowMajor, h2 is his]
      rcases Nat.eq_zero_or_pos i with rfl | hi0
      · simp
      · rw [hprod.mp (h1 (by omega))]

/-- C46, exactly: for a shape without empty dimensions, `idx_1d` returns the row-major position of every index
if and only if every dimension of size two or more is followed by at most one dimension of size two or
more, directly behind it (all later dimensions have size one).  So it is right for all shapes of up to
two dimensions, and for three dimensions of size at least two it is wrong. -/
theorem C46_exactly (shape : List Nat) (hpos : ∀ n ∈ shape, 0 < n) :
    (∀ idx, List.Forall₂ (· < ·) idx shape → ct.idx1d idx shape = rowMajor idx shape) ↔
    ∀ before n behind, shape = before ++ n :: behind → 2 ≤ n → (behind.drop 1).prod = 1 := by
  change RightFor shape ↔ _
  induction shape with
  | nil =>
    refine ⟨fun _ b n r h => by simp at h, fun _ idx h => ?_⟩
    cases h; rfl
  | cons n ns ih =>
    rw [rightFor_cons n ns hpos, ih fun m hm => hpos m (List.mem_cons_of_mem _ hm)]
    constructor
    · rintro ⟨h1, h2⟩ b m r h hm
      cases b with
      | nil => cases h; exact h1 hm
      | cons x b => exact h2 b m r (List.cons.inj h).2 hm
    · intro h
      exact ⟨h [] n ns rfl, fun b m r e => h (n :: b) m r (by rw [e]; rfl)⟩

/-- A shape of the first kind with four dimensions, and one of the second kind. -/
example : (∀ idx, List.Forall₂ (· < ·) idx [1, 4, 3, 1] → ct.idx1d idx [1, 4, 3, 1] = rowMajor idx [1, 4, 3, 1]) ∧
    ¬ ∀ idx, List.Forall₂ (· < ·) idx [2, 1, 2] → ct.idx1d idx [2, 1, 2] = rowMajor idx [2, 1, 2] := by
  constructor
  · refine (rightFor_cons _ _ (by decide)).mpr ⟨by decide, (rightFor_cons _ _ (by decide)).mpr ⟨by decide,
      (rightFor_cons _ _ (by decide)).mpr ⟨by decide, (rightFor_cons _ _ (by decide)).mpr ⟨by decide, ?_⟩⟩⟩⟩
    intro idx h; cases h; rfl
  · intro h
    have := (C46_exactly _ (by decide)).mp h [] 2 [1, 2] rfl le_rfl
    simp at this

end MplLayout.Props
