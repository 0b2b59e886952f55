import Verif.Model.Pack

/-! Lemmas about the global parameter vector. -/

namespace MplLayout

variable {K : Type}

theorem sliceBound_nat (n a : Nat) : sliceBound n (Int.ofNat a) = min a n := by
  have h : ¬ ((a : Int) < 0) := by omega
  simp [sliceBound, h]

theorem pySlice_nat (xs : List K) (a b : Nat) (hab : a ≤ b) (hb : b ≤ xs.length) :
    pySlice xs (some (Int.ofNat a)) (some (Int.ofNat b)) = (xs.drop a).take (b - a) := by
  simp only [pySlice, sliceBound_nat]
  rw [Nat.min_eq_left hb, Nat.min_eq_left (show a ≤ xs.length by omega)]

theorem cumsum_ne_nil (s : Nat) (l : List Nat) : cumsum s l ≠ [] := by cases l <;> simp [cumsum]

theorem cumsum_head (s : Nat) (l : List Nat) : ∃ t, cumsum s l = s :: t := by
  cases l with
  | nil => exact ⟨[], rfl⟩
  | cons a l => exact ⟨_, rfl⟩

theorem unpack_cons (a b : Nat) (bs : List Nat) (g : List K) :
    unpack (a :: b :: bs) g
      = pySlice g (some (Int.ofNat a)) (some (Int.ofNat b)) :: unpack (b :: bs) g := by
  simp [unpack]

/-- Cutting `pre ++ concatenation ++ post` at the running totals starting after `pre`. -/
theorem unpack_cumsum (vals : List (List K)) (pre post : List K) :
    unpack (cumsum pre.length (vals.map List.length)) (pre ++ vals.flatten ++ post) = vals := by
  induction vals generalizing pre with
  | nil => simp [cumsum, unpack]
  | cons v vs ih =>
    simp only [List.map_cons, cumsum]
    obtain ⟨t, ht⟩ := cumsum_head (pre.length + v.length) (vs.map List.length)
    rw [ht, unpack_cons, ← ht]
    congr 1
    · rw [pySlice_nat _ _ _ (by omega) (by simp)]
      simp
    · have := ih (pre ++ v)
      rw [List.length_append] at this
      simpa using this

/-- The pieces of consecutive sizes. -/
theorem exists_pieces (sizes : List Nat) (g : List K) (h : g.length = sizes.sum) :
    ∃ vals : List (List K), vals.map List.length = sizes ∧ vals.flatten = g := by
  induction sizes generalizing g with
  | nil => exact ⟨[], rfl, by simpa using (List.length_eq_zero_iff.1 (by simpa using h)).symm⟩
  | cons s ss ih =>
    obtain ⟨vals, h1, h2⟩ := ih (g.drop s) (by simp at h ⊢; omega)
    refine ⟨g.take s :: vals, ?_, by simp [h2]⟩
    simp at h
    simp [h1, h]

end MplLayout
