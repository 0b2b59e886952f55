import Verif.Lemmas.Pack

/-!
# C20: packing and unpacking the global parameter vector
-/

namespace MplLayout.Props

variable {K : Type}

/-- C20: cutting the concatenated parameter vector at the cumulative sizes returns the original
parameter vectors. -/
theorem C20_unpack_pack (values : List (List K)) (g : List K) (h : npConcat values = .ok g) :
    unpack (idxBounds values) g = values := by
  unfold npConcat at h
  split at h
  · simp at h
  · obtain rfl := Except.ok.inj h
    have := unpack_cumsum values [] []
    simpa [idxBounds] using this

/-- C20: for any global vector `g` of the right total size, the cuts have the sizes of the original
vectors and their concatenation is `g`. -/
theorem C20_pack_unpack (values : List (List K)) (hne : values ≠ []) (g : List K)
    (h : g.length = (values.map List.length).sum) :
    (unpack (idxBounds values) g).map List.length = values.map List.length ∧
    npConcat (unpack (idxBounds values) g) = .ok g := by
  obtain ⟨vals, h1, h2⟩ := exists_pieces (values.map List.length) g h
  have hu : unpack (idxBounds values) g = vals := by
    have := unpack_cumsum vals [] []
    simpa [idxBounds, h1, h2] using this
  rw [hu, h1]
  refine ⟨rfl, ?_⟩
  unfold npConcat
  have : vals ≠ [] := by
    rintro rfl
    simp at h1
    exact hne h1
  rw [if_neg this, h2]

example : npConcat [[1, 2], [], [3]] = .ok [1, 2, 3] ∧ idxBounds [[1, 2], [], [3]] = [0, 2, 2, 3] ∧
    unpack [0, 2, 2, 3] [7, 8, 9] = [[7, 8], [], [9]] := by decide

end MplLayout.Props
