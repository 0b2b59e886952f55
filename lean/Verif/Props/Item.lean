import Verif.Model.Item
import Verif.Props.Containers
import Mathlib.Algebra.Order.Group.Unbundled.Int
import Mathlib.Tactic.Linarith

/-!
# C11: `node[key]` for every kind of key
-/

namespace MplLayout.Props

open Node

variable {τ α : Type}

/-- Where a slice with step `s` of `len` items starts: at `a` (negative: from the end), but not before the first
item in its direction; at the first item in its direction if `a` is omitted. -/
def sliceFirst (len : Nat) (a : Option Int) (s : Int) : Int :=
  if 0 < s then match a with
    | none => 0
    | some e => max 0 (slicePos len e)
  else match a with
    | none => len - 1
    | some e => min (len - 1) (slicePos len e)

/-- Position `j` is picked by the slice `a:b:s` of `len` items: it is a whole number of steps from the start, in
the direction of the step, and before the end. -/
def Picked (len : Nat) (a b : Option Int) (s : Int) (j : Nat) : Prop :=
  j < len ∧ (∃ k : Nat, (j : Int) = sliceFirst len a s + k * s) ∧
    ∀ e, b = some e → if 0 < s then (j : Int) < slicePos len e else slicePos len e < j

theorem lt_sliceCount {a b s : Int} (hs : s ≠ 0) (i : Nat) :
    i < sliceCount a b s ↔ if 0 < s then a + i * s < b else b < a + i * s := by
  unfold sliceCount
  by_cases h : 0 < s
  · rw [if_neg (by omega), if_pos h]
    by_cases hab : a < b
    · rw [if_pos hab]
      have h0 : 0 ≤ (b - a - 1) / s := Int.ediv_nonneg (by omega) (by omega)
      have e : (i : Int) ≤ (b - a - 1) / s ↔ i * s ≤ b - a - 1 := Int.le_ediv_iff_mul_le h
      omega
    · rw [if_neg hab]
      have : 0 ≤ (i : Int) * s := Int.mul_nonneg (by omega) (by omega)
      omega
  · have h' : 0 < -s := by omega
    rw [if_pos (by omega), if_neg h]
    by_cases hab : b < a
    · rw [if_pos hab]
      have h0 : 0 ≤ (a - b - 1) / (-s) := Int.ediv_nonneg (by omega) (by omega)
      have e : (i : Int) ≤ (a - b - 1) / (-s) ↔ i * (-s) ≤ a - b - 1 := Int.le_ediv_iff_mul_le h'
      have e2 : (i : Int) * (-s) = -(i * s) := Int.mul_neg _ _
      omega
    · rw [if_neg hab]
      have : 0 ≤ (i : Int) * (-s) := Int.mul_nonneg (by omega) (by omega)
      have e2 : (i : Int) * (-s) = -(i * s) := Int.mul_neg _ _
      omega

theorem filterMap_some {ι β : Type} {g : ι → Option β} : ∀ {l : List ι}, (∀ i ∈ l, g i ≠ none) →
    (l.filterMap g).map some = l.map g
  | [], _ => rfl
  | i :: l, h => by
    have h1 := h i (by simp)
    have h2 := filterMap_some (g := g) (l := l) fun j hj => h j (by simp [hj])
    cases e : g i with
    | none => exact absurd e h1
    | some x => simp [List.filterMap_cons, e, h2]

/-- C11: `node[a:b:s]`, for all ends and steps (omitted, positive, negative, out of range): a step of zero is a
`ValueError`; otherwise the children at the picked positions, from left to right for a positive step and from
right to left for a negative one. -/
theorem C11_getitem_step (n : Node τ α) (a b step : Option Int) :
    (step = some 0 → n.getItem (.slice a b step) = .error .valueError) ∧
    (step ≠ some 0 → ∃ (l : List (Node τ α)) (ps : List Nat), n.getItem (.slice a b step) = .ok (.many l) ∧
      l.map some = ps.map (n.values[·]?) ∧
      (∀ j, j ∈ ps ↔ Picked n.len a b (step.getD 1) j) ∧
      if 0 < step.getD 1 then ps.Pairwise (· < ·) else ps.Pairwise (· > ·)) := by
  constructor
  · rintro rfl
    rfl
  intro h0
  have hs : step.getD 1 ≠ 0 := by
    cases step with
    | none => decide
    | some s => intro e; exact h0 (by rw [← e]; rfl)
  have hl : n.values.length = n.len := by simp [values, len]
  obtain ⟨A, B, hg, hA⟩ : ∃ A B : Int,
      n.getItem (.slice a b step) = .ok (.many ((List.range (sliceCount A B (step.getD 1))).filterMap
        fun i : Nat => n.values[(A + i * step.getD 1).toNat]?)) ∧
      (A = (match a with
        | none => if decide (step.getD 1 < 0) then (n.len : Int) - 1 else 0
        | some i => adjustIndex n.len (decide (step.getD 1 < 0)) i) ∧
      B = (match b with
        | none => if decide (step.getD 1 < 0) then -1 else (n.len : Int)
        | some i => adjustIndex n.len (decide (step.getD 1 < 0)) i)) := by
    refine ⟨_, _, ?_, rfl, rfl⟩
    simp only [getItem, pySliceStep, if_neg hs, hl]
    rfl
  generalize step.getD 1 = s at hs hg hA ⊢
  obtain ⟨hA, hB⟩ := hA
  have hA2 : if 0 < s then A = min (n.len : Int) (sliceFirst n.len a s) ∧ 0 ≤ A
      else A = max (-1) (sliceFirst n.len a s) ∧ A < n.len := by
    by_cases h : 0 < s
    · have h2 : ¬ s < 0 := by omega
      simp only [h2, decide_false, adjustIndex] at hA
      rw [if_pos h]
      unfold sliceFirst slicePos
      rw [if_pos h]
      cases a
      · simp at hA ⊢; omega
      · simp at hA ⊢; split_ifs at hA ⊢ <;> omega
    · have h2 : s < 0 := by omega
      simp only [h2, decide_true, adjustIndex] at hA
      rw [if_neg h]
      unfold sliceFirst slicePos
      rw [if_neg h]
      cases a
      · simp at hA ⊢; omega
      · simp at hA ⊢; split_ifs at hA ⊢ <;> omega
  have hB2 : ∀ j : Int, 0 ≤ j → j < n.len → ((if 0 < s then j < B else B < j) ↔
      ∀ e, b = some e → if 0 < s then j < slicePos n.len e else slicePos n.len e < j) := by
    intro j hj0 hj
    by_cases h : 0 < s
    · have h2 : ¬ s < 0 := by omega
      simp only [h2, decide_false, adjustIndex] at hB
      simp only [if_pos h]
      unfold slicePos
      cases b
      · simp at hB ⊢; omega
      · simp at hB ⊢; split_ifs at hB ⊢ <;> omega
    · have h2 : s < 0 := by omega
      simp only [h2, decide_true, adjustIndex] at hB
      simp only [if_neg h]
      unfold slicePos
      cases b
      · simp at hB ⊢; omega
      · simp at hB ⊢; split_ifs at hB ⊢ <;> omega
  have hB3 : if 0 < s then B ≤ n.len else -1 ≤ B := by
    by_cases h : 0 < s
    · have h2 : ¬ s < 0 := by omega
      simp only [h2, decide_false, adjustIndex] at hB
      rw [if_pos h]
      cases b
      · simp at hB; omega
      · simp at hB; split_ifs at hB <;> omega
    · have h2 : s < 0 := by omega
      simp only [h2, decide_true, adjustIndex] at hB
      rw [if_neg h]
      cases b
      · simp at hB; omega
      · simp at hB; split_ifs at hB <;> omega
  have hk : ∀ k : Nat, if 0 < s then 0 ≤ (k : Int) * s else (k : Int) * s ≤ 0 := by
    intro k
    split
    · exact Int.mul_nonneg (by omega) (by omega)
    · exact Int.mul_nonpos_of_nonneg_of_nonpos (by omega) (by omega)
  clear hA hB
  have hin : ∀ i : Nat, i < sliceCount A B s → 0 ≤ A + i * s ∧ A + i * s < n.len := by
    intro i hi
    rw [lt_sliceCount hs] at hi
    have h1 := hk i
    by_cases h : 0 < s
    · simp only [if_pos h] at hi h1 hA2 hB3
      omega
    · simp only [if_neg h] at hi h1 hA2 hB3
      omega
  refine ⟨_, (List.range (sliceCount A B s)).map fun i : Nat => (A + i * s).toNat, hg, ?_, ?_, ?_⟩
  · rw [filterMap_some, List.map_map]
    · rfl
    · intro i hi
      have := hin i (List.mem_range.1 hi)
      rw [Ne, List.getElem?_eq_none_iff]
      omega
  · intro j
    simp only [List.mem_map, List.mem_range, Picked]
    constructor
    · rintro ⟨i, hi, rfl⟩
      have h3 := hin i hi
      rw [lt_sliceCount hs] at hi
      have e : ((A + i * s).toNat : Int) = A + i * s := Int.toNat_of_nonneg h3.1
      refine ⟨by omega, ⟨i, ?_⟩, ?_⟩
      · rw [e]
        have h1 := hk i
        by_cases h : 0 < s
        · simp only [if_pos h] at hi h1 hA2 hB3
          omega
        · simp only [if_neg h] at hi h1 hA2 hB3
          omega
      · have := (hB2 _ h3.1 h3.2).1 hi
        rwa [e]
    · rintro ⟨hj, ⟨k, hkj⟩, hb⟩
      have h1 := hk k
      have e : A + k * s = j := by
        by_cases h : 0 < s
        · rw [if_pos h] at h1 hA2
          omega
        · rw [if_neg h] at h1 hA2
          omega
      refine ⟨k, ?_, by omega⟩
      rw [lt_sliceCount hs, e]
      exact (hB2 j (by omega) (by omega)).2 hb
  · by_cases h : 0 < s
    · rw [if_pos h, List.pairwise_map]
      refine List.Pairwise.imp_of_mem ?_ List.pairwise_lt_range
      intro i j hi hj hij
      have h1 := hin i (List.mem_range.1 hi)
      have h2 := hin j (List.mem_range.1 hj)
      have : (i : Int) * s < j * s := Int.mul_lt_mul_of_pos_right (by omega) h
      omega
    · rw [if_neg h, List.pairwise_map]
      refine List.Pairwise.imp_of_mem ?_ List.pairwise_lt_range
      intro i j hi hj hij
      have h1 := hin i (List.mem_range.1 hi)
      have h2 := hin j (List.mem_range.1 hj)
      have : (i : Int) * (-s) < j * (-s) := Int.mul_lt_mul_of_pos_right (by omega) (by omega)
      rw [Int.mul_neg, Int.mul_neg] at this
      show (A + j * s).toNat < (A + i * s).toNat
      omega

/-- Two decreasing or two increasing lists with the same members are equal. -/
theorem sorted_unique {r : Nat → Nat → Prop} (h : ∀ a b, r a b → ¬ r b a) {xs ys : List Nat} (h1 : xs.Pairwise r)
    (h2 : ys.Pairwise r) (he : ∀ j, j ∈ xs ↔ j ∈ ys) : xs = ys := by
  have nd : ∀ {l : List Nat}, l.Pairwise r → l.Nodup := fun hl =>
    hl.imp fun {a b} hab e => by subst e; exact h _ _ hab hab
  exact List.Perm.eq_of_pairwise (fun a b _ _ x y => absurd y (h _ _ x)) h1 h2
    ((List.perm_ext_iff_of_nodup (nd h1) (nd h2)).2 he)

/-- C11: the slice is determined: `node[::-1]` is the children backwards. -/
theorem C11_reversed (n : Node τ α) : n.getItem (.slice none none (some (-1))) = .ok (.many n.values.reverse) := by
  have hl : n.values.length = n.len := by simp [values, len]
  obtain ⟨l, ps, h, h1, h2, h3⟩ := (C11_getitem_step n none none (some (-1))).2 (by decide)
  have e : ps = (List.range n.len).reverse := by
    refine sorted_unique (r := (· > ·)) (fun a b h => by omega) h3 ?_ ?_
    · rw [List.pairwise_reverse]
      exact List.pairwise_lt_range
    · intro j
      rw [h2, List.mem_reverse, List.mem_range]
      refine ⟨fun h => h.1, fun hj => ⟨hj, ⟨n.len - 1 - j, ?_⟩, by simp⟩⟩
      simp [sliceFirst]
      omega
  rw [h, Except.ok.injEq, Item.many.injEq]
  refine List.map_inj_right (f := some) (fun _ _ h => Option.some.inj h) |>.1 ?_
  rw [h1, e, List.map_reverse, List.map_reverse, ← hl]
  congr 1
  refine List.ext_getElem (by simp) fun i h1 h2 => ?_
  simp at h1 ⊢

/-- C11: with step 1 (or none) the result is the run that `C11_getitem_slice_any` describes. -/
theorem C11_step_one (n : Node τ α) (a b : Option Int) :
    n.getItem (.slice a b none) = .ok (.many (n.getSlice a b)) ∧
    n.getItem (.slice a b (some 1)) = .ok (.many (n.getSlice a b)) := by
  suffices h : n.getItem (.slice a b (some 1)) = .ok (.many (n.getSlice a b)) from ⟨h, h⟩
  have hl : n.values.length = n.len := by simp [values, len]
  obtain ⟨l, ps, h, h1, h2, h3⟩ := (C11_getitem_step n a b (some 1)).2 (by decide)
  obtain ⟨lo, hi, h4, h5⟩ := C11_getitem_slice_any n a b
  have e : ps = (List.range' lo (min hi n.len - lo)) := by
    refine sorted_unique (r := (· < ·)) (fun a b h => by omega) h3 List.pairwise_lt_range' ?_
    intro j
    rw [h2, List.mem_range'_1]
    have hf : j < n.len → ((∃ k : Nat, (j : Int) = sliceFirst n.len a 1 + k * 1) ↔
        ∀ e, a = some e → slicePos n.len e ≤ j) := by
      intro hj
      unfold sliceFirst
      rw [if_pos (by omega)]
      constructor
      · rintro ⟨k, hk⟩ e rfl
        simp only at hk
        omega
      · intro hk
        cases a with
        | none => exact ⟨j, by simp⟩
        | some e =>
          have := hk e rfl
          refine ⟨((j : Int) - max 0 (slicePos n.len e)).toNat, ?_⟩
          simp only
          omega
    constructor
    · rintro ⟨hj, hk, hb⟩
      have := (h5 j hj).2 ⟨(hf hj).1 hk, hb⟩
      omega
    · intro hj
      have hj' : j < n.len := by omega
      have := (h5 j hj').1 (by omega)
      exact ⟨hj', (hf hj').2 this.1, this.2⟩
  rw [h, h4, Except.ok.injEq, Item.many.injEq]
  refine List.map_inj_right (f := some) (fun _ _ h => Option.some.inj h) |>.1 ?_
  rw [h1, e]
  refine List.ext_getElem (by simp [hl]; omega) fun i h1 h2 => ?_
  simp at h1 h2 ⊢

/-- C11: what `node[key]` does with each kind of key: strings name a child, integers count, `True` and `False` are 1
and 0, and other objects are refused. -/
theorem C11_getitem_kinds (n : Node τ α) :
    (∀ k, n.getItem (.str k) = (n.getChild k).map .one) ∧
    (∀ i, n.getItem (.int i) = (n.getInt i).map .one) ∧
    (∀ b, n.getItem (.bool b) = n.getItem (.int (if b then 1 else 0))) ∧
    n.getItem .other = .error .typeError := by
  refine ⟨fun k => ?_, fun i => ?_, fun b => rfl, rfl⟩
  · cases h : n.getChild k <;> simp [getItem, h, bind, Except.bind, Except.map]
  · cases h : pyIndex n.values i <;> simp [getItem, getInt, h, bind, Except.bind, Except.map]

example : (exTree.getItem (.slice none none (some (-1)))).map
    (fun | .many l => l.map (·.value) | .one _ => []) = .ok [3, 1] := by decide

end MplLayout.Props
