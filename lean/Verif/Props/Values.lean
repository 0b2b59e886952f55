import Verif.Lemmas.Values

/-!
# C88: what a primitive accepts as its parameter vector
-/

namespace MplLayout

variable {K : Type}

namespace Props

/-- C88: a primitive can be made from a `value` exactly if that is `None`, a rectangular list or tuple, or a `numpy`
array, with as many items in the first dimension as the class has parameters (and if the children are acceptable); the
primitive then holds that array: the given one itself, or a new one with the given numbers. -/
theorem C88_accepted (t : PrimType) (dflt : List K) (value : ValueObj K) (keys : List Str)
    (prims : List (Node PrimType (NdArr K))) (n n' : Nat) (q : Node PrimType (NdArr K)) :
    primInitNd t dflt value keys prims n = .ok (q, n') ↔ ∃ a, value.StandsFor dflt n a n' ∧
      (∃ rest, a.shape = t.size :: rest) ∧ t.Accepts ((dictOfZip keys prims).map (·.2.ty)) ∧
      q = .mk t a (dictOfZip keys prims) := by
  rw [primInitNd_eq]
  simp only [py_bind_ok]
  constructor
  · rintro ⟨⟨⟨b, a⟩, n1⟩, h1, h2⟩
    cases h3 : primNodeInitNd PrimType.table t b a (dictOfZip keys prims) with
    | error e => rw [h3] at h2; cases h2
    | ok q1 =>
      rw [h3] at h2
      cases h2
      obtain ⟨rfl, k2, k3, k4⟩ := initNd_ok.mp h3
      exact ⟨a, (valueOf_ok.mp ⟨h1, rfl⟩).2, k2, k3, k4⟩
  · rintro ⟨a, h1, h2, h3, h4⟩
    obtain ⟨h5, _⟩ := valueOf_ok.mpr ⟨rfl, h1⟩
    refine ⟨_, h5, ?_⟩
    rw [initNd_ok.mpr ⟨rfl, h2, h3, h4⟩]
    rfl

/-- C88: how other values are rejected.  Objects of other types raise `TypeError` and ragged sequences `ValueError`;
arrays without dimensions raise `TypeError` and a first dimension of the wrong length `AssertionError`. -/
theorem C88_rejected (t : PrimType) (dflt : List K) (keys : List Str) (prims : List (Node PrimType (NdArr K))) (n : Nat) :
    primInitNd t dflt .other keys prims n = .error .typeError ∧
    (∀ xs, Ragged xs → primInitNd t dflt (.seq xs) keys prims n = .error .valueError) ∧
    (∀ a : NdArr K, a.shape = [] → primInitNd t dflt (.ndarray a) keys prims n = .error .typeError) ∧
    ∀ value a n' k rest, value.StandsFor dflt n a n' → a.shape = k :: rest → k ≠ t.size →
      primInitNd t dflt value keys prims n = .error .assertionError := by
  refine ⟨rfl, fun xs h => ?_, fun a h => ?_, fun value a n' k rest h1 h2 h3 => ?_⟩
  · rw [primInitNd_eq]
    show ((npArray xs n >>= fun r => Except.ok ((true, r.1), r.2)) >>= _) = _
    rw [npArray_ragged h]
    rfl
  · rw [primInitNd_eq]
    show (Except.ok ((true, a), n) >>= _) = _
    simp only [bind, Except.bind, (initNd_cases t a _).2.2.1 h]
    rfl
  · obtain ⟨h5, _⟩ := valueOf_ok.mpr ⟨rfl, h1⟩
    rw [primInitNd_eq, h5]
    simp only [bind, Except.bind, (initNd_cases t a _).2.1 k rest h2 h3]
    rfl

/-- C88 for points with one-dimensional values: `Point` accepts exactly two numbers, and its coordinates are these.
Missing: values of more dimensions (`C88_counterexample`) and `jax` arrays (`C88_jax_counterexample`). -/
theorem C88_point_partial [PyNum K] (xs : List K) (n n' : Nat) (q : Node PrimType (NdArr K)) :
    (newPointNd (.seq (xs.map .num)) n = .ok (q, n') ↔
      ∃ x y, xs = [x, y] ∧ q = .mk .point ⟨n, [2], [x, y]⟩ [] ∧ n' = n + 1) ∧
    ∀ a : NdArr K, a.Flat → (newPointNd (.ndarray a) n = .ok (q, n') ↔
      ∃ x y, a.entries = [x, y] ∧ q = .mk .point a [] ∧ n' = n) := by
  obtain ⟨r1, r2⟩ := nums_rect xs
  have two : ∀ ys : List K, ys.length = 2 → ∃ x y, ys = [x, y] := by
    intro ys h
    match ys, h with
    | [x, y], _ => exact ⟨x, y, rfl⟩
  constructor
  · rw [newPointNd, C88_accepted]
    constructor
    · rintro ⟨a, ⟨h1, h2, h3, h4⟩, ⟨rest, h5⟩, _, h6⟩
      obtain ⟨i, s, e⟩ := a
      simp only at h1 h2 h3 h5
      have hs := rect_unique h2 r1
      rw [hs] at h5
      obtain ⟨x, y, rfl⟩ := two xs (List.cons.inj h5).1
      rw [r2] at h3
      refine ⟨x, y, rfl, ?_, h4⟩
      rw [h6, h1, hs, h3]
      rfl
    · rintro ⟨x, y, rfl, rfl, rfl⟩
      exact ⟨⟨n, [2], [x, y]⟩, ⟨rfl, r1, r2.symm, rfl⟩, ⟨[], rfl⟩, rfl, rfl⟩
  · intro a ha
    rw [newPointNd, C88_accepted]
    constructor
    · rintro ⟨b, ⟨rfl, h4⟩, ⟨rest, h5⟩, _, h6⟩
      rw [ha] at h5
      obtain ⟨x, y, h7⟩ := two _ (List.cons.inj h5).1
      exact ⟨x, y, h7, h6, h4⟩
    · rintro ⟨x, y, h1, rfl, rfl⟩
      refine ⟨a, ⟨rfl, rfl⟩, ⟨[], ?_⟩, rfl, rfl⟩
      rw [ha, h1]
      rfl

/-- C88 as stated fails: `Point([[1, 2], [3, 4]])` is accepted, and holds four numbers. -/
theorem C88_counterexample : ∃ q : Node PrimType (NdArr Flt),
    newPointNd (.seq [.seq [.num (.fin 1), .num (.fin 2)], .seq [.num (.fin 3), .num (.fin 4)]]) 7 = .ok (q, 8) ∧
      q.value.shape = [2, 2] ∧ q.value.entries = [.fin 1, .fin 2, .fin 3, .fin 4] := by
  refine ⟨.mk .point ⟨7, [2, 2], [.fin 1, .fin 2, .fin 3, .fin 4]⟩ [], ?_, rfl, rfl⟩
  rw [newPointNd, C88_accepted]
  refine ⟨_, ⟨rfl, .seq _ [2] (by simp) ?_, ?_, rfl⟩, ⟨[2], rfl⟩, rfl, rfl⟩
  · intro x hx
    have nums : ∀ a b : Flt, Rectangular (.seq [.num a, .num b]) [2] := fun a b => (nums_rect [a, b]).1
    rcases List.mem_cons.mp hx with rfl | hx
    · exact nums _ _
    · rw [List.mem_singleton.mp hx]; exact nums _ _
  · simp [Nested.entries, Nested.entriesL]

/-- C88 as stated fails: no primitive can be made from a `jax` array, whatever its contents are. -/
theorem C88_jax_counterexample (t : PrimType) (dflt : List K) (a : NdArr K) (keys : List Str)
    (prims : List (Node PrimType (NdArr K))) (n : Nat) :
    primInitNd t dflt (.jax a) keys prims n = .error .assertionError := by
  rw [primInitNd_eq]
  show (Except.ok ((false, a), n) >>= _) = _
  simp only [bind, Except.bind, (initNd_cases t a _).2.2.2]
  rfl

/-- With one-dimensional arrays this constructor is the one of the other theorems. -/
theorem C88_agrees (t : PrimType) (v : NdArr K) (hv : v.Flat) (cs : List (Str × Node PrimType (NdArr K))) :
    (primNodeInitNd PrimType.table t true v cs).map (Node.mapV fun a => (⟨a.id, a.entries⟩ : PVal K))
      = primNodeInit PrimType.table t ⟨v.id, v.entries⟩ (cs.map fun kc => (kc.1, kc.2.mapV fun a => ⟨a.id, a.entries⟩)) := by
  have hty : ∀ c : Node PrimType (NdArr K), (c.mapV fun a => (⟨a.id, a.entries⟩ : PVal K)).ty = c.ty := fun c => by
    cases c; rfl
  have hcs : (cs.map fun kc => (kc.1, kc.2.mapV fun a => (⟨a.id, a.entries⟩ : PVal K))).map (·.2.ty) = cs.map (·.2.ty) := by
    rw [List.map_map]
    exact List.map_congr_left fun c _ => hty c.2
  obtain ⟨h1, h2, h3, h4⟩ := initNd_cases t v cs
  rcases primNodeInit_cases t ⟨v.id, v.entries⟩ (cs.map fun kc => (kc.1, kc.2.mapV fun a => (⟨a.id, a.entries⟩ : PVal K))) with
    ⟨g1, g2, g3⟩ | ⟨g1, g2, g3⟩ | ⟨g1, g3⟩
  · rw [hcs] at g2
    simp only at g1
    rw [g3, (h1 [] (by rw [hv, g1])).1 g2]
    simp [Except.map, Node.mapV, Node.mapVL_eq]
  · rw [hcs] at g2
    simp only at g1
    rw [g3, (h1 [] (by rw [hv, g1])).2 g2]
    rfl
  · rw [g3, h2 _ [] hv g1]
    rfl

/-! ## The hypotheses are met -/

/-- `Point([1, 2])`, `Point(np.array([1, 2, 3]))` and `Point([[1], [2, 3]])`. -/
example : (∃ q, newPointNd (.seq [.num (Flt.fin 1), .num (.fin 2)]) 5 = .ok (q, 6) ∧ q.value.entries = [.fin 1, .fin 2]) ∧
    (∀ i, newPointNd (.ndarray ⟨i, [3], [Flt.fin 1, .fin 2, .fin 3]⟩) 5 = .error .assertionError) ∧
    newPointNd (.seq [.seq [.num (Flt.fin 1)], .seq [.num (.fin 2), .num (.fin 3)]]) 5 = .error .valueError := by
  refine ⟨⟨_, ((C88_point_partial [Flt.fin 1, .fin 2] 5 6 _).1).mpr ⟨_, _, rfl, rfl, rfl⟩, rfl⟩, fun i => ?_, ?_⟩
  · exact (C88_rejected .point [0, 0] [] [] 5).2.2.2 _ _ _ 3 [] ⟨rfl, rfl⟩ rfl (by decide)
  · refine (C88_rejected .point [0, 0] [] [] 5).2.1 _ fun s h => ?_
    have h' := (shape_spec.1 _ _).mpr h
    simp [Nested.shape, Nested.shapes] at h'

end Props

end MplLayout
