import Verif.Lemmas.Constraint
import Verif.Lemmas.Transforms2
import Verif.Props.Constructions

/-!
# C92: `Vector`

`Vector(size_node)` is documented to return a vector whose entries are distributed over a tree, `size_node`
giving the number of entries at every node.
-/

namespace MplLayout.Props

variable {K : Type} [PyNum K]

mutual
/-- What the code returns for the array `xs`: the whole array, then what the children return for the
first entries of their parts. -/
def vecOut : Node Unit Nat → List K → List K
  | .mk _ _ cs, xs => xs ++ vecOutL cs xs
/-- The children: the part of a child starts after the parts of the children before it, and a part has
as many entries as there are in the subtree of the child. -/
def vecOutL : List (Str × Node Unit Nat) → List K → List K
  | [], _ => []
  | (_, n) :: cs, xs => vecOut n (xs.take n.value) ++ vecOutL cs (xs.drop n.allValues.sum)
end

omit [PyNum K] in
private theorem slice_nat (xs : List K) (a b : Nat) :
    pySlice xs (some (Int.ofNat a)) (some (Int.ofNat b)) = (xs.drop a).take (b - a) := by
  simp only [pySlice, sliceBound_nat]
  rcases Nat.le_total a xs.length with h | h
  · rw [Nat.min_eq_left h]
    rcases Nat.le_total b xs.length with h' | h'
    · rw [Nat.min_eq_left h']
    · rw [Nat.min_eq_right h', List.take_of_length_le (by simp), List.take_of_length_le (by simp; omega)]
  · rw [Nat.min_eq_right h, List.drop_of_length_le h, List.drop_of_length_le (Nat.le_refl _)]; simp

omit [PyNum K] in
private theorem cumsum_head (s : Nat) (ns : List Nat) : ∃ t, cumsum s ns = s :: t := by
  cases ns <;> exact ⟨_, rfl⟩

omit [PyNum K] in
private theorem unpack_shift (xs : List K) (n : Nat) (ns : List Nat) (s : Nat) :
    unpack (cumsum (n + s) ns) xs = unpack (cumsum s ns) (xs.drop n) := by
  induction ns generalizing s with
  | nil => simp [cumsum, unpack]
  | cons m ns ih =>
    have e := ih (s + m)
    obtain ⟨t, ht⟩ := cumsum_head (s + m) ns
    obtain ⟨t', ht'⟩ := cumsum_head (n + (s + m)) ns
    rw [cumsum, cumsum, Nat.add_assoc, ht, ht', unpack_cons, unpack_cons, ← ht, ← ht', e,
      slice_nat, slice_nat, List.drop_drop]
    congr 2
    omega

omit [PyNum K] in
theorem chunk_cons (xs : List K) (n : Nat) (ns : List Nat) :
    chunk xs (n :: ns) = xs.take n :: chunk (xs.drop n) ns := by
  have e := unpack_shift xs n ns 0
  obtain ⟨t, ht⟩ := cumsum_head (0 + n) ns
  unfold chunk
  rw [cumsum, ht, unpack_cons, ← ht, slice_nat, ← e]
  simp

omit [PyNum K] in
private theorem own_le (n : Node Unit Nat) : n.value ≤ n.allValues.sum := by
  cases n with
  | mk t v cs => simp [Node.allValues]

private theorem vec_parts (cs : List (Str × Node Unit Nat)) (xs : List K) :
    List.zipWith (fun c n => [Param.arr (c.take n)])
        (chunk xs (cs.map fun kc => kc.2.allValues.sum)) (cs.map (·.2.value)) =
      (match cs with
        | [] => []
        | kc :: cs => [Param.arr (xs.take kc.2.value)] ::
            List.zipWith (fun c n => [Param.arr (c.take n)])
              (chunk (xs.drop kc.2.allValues.sum) (cs.map fun kc => kc.2.allValues.sum))
              (cs.map (·.2.value))) := by
  cases cs with
  | nil => simp
  | cons kc cs =>
    simp only [List.map_cons, chunk_cons, List.zipWith_cons_cons, List.take_take]
    rw [Nat.min_eq_left (own_le kc.2)]

private theorem cum_eq (t : Unit) (size : Nat) (cs : List (Str × Node Unit Nat)) :
    (accumulate () (· + ·) 0 (Node.mk t size cs)).children.map (·.2.value) =
      cs.map fun kc => kc.2.allValues.sum := by
  simp only [accumulate, Node.children_mk, Node.accumulateL_eq, List.map_map]
  apply List.map_congr_left
  rintro ⟨k, c⟩ _
  have := Node.accumulate_value () (fun a b : Nat => a + b) (by intros; omega) 0 (by simp) (by simp) c
  simpa [List.sum] using this

private theorem vec_childParams (t : Unit) (size : Nat) (cs : List (Str × Node Unit Nat)) (xs : List K) :
    (vecTree (K := K) (.mk t size cs)).value.childParams [.arr xs] =
      .ok (List.zipWith (fun c n => [Param.arr (c.take n)])
        (chunk xs (cs.map fun kc => kc.2.allValues.sum)) (cs.map (·.2.value))) := by
  simp only [vecTree, Node.value_mk, cum_eq, vectorChildParams]
  cases cs with
  | nil => simp
  | cons kc cs => simp

private theorem vec_aligned (n : Node Unit Nat) (xs : List K) :
    (vecTree (K := K) n).Aligned [.arr xs] := by
  induction n using Node.induct generalizing xs with
  | _ t size cs ih =>
    have hcp := vec_childParams t size cs xs
    rw [vecTree] at hcp ⊢
    refine ⟨by simp [vecTreeL_eq], ?_⟩
    intro pss hp
    rw [Node.value_mk] at hcp
    rw [hcp] at hp
    obtain rfl := (Except.ok.inj hp)
    clear hp hcp
    refine ⟨by simp [vecTreeL_eq, (Props.C23_chunk _ _).1], ?_⟩
    have : ∀ (suf : List (Str × Node Unit Nat)) (xs : List K), (∀ kc ∈ suf, kc ∈ cs) →
        Cons.AlignedL (vecTreeL suf) (List.zipWith (fun c n => [Param.arr (c.take n)])
          (chunk xs (suf.map fun kc => kc.2.allValues.sum)) (suf.map (·.2.value))) := by
      intro suf
      induction suf with
      | nil => intro xs _; simp [vecTreeL, Cons.AlignedL]
      | cons kc suf ihs =>
        obtain ⟨k, c⟩ := kc
        intro xs h
        rw [vec_parts, vecTreeL]
        exact ⟨ih k c (h _ (by simp)) _, ihs _ fun kc hkc => h kc (List.mem_cons_of_mem _ hkc)⟩
    exact this cs xs fun _ h => h

private theorem vec_eval (n : Node Unit Nat) (xs : List K) :
    (vecTree (K := K) n).eval [] [.arr xs] = .ok (vecOut n xs) := by
  induction n using Node.induct generalizing xs with
  | _ t size cs ih =>
    have hcp := vec_childParams t size cs xs
    have : ∀ (suf : List (Str × Node Unit Nat)) (xs : List K), (∀ kc ∈ suf, kc ∈ cs) →
        Cons.evalL [] (vecTreeL suf) (suf.map fun _ => []) (List.zipWith (fun c n => [Param.arr (c.take n)])
          (chunk xs (suf.map fun kc => kc.2.allValues.sum)) (suf.map (·.2.value))) =
        .ok (vecOutL suf xs) := by
      intro suf
      induction suf with
      | nil => intro xs _; simp [vecTreeL, Cons.evalL, vecOutL]
      | cons kc suf ihs =>
        obtain ⟨k, c⟩ := kc
        intro xs h
        rw [vec_parts, vecTreeL]
        simp only [List.map_cons, Cons.evalL, pyMap, bind, Except.bind, ih k c (h _ (by simp)),
          ihs _ fun kc hkc => h kc (List.mem_cons_of_mem _ hkc), vecOutL]
    rw [vecTree] at hcp ⊢
    rw [Node.value_mk] at hcp
    rw [Cons.eval, hcp]
    simp only [bind, Except.bind, valueAssem, Param.toArr, this cs xs fun _ h => h, vecOut,
      Arr.atleast1d]

/-- C92, what the code does: `Vector(size_node)` called with an array returns the array followed by
what the children return, for every tree of sizes and every array (of any length). -/
theorem C92_behaviour (n : Node Unit Nat) (hw : n.WF) (hk : ∀ p m, n.At p m → [] ∉ m.keys) (xs : List K) :
    ∃ c, vector n = .ok c ∧ c.call [] [.arr xs] = .ok (vecOut n xs) :=
  ⟨vecTree n, vector_eq n hw hk, (Cons.call_ok_iff _ (vecTree_WF n hw) _ _ (vec_aligned n xs) _).mpr
    ⟨⟨by cases n; simp [vecTree], by cases n; simp [vecTree]⟩, vec_eval n xs⟩⟩

/-- C92, partly: a vector without child nodes returns the array. -/
theorem C92_array_partial (size : Nat) (xs : List K) :
    ∃ c, vector (.mk () size []) = .ok c ∧ c.call [] [.arr xs] = .ok xs := by
  obtain ⟨c, h1, h2⟩ := C92_behaviour (.mk () size []) (by rw [Node.WF_mk]; simp)
    (by intro p m hm; cases hm <;> simp_all [Node.keys]) xs
  exact ⟨c, h1, by simpa [vecOut, vecOutL] using h2⟩

attribute [local instance] exampleNum

/-- C92 is false for trees: with two child nodes of one entry each the entries are returned twice, and with
nodes below them the entries of those are lost. -/
theorem C92_counterexample :
    let leaf (n : Nat) : Node Unit Nat := .mk () n []
    callPy (vector (K := Rat) (.mk () 0 [(k!"a", leaf 1), (k!"b", leaf 1)])) [] [.arr [5, 7]]
      = .ok [5, 7, 5, 7] ∧
    callPy (vector (K := Rat) (.mk () 0 [(k!"a", .mk () 0 [(k!"c", leaf 2)]), (k!"b", leaf 1)])) []
      [.arr [5, 6, 7]] = .ok [5, 6, 7, 7] := by
  refine ⟨?_, ?_⟩ <;> decide +kernel

end MplLayout.Props
