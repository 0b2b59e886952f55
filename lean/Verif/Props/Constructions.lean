import Verif.Lemmas.ConstraintFlt
import Verif.Model.Flt
import Verif.Model.Shipped

/-!
# C21–C30: construction trees and their transforms (`constructions.py`)
-/

namespace MplLayout.Props

open Cons

variable {α K : Type}

/-! ## Rationals as numbers, for examples and counterexamples -/

/-- Rationals, with dummy roots and angles: enough to run examples by computation. -/
local instance exampleNum : PyNum Rat where
  natCast n := n
  sqrt x := x
  pow x y := if 0 ≤ y then x ^ y.num.toNat else (x ^ (-y).num.toNat)⁻¹
  atan2 _ _ := 0
  cos _ := 0
  sin _ := 0
  acos _ := 0
  pi := 3
  truthy x := x != 0
  lt x y := x < y
  le x y := x ≤ y

/-- The rectangle `[x0, x1] × [y0, y1]` as a primitive with rational coordinates. -/
def exRect (x0 y0 x1 y1 : Rat) : Prim Rat :=
  let pt (x y : Rat) : Prim Rat := .mk .point ⟨1, [x, y]⟩ []
  let ln (p q : Prim Rat) : Prim Rat := .mk .line ⟨2, []⟩ [(k!"Point0", p), (k!"Point1", q)]
  .mk .quadrilateral ⟨3, []⟩
    [(k!"Line0", ln (pt x0 y0) (pt x1 y0)), (k!"Line1", ln (pt x1 y0) (pt x1 y1)),
     (k!"Line2", ln (pt x1 y1) (pt x0 y1)), (k!"Line3", ln (pt x0 y1) (pt x0 y0))]

/-- The result of a call on a construction that may have failed to be built. -/
def callPy (c : Py (Cons K)) (prims : List (Prim K)) (params : List (Param K)) : Py (List K) := do
  (← c).call prims params

/-! ## C21 -/

/-- C21: a call returns `v` exactly when the arguments are accepted and recursive evaluation (own
value, then the children on the primitives their argument keys name and on their parameters) gives
`v`.  `Aligned` says that every child is assigned a tuple of keys and a tuple of parameters. -/
theorem C21_call_is_recursive_evaluation_partial (c : Cons K) (hc : c.WF) (prims : List (Prim K))
    (params : List (Param K)) (ha : c.Aligned params) (v : List K) :
    c.call prims params = .ok v ↔ c.Accepts prims params ∧ c.eval prims params = .ok v :=
  call_ok_iff c hc prims params ha v

/-- A nested construction: the widths of two boxes, each itself a compound. -/
def exNested : Cons Rat := mapCons (mapCons con.xLength 1) 2

example : Node.WF exNested := mapCons_WF (mapCons_WF (leaf_WF _ _) _) _
example : exNested.Aligned [] := by
  refine mapCons_aligned ?_ rfl
  intro ps hps
  refine mapCons_aligned ?_ hps
  intro ps hps
  exact (leaf_consistent _ _ _ hps).aligned

/-- Six unit squares at mutual distance 1, in two rows (first row on top) and three columns. -/
def exSquares : List (Prim Rat) :=
  [exRect 0 3 1 4, exRect 2 3 3 4, exRect 4 3 5 4, exRect 0 0 1 1, exRect 2 0 3 1, exRect 4 0 5 1]

/-- Without alignment the claim is false of the code: given one column margin instead of two, a
`Grid` of two rows and three columns silently uses the row margin as its second column margin (the
residual has the entry `1 - 2` for it) and drops the row margin, whereas recursive evaluation leaves
out the second column margin only. -/
theorem C21_grid_too_few_margins :
    let params := [.arr [1, 1], .arr [1], .arr [1], .arr [2]]
    callPy (ct.grid 2 3) exSquares params = .ok (List.replicate 32 0 ++ [-1]) ∧
    (do (← ct.grid 2 3).eval exSquares params) = .ok (List.replicate 33 0) := by
  constructor <;> decide +kernel

/-! ## C22 -/

/-- C22: the wrong number or classes of primitives, or the wrong number of parameters, raise
`TypeError`. -/
theorem C22_bad_arguments (c : Cons K) (prims : List (Prim K)) (params : List (Param K))
    (h : ¬ c.Accepts prims params) : c.call prims params = .error .typeError :=
  not_accepts_call h

/-- C22: validation passes exactly for matching arguments. -/
theorem C22_validation (c : Cons K) (prims : List (Prim K)) (params : List (Param K)) :
    (c.validatePrims prims = .ok () ∧ c.validateParams params = .ok ()) ↔ c.Accepts prims params :=
  and_congr (validatePrims_ok c prims).1 (validateParams_ok c params).1

example : ¬ (con.length : Cons Rat).Accepts [exRect 0 0 1 1] [] := by
  rintro ⟨h, _⟩
  cases h with
  | cons h _ => exact absurd ((PrimType.sub_iff _ _).2 h) (by decide)

example : (con.aspectRatio : Cons Rat).Accepts [exRect 0 0 1 1] [] :=
  ⟨.cons (.refl _) .nil, rfl⟩

/-! ## C23 -/

/-- C23: `chunk(array, sizes)` has one piece per size; if the sizes do not exceed the array in total
the pieces have these sizes and, joined, are the beginning of the array — all of it if the sizes add
up to its length. -/
theorem C23_chunk (array : List α) (sizes : List Nat) :
    (chunk array sizes).length = sizes.length ∧
    (sizes.sum ≤ array.length →
      (chunk array sizes).map List.length = sizes ∧
      (chunk array sizes).flatten = array.take sizes.sum) ∧
    (sizes.sum = array.length → (chunk array sizes).flatten = array) := by
  have hlen : ∀ (s : Nat) (l : List Nat), (cumsum s l).length = l.length + 1 := by
    intro s l
    induction l generalizing s with
    | nil => rfl
    | cons a l ih => simp [cumsum, ih]
  have hmain : sizes.sum ≤ array.length →
      (chunk array sizes).map List.length = sizes ∧
      (chunk array sizes).flatten = array.take sizes.sum := by
    intro h
    obtain ⟨vals, h1, h2⟩ := exists_pieces sizes (array.take sizes.sum) (by simp [h])
    have hu : chunk array sizes = vals := by
      have := unpack_cumsum vals [] (array.drop sizes.sum)
      rw [h1, h2] at this
      simpa [chunk] using this
    rw [hu]
    exact ⟨h1, h2⟩
  refine ⟨?_, hmain, fun h => ?_⟩
  · simp [chunk, unpack, hlen]
  · rw [(hmain h.le).2, h, List.take_length]

example : chunk [5, 6, 7, 8] [1, 0, 3] = [[5], [], [6, 7, 8]] := by decide
example : chunk [5, 6, 7] [1, 1] = [[5], [6]] := by decide

/-! ## C24 -/

section
variable [PyNum K]

/-- C24, partly: `a + b` evaluated on both argument lists is the entrywise sum, if `b`'s children
take no primitives — which holds for every leaf construction.  (For compound `b` the claim is false,
see below.)  `Consistent` and `Sized`: the number of parameters handed to each node and the number
of entries it returns are those it declares. -/
theorem C24_sum_partial (a b : Cons K) (ha : a.WF) (hb : b.WF) (hshape : a.SameShape b)
    (hnp : b.NoPrimRefs) (pa pb : List (Prim K)) (qa qb : List (Param K)) (va vb : List K)
    (hca : a.Consistent qa) (hcb : b.Consistent qb) (hza : a.Sized pa qa) (hzb : b.Sized pb qb)
    (hea : a.call pa qa = .ok va) (heb : b.call pb qb = .ok vb) :
    ∃ s, transformSum a b = .ok s ∧ va.length = vb.length ∧
      s.call (pa ++ pb) (qa ++ qb) = .ok (List.zipWith (· + ·) va vb) := by
  have hsh : Shape a b := (Shape_iff ha hb).mpr hshape
  rcases transformSum_cases a b ha with ⟨_, h⟩ | ⟨h, _⟩
  · refine ⟨_, h, ?_, sum_call ha hsh hnp hca hcb hza hzb hb hea heb⟩
    have ea := (call_ok_iff a ha pa qa hca.aligned va).mp hea
    have eb := (call_ok_iff b hb pb qb hcb.aligned vb).mp heb
    exact (sum_eval a b hsh hnp pa pb qa qb va vb ea.1.1.length_eq eb.1.1.length_eq hca hcb hza hzb
      ea.2 eb.2).1
  · exact absurd hsh h

/-- C24 for leaf constructions of the same declared size, without side conditions on trees. -/
theorem C24_sum_of_leaves_partial (ca cb : ConsClass K) (sa sb : ConsSig)
    (hs : sa.valueSize = sb.valueSize) (pa pb : List (Prim K)) (qa qb : List (Param K))
    (va vb : List K) (hea : (leaf ca sa).call pa qa = .ok va)
    (heb : (leaf cb sb).call pb qb = .ok vb)
    (hva : va.length = sa.valueSize) (hvb : vb.length = sb.valueSize) :
    ∃ s, transformSum (leaf ca sa) (leaf cb sb) = .ok s ∧
      s.call (pa ++ pb) (qa ++ qb) = .ok (List.zipWith (· + ·) va vb) := by
  obtain ⟨acca, xa, exa, rfl⟩ := (leaf_call ca sa pa qa va).mp hea
  obtain ⟨accb, xb, exb, rfl⟩ := (leaf_call cb sb pb qb vb).mp heb
  obtain ⟨s, h1, _, h2⟩ := C24_sum_partial (leaf ca sa) (leaf cb sb) (leaf_WF _ _) (leaf_WF _ _)
    (by
      intro p m hm
      cases hm with
      | here => exact ⟨_, .here _, rfl, hs.symm⟩
      | down hmem _ => simp [leaf] at hmem)
    (leaf_noPrimRefs _ _) pa pb qa qb _ _ (leaf_consistent _ _ _ acca.2)
    (leaf_consistent _ _ _ accb.2)
    (leaf_sized _ _ _ _ fun x hx => by rw [exa] at hx; cases hx; exact hva)
    (leaf_sized _ _ _ _ fun x hx => by rw [exb] at hx; cases hx; exact hvb) hea heb
  exact ⟨s, h1, h2⟩

end

/-- C24 is false for compound constructions: `Width() + Width()` on boxes of widths 1 and 10 gives
2, not 11, because the child of the second operand still refers to `arg0`. -/
theorem C24_compound_counterexample :
    callPy con.width [exRect 0 0 1 1] [] = .ok [(1 : Rat)] ∧
    callPy con.width [exRect 0 0 10 1] [] = .ok [(10 : Rat)] ∧
    callPy (do transformSum (← con.width) (← con.width)) [exRect 0 0 1 1, exRect 0 0 10 1] []
      = .ok [(2 : Rat)] := by
  refine ⟨?_, ?_, ?_⟩ <;> decide +kernel

/-- The horizontal and vertical extents of two points: leaves that can be added. -/
example : (con.xDistance : Cons Rat).SameShape con.yDistance ∧
    (con.yDistance : Cons Rat).NoPrimRefs ∧
    callPy (transformSum con.xDistance con.yDistance)
      [.mk .point ⟨1, [1, 2]⟩ [], .mk .point ⟨1, [4, 9]⟩ [], .mk .point ⟨1, [1, 2]⟩ [],
       .mk .point ⟨1, [4, 9]⟩ []] [] = .ok [(3 : Rat) + 7] := by
  refine ⟨?_, leaf_noPrimRefs _ _, by decide +kernel⟩
  intro p m hm
  cases hm with
  | here => exact ⟨_, .here _, rfl, rfl⟩
  | down hmem _ => simp [con.xDistance, con.leaf0, leaf] at hmem

/-! ## C25 -/

/-- C25: `a + b` succeeds exactly when the two trees have the same child keys and declared sizes at
every node; otherwise it raises `AssertionError`. -/
theorem C25_sum_shape [PyNum K] (a b : Cons K) (ha : a.WF) (hb : b.WF) :
    (a.SameShape b → ∃ s, transformSum a b = .ok s) ∧
    (¬ a.SameShape b → transformSum a b = .error .assertionError) := by
  rw [← Shape_iff ha hb]
  rcases transformSum_cases a b ha with ⟨h1, h2⟩ | ⟨h1, h2⟩
  · exact ⟨fun _ => ⟨_, h2⟩, fun h => absurd h1 h⟩
  · exact ⟨fun h => absurd h h1, fun _ => h2⟩

example : ¬ (con.length : Cons Rat).SameShape con.lineVector := by
  intro h
  obtain ⟨m', hm, _, e⟩ := h [] _ (.here _)
  cases hm
  simp [con.length, con.lineVector, con.leaf0, leaf] at e

/-! ## C26 -/

section
variable [PyNum K]

/-- Scaling by anything that acts as the number `y`, whatever the number of parameters. -/
theorem scaled_call {b : Cons K} {extra : List (Param K)} {y : K} (hb : ActsAs b extra y)
    {name : Str} {combine : Arr K → Arr K → Py (Arr K)} {g : K → K}
    (hg : ∀ x : Arr K, combine x (.scalar y) = .ok (x.map g)) (c : Cons K) (hw : c.WF)
    (prims : List (Prim K)) (params : List (Param K))
    (hc : params.length = c.value.sig.paramTypes.length → c.Consistent params) (w : List K) :
    (mapTree (fun a => scalarNode name combine a b) c).call prims (params ++ extra) = .ok w ↔
      ∃ v, c.call prims params = .ok v ∧ w = v.map g := by
  by_cases h : params.length = c.value.sig.paramTypes.length
  · exact scalar_call hb hg c hw prims params (hc h) w
  · constructor
    · intro hcall
      have := (call_accepts hcall).2
      rw [scalar_sig] at this
      simp only [ConsSig.concat, List.length_append, hb.params] at this
      omega
    · rintro ⟨v, hcall, _⟩
      exact absurd (call_accepts hcall).2 h

/-- C26: `c * s` for a number `s` returns `s` times every entry of `c`, on the same arguments (and
fails if `c` does).  `c` is any construction other than a `Scalar`, in whose tree the numbers of
parameters handed down are the declared ones. -/
theorem C26_number_multiple_partial (c : Cons K) (hw : c.WF) (hs : c.ty.isScalar = false) (s : K)
    (prims : List (Prim K)) (params : List (Param K))
    (hc : params.length = c.value.sig.paramTypes.length → c.Consistent params) :
    ∃ m, pyMul c (.num s) = .ok m ∧ transformScalarMul c (.num s) = .ok m ∧
      ∀ w, m.call prims params = .ok w ↔ ∃ v, c.call prims params = .ok v ∧ w = v.map (s * ·) := by
  have h := transformScalarMul_eq hw (toScalar_num s)
  refine ⟨_, by simpa [pyMul, hs] using h, h, fun w => ?_⟩
  have := scaled_call (numScalar_acts s) (name := k!"ScalarMultipleConstruction")
    (combine := fun x y => y.mul x) (fun x => scalar_mul_map x s) c hw prims params hc w
  rwa [List.append_nil] at this

/-- C26: `-c` negates every entry (as `-1 * x`). -/
theorem C26_negative (c : Cons K) (hw : c.WF) (prims : List (Prim K)) (params : List (Param K))
    (hc : params.length = c.value.sig.paramTypes.length → c.Consistent params) :
    ∃ m, transformScalarMul c (.num (-1)) = .ok m ∧
      ∀ w, m.call prims params = .ok w ↔
        ∃ v, c.call prims params = .ok v ∧ w = v.map ((-1 : K) * ·) := by
  have h := transformScalarMul_eq hw (toScalar_num (-1 : K))
  refine ⟨_, h, fun w => ?_⟩
  have := scaled_call (numScalar_acts (-1 : K)) (name := k!"ScalarMultipleConstruction")
    (combine := fun x y => y.mul x) (fun x => scalar_mul_map x (-1)) c hw prims params hc w
  rwa [List.append_nil] at this

/-- C26: multiplying by a `Scalar()` (on either side) adds one last parameter, the factor. -/
theorem C26_scalar_multiple (c : Cons K) (hw : c.WF) (hs : c.ty.isScalar = false)
    (prims : List (Prim K)) (params : List (Param K))
    (hc : params.length = c.value.sig.paramTypes.length → c.Consistent params) :
    ∃ m, pyMul c (.cons scalarCons) = .ok m ∧ pyMul scalarCons (.cons c) = .ok m ∧
      ∀ s w, m.call prims (params ++ [.num s]) = .ok w ↔
        ∃ v, c.call prims params = .ok v ∧ w = v.map (s * ·) := by
  have h := transformScalarMul_eq (s := .cons (scalarCons (K := K))) hw (b := scalarCons) rfl
  refine ⟨_, by simpa [pyMul, hs] using h, h, fun s w => ?_⟩
  exact scaled_call (scalarCons_acts (p := .num s) rfl) (name := k!"ScalarMultipleConstruction")
    (combine := fun x y => y.mul x) (fun x => scalar_mul_map x s) c hw prims params hc w

/-- C26: multiplying by a construction that is not a `Scalar` is refused. -/
theorem C26_not_scalar (c b : Cons K) (hb : b.ty.isScalar = false) :
    transformScalarMul c (.cons b) = .error .typeError := by
  simp [transformScalarMul, toScalar, hb, bind, Except.bind]

/-- C26 is false of the expression `Scalar() * 2.0`, which raises `AttributeError`. -/
theorem C26_scalar_times_number (s : K) :
    pyMul scalarCons (.num s) = .error .attributeError := rfl

end

/-- Over the reals, `-c` really negates: `-1 * x = -x`. -/
theorem C26_neg_one_mul (x : Flt) : (-1 : Flt) * x = -x := by
  cases x with
  | fin x => show Flt.fin (-1) * Flt.fin x = _; simp
  | bad => simp

theorem exNested_consistent (ps : List (Param Rat)) (h : ps.length = 0) :
    exNested.Consistent ps := by
  refine mapCons_consistent (by simp [mapCons, con.xLength, con.leaf0, leaf]) ?_ h
  intro ps hps
  refine mapCons_consistent (by simp [con.xLength, con.leaf0, leaf]) ?_ hps
  intro ps hps
  exact leaf_consistent _ _ _ hps

/-- Two lines. -/
def exLines : List (Prim Rat) :=
  let pt (x y : Rat) : Prim Rat := .mk .point ⟨1, [x, y]⟩ []
  let ln (p q : Prim Rat) : Prim Rat := .mk .line ⟨2, []⟩ [(k!"Point0", p), (k!"Point1", q)]
  [ln (pt 0 0) (pt 2 1), ln (pt 1 1) (pt 6 1)]

example : Node.WF exNested ∧ exNested.ty.isScalar = false ∧
    exNested.call exLines [] = .ok [2, 5] ∧
    callPy (pyMul exNested (.num 3)) exLines [] = .ok [6, 15] ∧
    callPy (pyMul exNested (.cons scalarCons)) exLines [.num 4] = .ok [8, 20] :=
  ⟨mapCons_WF (mapCons_WF (leaf_WF _ _) _) _, rfl, by decide +kernel, by decide +kernel,
    by decide +kernel⟩

/-! ## C27 -/

section
variable [PyNum K]

/-- C27: `c ** s` raises every entry to the power `s`. -/
theorem C27_number_power (c : Cons K) (hw : c.WF) (s : K)
    (prims : List (Prim K)) (params : List (Param K))
    (hc : params.length = c.value.sig.paramTypes.length → c.Consistent params) :
    ∃ m, transformScalarPow c (.num s) = .ok m ∧
      ∀ w, m.call prims params = .ok w ↔
        ∃ v, c.call prims params = .ok v ∧ w = v.map (PyNum.pow · s) := by
  have h := transformScalarPow_eq hw (toScalar_num s)
  refine ⟨_, h, fun w => ?_⟩
  have := scaled_call (numScalar_acts s) (name := k!"ScalarPowerConstruction")
    (combine := fun x y => x.pow y) (fun x => scalar_pow_map x s) c hw prims params hc w
  rwa [List.append_nil] at this

/-- C27: with a `Scalar()` the exponent is the extra last parameter. -/
theorem C27_scalar_power (c : Cons K) (hw : c.WF)
    (prims : List (Prim K)) (params : List (Param K))
    (hc : params.length = c.value.sig.paramTypes.length → c.Consistent params) :
    ∃ m, transformScalarPow c (.cons scalarCons) = .ok m ∧
      ∀ s w, m.call prims (params ++ [.num s]) = .ok w ↔
        ∃ v, c.call prims params = .ok v ∧ w = v.map (PyNum.pow · s) := by
  have h := transformScalarPow_eq (s := .cons (scalarCons (K := K))) hw (b := scalarCons) rfl
  refine ⟨_, h, fun s w => ?_⟩
  exact scaled_call (scalarCons_acts (p := .num s) rfl) (name := k!"ScalarPowerConstruction")
    (combine := fun x y => x.pow y) (fun x => scalar_pow_map x s) c hw prims params hc w

/-- The reciprocal of something acting as `y` acts as `y ** -1`. -/
theorem recip_acts {b : Cons K} (hb0 : b.children = []) {extra : List (Param K)} {y : K}
    (hb : ActsAs b extra y) : ActsAs (powTree (numScalar (-1)) b) extra (PyNum.pow y (-1)) := by
  cases b with
  | mk t v cs =>
    have h1 : v.sig.primTypes = [] := hb.prims
    have h2 : extra.length = v.sig.paramTypes.length := hb.params
    have h3 : t.assem [] extra = .ok (.scalar y) := hb.value
    refine ⟨?_, ?_, ?_⟩
    · simp [powTree, mapTree, scalarNode, ConsSig.concat, h1, numScalar]
    · simp [powTree, mapTree, scalarNode, ConsSig.concat, h2, numScalar]
    · have hs : split2 v.sig.paramTypes.length 0 extra = (extra, []) := by
        have := split2_append (a := v.sig.paramTypes.length) (b := 0) (xs := extra) (ys := []) h2 rfl
        simpa using this
      have e : (powTree (numScalar (-1)) (.mk t v cs)).ty.assem [] extra = (do
          let y' ← (numScalar (-1 : K)).ty.assem
            (split2 v.sig.primTypes.length 0 ([] : List (Prim K))).2
            (split2 v.sig.paramTypes.length 0 extra).2
          let x ← t.assem (split2 v.sig.primTypes.length 0 ([] : List (Prim K))).1
            (split2 v.sig.paramTypes.length 0 extra).1
          x.pow y') := rfl
      rw [e, hs, h1]
      simp only [List.length_nil, split2_zero, numScalar_assem, h3, bind, Except.bind]
      rfl

theorem transformScalarDiv_eq {c : Cons K} (hw : c.WF) (s : Operand K) {b : Cons K}
    (hs : s = .cons b ∨ ∃ x, s = .num x ∧ b = numScalar x) (hb : b.ty.isScalar = true)
    (hbw : b.WF) :
    transformScalarDiv c s = .ok (mulTree (powTree (numScalar (-1)) b) c) := by
  have h1 := transformScalarPow_eq hbw (toScalar_num (-1 : K))
  have h2 : (powTree (numScalar (-1)) b).ty.isScalar = true := by
    cases b; exact hb
  have h3 := transformScalarMul_eq (s := .cons (powTree (numScalar (-1)) b)) hw
    (b := powTree (numScalar (-1)) b) (by simp [toScalar, h2])
  unfold transformScalarDiv
  rcases hs with rfl | ⟨x, rfl, rfl⟩
  · simp only [hb, if_true, bind, Except.bind, h1, h3]
  · have h0 : transformPartial scalarCons [.num x] = .ok (numScalar x) := toScalar_num x
    simp only [h0, bind, Except.bind, h1, h3]

/-- C27: `c / s` multiplies every entry by `s ** -1`, for a number `s` or for the last parameter
`s`. -/
theorem C27_quotient (c : Cons K) (hw : c.WF) (prims : List (Prim K)) (params : List (Param K))
    (hc : params.length = c.value.sig.paramTypes.length → c.Consistent params) :
    (∀ s, ∃ m, transformScalarDiv c (.num s) = .ok m ∧
      ∀ w, m.call prims params = .ok w ↔
        ∃ v, c.call prims params = .ok v ∧ w = v.map (PyNum.pow s (-1) * ·)) ∧
    ∃ m, transformScalarDiv c (.cons scalarCons) = .ok m ∧
      ∀ s w, m.call prims (params ++ [.num s]) = .ok w ↔
        ∃ v, c.call prims params = .ok v ∧ w = v.map (PyNum.pow s (-1) * ·) := by
  constructor
  · intro s
    refine ⟨_, transformScalarDiv_eq hw (.num s) (b := numScalar s) (.inr ⟨s, rfl, rfl⟩) rfl ?_,
      fun w => ?_⟩
    · rw [numScalar, Node.WF_mk]; simp
    · have := scaled_call (recip_acts rfl (numScalar_acts s))
        (name := k!"ScalarMultipleConstruction")
        (combine := fun x y => y.mul x) (fun x => scalar_mul_map x _) c hw prims params hc w
      rwa [List.append_nil] at this
  · refine ⟨_, transformScalarDiv_eq hw (.cons scalarCons) (.inl rfl) rfl (leaf_WF _ _),
      fun s w => ?_⟩
    exact scaled_call (recip_acts rfl (scalarCons_acts (p := .num s) rfl))
      (name := k!"ScalarMultipleConstruction")
      (combine := fun x y => y.mul x) (fun x => scalar_mul_map x _) c hw prims params hc w

end

/-- Multiplying by `s ** -1` is dividing by `s`, for a nonzero real number `s`. -/
theorem C27_recip (s : ℝ) (hs : s ≠ 0) (x : Flt) :
    PyNum.pow (Flt.fin s) (-1) * x = x / Flt.fin s := by
  have h : PyNum.pow (Flt.fin s) (-1) = Flt.fin s⁻¹ := by
    show Flt.pow (.fin s) (.fin (-1)) = _
    simp only [Flt.pow]
    rw [if_neg (by tauto), if_neg]
    · rw [Real.rpow_neg_one]
    · rintro ⟨_, h⟩; exact h ⟨-1, by simp⟩
  rw [h]
  cases x with
  | fin x => rw [Flt.fin_div hs, Flt.fin_mul, div_eq_inv_mul]
  | bad => simp

/-- C27: over the reals `c / s` divides every entry by the number `s ≠ 0`, or by the last
parameter `s ≠ 0`. -/
theorem C27_real_quotient (c : Cons Flt) (hw : c.WF) (prims : List (Prim Flt))
    (params : List (Param Flt))
    (hc : params.length = c.value.sig.paramTypes.length → c.Consistent params) :
    (∀ s : ℝ, s ≠ 0 → ∃ m, transformScalarDiv c (.num (.fin s)) = .ok m ∧
      ∀ w, m.call prims params = .ok w ↔
        ∃ v, c.call prims params = .ok v ∧ w = v.map (· / Flt.fin s)) ∧
    ∃ m, transformScalarDiv c (.cons scalarCons) = .ok m ∧
      ∀ (s : ℝ) w, s ≠ 0 → (m.call prims (params ++ [.num (.fin s)]) = .ok w ↔
        ∃ v, c.call prims params = .ok v ∧ w = v.map (· / Flt.fin s)) := by
  obtain ⟨h1, m, h2, h3⟩ := C27_quotient c hw prims params hc
  constructor
  · intro s hs
    obtain ⟨m, e, h⟩ := h1 (.fin s)
    refine ⟨m, e, fun w => ?_⟩
    rw [h]
    simp only [C27_recip s hs]
  · refine ⟨m, h2, fun s w hs => ?_⟩
    rw [h3]
    simp only [C27_recip s hs]

/-- C27: over the reals a natural power is the usual one. -/
theorem C27_real_power (x : ℝ) (n : ℕ) :
    PyNum.pow (Flt.fin x) (Flt.fin n) = Flt.fin (x ^ n) := by
  show Flt.pow _ _ = _
  simp only [Flt.pow]
  rw [if_neg, if_neg, Real.rpow_natCast]
  · rintro ⟨_, h⟩; exact h ⟨n, by simp⟩
  · rintro ⟨_, h⟩; exact absurd h (by simp)

example : callPy (transformScalarPow exNested (.num 2)) exLines [] = .ok [4, 25] ∧
    callPy (transformScalarDiv exNested (.num 2)) exLines [] = .ok [1, 5/2] ∧
    callPy (transformScalarDiv exNested (.cons scalarCons)) exLines [.num 5] = .ok [2/5, 1] :=
  ⟨by decide +kernel, by decide +kernel, by decide +kernel⟩

/-! ## C28 -/

section

/-- C28, partly: freezing between one and all of the trailing parameters gives a construction whose
calls are the calls of `c` with the frozen parameters appended, errors included.  (Freezing none is
the case in which the claim fails, see below.) -/
theorem C28_freeze_partial (c : Cons K) (hk : c.value.childPrimKeys.length = c.children.length)
    (hne : [] ∉ c.keys) (frozen : List (Param K)) (h1 : frozen ≠ [])
    (h2 : frozen.length ≤ c.value.sig.paramTypes.length) :
    ∃ c', transformPartial c frozen = .ok c' ∧
      ∀ prims params, c'.call prims params = c.call prims (params ++ frozen) := by
  have h : ∃ c', transformPartial c frozen = .ok c' := by
    unfold transformPartial
    refine ⟨_, consInit_ok ?_ ?_⟩
    · exact hk
    · exact hne
  obtain ⟨c', h⟩ := h
  exact ⟨c', h, fun prims params => partial_call h1 h2 h prims params⟩

/-- C28 is false when no parameter is frozen: `transform_partial(Scalar())` loses the parameter, so
a call with it is refused. -/
theorem C28_none_frozen_counterexample :
    callPy (do .ok (scalarCons : Cons Rat)) [] [.num 3] = .ok [3] ∧
    callPy (transformPartial (scalarCons : Cons Rat) []) [] [.num 3] = .error .typeError ∧
    callPy (transformPartial (scalarCons : Cons Rat) []) [] [] = .error .typeError := by
  refine ⟨?_, ?_, ?_⟩ <;> decide +kernel

/-- It does hold for constructions without parameters. -/
theorem C28_none_frozen_partial (c : Cons K)
    (hk : c.value.childPrimKeys.length = c.children.length) (hne : [] ∉ c.keys)
    (h0 : c.value.sig.paramTypes = []) :
    ∃ c', transformPartial c [] = .ok c' ∧
      ∀ prims params, c'.call prims params = c.call prims params := by
  have h : ∃ c', transformPartial c [] = .ok c' := ⟨_, consInit_ok hk hne⟩
  obtain ⟨c', h⟩ := h
  refine ⟨c', h, fun prims params => ?_⟩
  have := partial_call' (by simp) (by rw [h0]; rfl) h prims params
  rwa [List.append_nil] at this

example : callPy (transformPartial (con.directedDistance : Cons Rat) [.arr [0, 1]])
    [.mk .point ⟨1, [1, 2]⟩ [], .mk .point ⟨2, [5, 9]⟩ []] [] = .ok [7] := by decide +kernel

end

/-! ## C29 -/

/-- C29, partly, for a number: if all children of `c` are leaves (which covers leaves, `Width`,
`Height`, `InnerMargin`, `OuterMargin`, …) then `transform_constraint(c)(prims, *params, x)` is
`c(prims, *params)` with `x` subtracted from every entry.  Missing: deeper trees, for which the
claim is false (see below). -/
theorem C29_number_partial (c : Cons Flt) (hw : c.WF) (hk : ∀ p m, c.At p m → [] ∉ m.keys)
    (hleaf : ∀ kc ∈ c.children, Node.children kc.2 = [])
    (prims : List (Prim Flt)) (params : List (Param Flt)) (hcon : c.Consistent params)
    (hsz : c.Sized prims params) (v : List Flt) (hcall : c.call prims params = .ok v) (x : Flt) :
    ∃ r, transformConstraint c = .ok r ∧
      r.call prims (params ++ [.num x]) = .ok (v.map (· - x)) := by
  rw [call_ok_iff c hw prims params hcon.aligned] at hcall
  obtain ⟨h1, h2, h3⟩ := cstr_num hw hleaf hcon hsz hcall.1 hcall.2 x
  exact ⟨_, transformConstraint_eq hw hk,
    (call_ok_iff _ (sumTree_WF hw (negVec_shape _)) _ _ h3 _).mpr ⟨h1, h2⟩⟩

/-- C29, partly, for an array with one entry per output, for leaf constructions. -/
theorem C29_array_partial (c : Cons Flt) (hw : c.WF) (hleaf : c.children = [])
    (prims : List (Prim Flt)) (params : List (Param Flt)) (hcon : c.Consistent params)
    (hsz : c.Sized prims params) (v : List Flt) (hcall : c.call prims params = .ok v)
    (xs : List Flt) (hxs : xs.length = v.length) :
    ∃ r, transformConstraint c = .ok r ∧
      r.call prims (params ++ [.arr xs]) = .ok (List.zipWith (· - ·) v xs) := by
  rw [call_ok_iff c hw prims params hcon.aligned] at hcall
  obtain ⟨h1, h2, h3⟩ := cstr_arr hw hleaf hcon hsz hcall.1 hcall.2 hxs
  exact ⟨_, transformConstraint_eq hw (KeysNE_leaf hleaf),
    (call_ok_iff _ (sumTree_WF hw (negVec_shape _)) _ _ h3 _).mpr ⟨h1, h2⟩⟩

/-- C29, partly, for an array with one entry: like the number, for leaf constructions of every size. -/
theorem C29_one_entry_partial (c : Cons Flt) (hw : c.WF) (hleaf : c.children = [])
    (prims : List (Prim Flt)) (params : List (Param Flt)) (hcon : c.Consistent params)
    (hsz : c.Sized prims params) (v : List Flt) (hcall : c.call prims params = .ok v) (q : Flt) :
    ∃ r, transformConstraint c = .ok r ∧
      r.call prims (params ++ [.arr [q]]) = .ok (v.map (· - q)) := by
  rw [call_ok_iff c hw prims params hcon.aligned] at hcall
  obtain ⟨h1, h2, h3⟩ := cstr_one hw hleaf hcon hsz hcall.1 hcall.2 q
  exact ⟨_, transformConstraint_eq hw (KeysNE_leaf hleaf),
    (call_ok_iff _ (sumTree_WF hw (negVec_shape _)) _ _ h3 _).mpr ⟨h1, h2⟩⟩

/-- C29, partly, for a Boolean: `True` is 1 and `False` is 0, for leaf constructions of every size. -/
theorem C29_bool_partial (c : Cons Flt) (hw : c.WF) (hleaf : c.children = [])
    (prims : List (Prim Flt)) (params : List (Param Flt)) (hcon : c.Consistent params)
    (hsz : c.Sized prims params) (v : List Flt) (hcall : c.call prims params = .ok v) (b : Bool) :
    ∃ r, transformConstraint c = .ok r ∧
      r.call prims (params ++ [.bool b]) = .ok (v.map (· - (if b then 1 else 0))) := by
  rw [call_ok_iff c hw prims params hcon.aligned] at hcall
  obtain ⟨h1, h2, h3⟩ := cstr_bool hw hleaf hcon hsz hcall.1 hcall.2 b
  exact ⟨_, transformConstraint_eq hw (KeysNE_leaf hleaf),
    (call_ok_iff _ (sumTree_WF hw (negVec_shape _)) _ _ h3 _).mpr ⟨h1, h2⟩⟩

/-- The hypotheses of C29 hold for the coordinates of a point. -/
example (x y : ℝ) : let p : Prim Flt := .mk .point ⟨1, [.fin x, .fin y]⟩ []
    (con.coordinate : Cons Flt).WF ∧ Node.children (con.coordinate : Cons Flt) = [] ∧
    (con.coordinate : Cons Flt).Consistent [] ∧ (con.coordinate : Cons Flt).Sized [p] [] ∧
    (con.coordinate : Cons Flt).call [p] [] = .ok [.fin x, .fin y] := by
  refine ⟨leaf_WF _ _, rfl, leaf_consistent _ _ _ rfl, leaf_sized _ _ _ _ ?_, ?_⟩
  · intro a h; cases h; rfl
  · exact (leaf_call _ _ _ _ _).mpr ⟨⟨.cons (.refl _) .nil, rfl⟩, _, rfl, rfl⟩

/-- C29 is false for arrays on compound constructions: the widths of two boxes, constrained to
`[1, 1]`, cannot be evaluated (the two target values are added to the empty own value of the
compound). -/
theorem C29_compound_array_counterexample :
    let widths : Py (Cons Rat) := transformMap con.xLength 2
    callPy widths exLines [] = .ok [2, 5] ∧
    callPy (do transformConstraint (← widths)) exLines [.arr [1, 1]] = .error .valueError ∧
    callPy (do transformConstraint (← widths)) exLines [.num 1] = .ok [1, 4] := by
  refine ⟨?_, ?_, ?_⟩ <;> decide +kernel

/-- C29 is false for trees of depth two, even for a number: constraining the widths (a compound
construction) of two boxes to 1 gives a residual without entries. -/
theorem C29_deep_counterexample :
    let widths : Py (Cons Rat) := do transformMap (← con.width) 2
    callPy widths [exRect 0 0 3 1, exRect 0 0 5 1] [] = .ok [3, 5] ∧
    callPy (do transformConstraint (← widths)) [exRect 0 0 3 1, exRect 0 0 5 1] [.num 1]
      = .ok [] := by
  refine ⟨?_, ?_⟩ <;> decide +kernel

/-! ## C30 -/

/-- C30: `transform_map(c, N types)`, where `c` takes `1 + M ≤ N` primitives and `P` parameters,
accepts `N` primitives and `(N - M) P` parameters, and returns the concatenation of
`c(prims[n], *prims[N-M:])` with the `n`-th block of `P` parameters, for `n < N - M`. -/
theorem C30_map (c : Cons K) (hw : c.WF) (hne : c.value.sig.primTypes ≠ [])
    (ha : ∀ ps : List (Param K), ps.length = c.value.sig.paramTypes.length → c.Aligned ps)
    (N M P : Nat) (hM : c.value.sig.primTypes.length = 1 + M)
    (hP : c.value.sig.paramTypes.length = P) (hn : 1 + M ≤ N) :
    ∃ m, transformMap c N = .ok m ∧
      ∀ prims params v, m.call prims params = .ok v ↔
        prims.length = N ∧ params.length = (N - M) * P ∧
        ∃ vs : List (List K), vs.length = N - M ∧ v = vs.flatten ∧
          ∀ n p w, n < N - M → prims[n]? = some p → vs[n]? = some w →
            c.call (p :: prims.drop (N - M)) ((params.drop (n * P)).take P) = .ok w := by
  refine ⟨_, transformMap_eq c N, fun prims params v => ?_⟩
  have hnum : N + 1 - c.value.sig.primTypes.length = N - M := by omega
  have := map_call hw hne ha (n := N) (by omega) prims params v
  rw [hnum, hP] at this
  exact this

example : (con.directedDistance : Cons Rat).WF ∧
    (∀ ps : List (Param Rat), ps.length = 1 → (con.directedDistance : Cons Rat).Aligned ps) ∧
    callPy (transformMap (con.directedDistance : Cons Rat) 3)
      [.mk .point ⟨1, [1, 2]⟩ [], .mk .point ⟨2, [5, 9]⟩ [], .mk .point ⟨3, [0, 0]⟩ []]
      [.arr [1, 0], .arr [0, 1]] = .ok [-1, -9] :=
  ⟨leaf_WF _ _, fun ps h => (leaf_consistent _ ⟨_, [_], _⟩ ps h).aligned, by decide +kernel⟩

end MplLayout.Props
