import Verif.Lemmas.Transforms2

/-! Lemmas about `Vector` and `transform_constraint`. -/

namespace MplLayout

variable {K : Type}

/-- No child key in the tree is the empty string (`ConstructionNode.__init__` guarantees it). -/
def Node.KeysNE {τ α : Type} (n : Node τ α) : Prop := ∀ p m, n.At p m → [] ∉ m.keys

theorem Node.KeysNE_mk {τ α : Type} {t : τ} {v : α} {cs : List (Str × Node τ α)} :
    (Node.mk t v cs).KeysNE ↔ [] ∉ cs.map (·.1) ∧ ∀ k c, (k, c) ∈ cs → c.KeysNE := by
  constructor
  · intro h
    exact ⟨h [] _ (.here _), fun k c hc p m hm => h (k :: p) m (.down hc hm)⟩
  · rintro ⟨h1, h2⟩ p m hm
    cases hm with
    | here => exact h1
    | down hc hm => exact h2 _ _ hc _ _ hm

theorem consInit_ok {cls : ConsClass K} {v : ConsVal K} {cs : List (Str × Cons K)}
    (h1 : v.childPrimKeys.length = cs.length) (h2 : [] ∉ cs.map (·.1)) :
    consInit cls v cs = .ok (.mk cls v cs) := by
  unfold consInit
  rw [if_neg (fun h => h h1), if_neg]
  simp only [List.any_eq_true, List.isEmpty_iff]
  rintro ⟨⟨k, c⟩, hm, rfl⟩
  exact h2 (List.mem_map.mpr ⟨_, hm, rfl⟩)

theorem construction_ok {cls : ConsClass K} {keys : List Str} {children : List (Cons K)}
    {ks : List (List Str)} {cp : List (Param K) → Py (List (List (Param K)))} {sig : ConsSig}
    (hn : keys.Nodup) (h0 : [] ∉ keys) (h1 : ks.length = min keys.length children.length) :
    construction cls keys children ks cp sig = .ok (.mk cls ⟨ks, cp, sig⟩ (keys.zip children)) := by
  unfold construction
  rw [dictOfZip_of_nodup hn]
  apply consInit_ok
  · simpa using h1
  · intro h
    obtain ⟨⟨k, c⟩, hm, rfl⟩ := List.mem_map.mp h
    exact h0 (List.of_mem_zip hm).1

section
variable [PyNum K]

/-! ## Numbers as scalars -/

/-- `transform_partial(Scalar(), x)`. -/
def numScalar (x : K) : Cons K :=
  .mk { name := k!"Partial", isScalar := true,
        assem := fun prims params => valueAssem prims (params ++ [.num x]) }
    ⟨[], fun _ => .ok [], ⟨[], [], 1⟩⟩ []

theorem toScalar_num (x : K) : toScalar (.num x) = .ok (numScalar x) := rfl

theorem numScalar_acts (x : K) : ActsAs (numScalar x) [] x := ⟨rfl, rfl, rfl⟩

theorem scalarCons_acts {p : Param K} {y : K} (h : p.toArr = .ok (.scalar y)) :
    ActsAs scalarCons [p] y := ⟨rfl, rfl, h⟩

theorem scalar_mul_map (x : Arr K) (y : K) :
    (Arr.scalar y).mul x = .ok (x.map (y * ·)) := by cases x <;> rfl

theorem scalar_pow_map (x : Arr K) (y : K) :
    x.pow (.scalar y) = .ok (x.map (PyNum.pow · y)) := by cases x <;> rfl

/-- The tree of `transform_scalar_mul(c, s)`. -/
def mulTree (b c : Cons K) : Cons K :=
  mapTree (fun a => scalarNode k!"ScalarMultipleConstruction" (fun x y => y.mul x) a b) c

/-- The tree of `transform_scalar_pow(c, s)`. -/
def powTree (b c : Cons K) : Cons K :=
  mapTree (fun a => scalarNode k!"ScalarPowerConstruction" (fun x y => x.pow y) a b) c

theorem transformScalarMul_eq {c : Cons K} (hc : c.WF) {s : Operand K} {b : Cons K}
    (h : toScalar s = .ok b) : transformScalarMul c s = .ok (mulTree b c) := by
  unfold transformScalarMul
  simp only [h, bind, Except.bind]
  exact transformNodes_eq (fun a => scalarNode_keys a) hc

theorem transformScalarPow_eq {c : Cons K} (hc : c.WF) {s : Operand K} {b : Cons K}
    (h : toScalar s = .ok b) : transformScalarPow c s = .ok (powTree b c) := by
  unfold transformScalarPow
  simp only [h, bind, Except.bind]
  exact transformNodes_eq (fun a => scalarNode_keys a) hc

/-! ## `Vector` -/

mutual
/-- The tree of `Vector(size_node)`. -/
def vecTree : Node Unit Nat → Cons K
  | .mk t size cs =>
    .mk { name := k!"Vector", assem := valueAssem }
      ⟨cs.map fun _ => [],
       vectorChildParams (accumulate () (· + ·) 0 (Node.mk t size cs)).value
        ((accumulate () (· + ·) 0 (Node.mk t size cs)).children.map (·.2.value))
        (cs.map (·.2.value)),
       ⟨[], [.ndarray], size⟩⟩ (vecTreeL cs)
/-- The child vectors. -/
def vecTreeL : List (Str × Node Unit Nat) → List (Str × Cons K)
  | [] => []
  | (k, n) :: cs => (k, vecTree n) :: vecTreeL cs
end

theorem vecTreeL_eq (cs : List (Str × Node Unit Nat)) :
    vecTreeL (K := K) cs = cs.map fun kc => (kc.1, vecTree kc.2) := by
  induction cs with
  | nil => rfl
  | cons kc cs ih => obtain ⟨k, c⟩ := kc; simp [vecTreeL, ih]

theorem vector_eq (n : Node Unit Nat) (hw : n.WF) (hk : n.KeysNE) :
    vector (K := K) n = .ok (vecTree n) := by
  induction n using Node.induct with
  | _ t size cs ih =>
    have h1 := WF_nodup hw
    obtain ⟨hk1, hk2⟩ := Node.KeysNE_mk.mp hk
    have hl : ∀ suf : List (Str × Node Unit Nat), (∀ kc ∈ suf, kc ∈ cs) →
        vectorL (K := K) suf = .ok (suf.map fun kc => vecTree kc.2) := by
      intro suf
      induction suf with
      | nil => intro _; rfl
      | cons kc suf ihs =>
        obtain ⟨k, c⟩ := kc
        intro h
        have hm := h (k, c) (by simp)
        simp [vectorL, ih k c hm ((Node.WF_mk.mp hw).2 k c hm) (hk2 k c hm),
          ihs fun kc hkc => h kc (List.mem_cons_of_mem _ hkc), bind, Except.bind]
    unfold vector
    simp only [hl cs fun _ h => h, bind, Except.bind]
    rw [construction_ok h1 hk1 (by simp)]
    rw [vecTree, vecTreeL_eq]
    congr 2
    rw [List.zip_map', ]

theorem vecTree_WF (n : Node Unit Nat) (hw : n.WF) : (vecTree (K := K) n).WF := by
  induction n using Node.induct with
  | _ t size cs ih =>
    obtain ⟨h1, h2⟩ := Node.WF_mk.mp hw
    rw [vecTree, Node.WF_mk, vecTreeL_eq]
    refine ⟨by simpa [Function.comp_def] using h1, ?_⟩
    intro k c hm
    simp only [List.mem_map, Prod.mk.injEq, Prod.exists] at hm
    obtain ⟨k', c', hm', rfl, rfl⟩ := hm
    exact ih _ _ hm' (h2 _ _ hm')

/-! ## `transform_constraint` -/

/-- The declared sizes of a construction. -/
abbrev sizes (c : Cons K) : Node Unit Nat :=
  Node.rmap () (fun v : ConsVal K => v.sig.valueSize) c

/-- Minus the vector of a constraint. -/
abbrev negVec (c : Cons K) : Cons K := mulTree (numScalar (-1)) (vecTree (sizes c))

theorem rmap_KeysNE {c : Cons K} (h : c.KeysNE) : (sizes c).KeysNE := by
  intro p m hm
  obtain ⟨m', hm', rfl⟩ := Node.rmap_At.mp hm
  rw [Node.rmap_keys]
  exact h p m' hm'

theorem negVec_shape (c : Cons K) : Shape c (negVec c) := by
  induction c using Node.induct with
  | _ t v cs ih =>
    simp only [negVec, sizes, Node.rmap, vecTree, mulTree, mapTree]
    refine ⟨?_, rfl, ?_⟩
    · simp [mapTreeL_eq, vecTreeL_eq, Node.rmapL_eq, Function.comp_def]
    · simp only [Node.children_mk]
      induction cs with
      | nil => trivial
      | cons kc cs ihc =>
        obtain ⟨k, c⟩ := kc
        exact ⟨ih k c (by simp), ihc fun k c h => ih k c (List.mem_cons_of_mem _ h)⟩

theorem transformConstraint_eq {c : Cons K} (hw : c.WF) (hk : c.KeysNE) :
    transformConstraint c = .ok (sumTree c (negVec c)) := by
  unfold transformConstraint
  rw [Node.mapNode_eq () _ c hw]
  simp only [bind, Except.bind]
  rw [vector_eq _ (Node.rmap_WF _ _ c hw) (rmap_KeysNE hk)]
  simp only []
  rw [transformScalarMul_eq (vecTree_WF _ (Node.rmap_WF _ _ c hw)) (toScalar_num _)]
  simp only []
  rcases transformSum_cases c (negVec c) hw with ⟨_, h⟩ | ⟨h, _⟩
  · exact h
  · exact absurd (negVec_shape c) h

/-! ### Evaluating a constraint on a construction of depth at most one -/

theorem negVec_leaf {c : Cons K} (h : c.children = []) : negVec c =
    .mk { name := k!"ScalarMultipleConstruction",
          assem := fun prims params => do
            let y ← (numScalar (-1 : K)).ty.assem (split2 0 0 prims).2 (split2 1 0 params).2
            let x ← valueAssem (split2 0 0 prims).1 (split2 1 0 params).1
            y.mul x }
      { childPrimKeys := []
        childParams := fun params => do
          let ca ← vectorChildParams (K := K) c.value.sig.valueSize [] [] (split2 1 0 params).1
          .ok (ca.map (· ++ (split2 1 0 params).2))
        sig := ⟨[], [.ndarray], c.value.sig.valueSize⟩ } [] := by
  cases c with
  | mk t v cs =>
    obtain rfl : cs = [] := h
    rfl

theorem split2_one {p : Param K} : split2 1 0 [p] = ([p], ([] : List (Param K))) := rfl

theorem split2_zero {α : Type} : split2 0 0 ([] : List α) = ([], []) := rfl

theorem numScalar_assem (x : K) : (numScalar x).ty.assem [] [] = .ok (.scalar x) := rfl

theorem negVec_leaf_eval {c : Cons K} (h : c.children = []) (xs : List K) :
    (negVec c).eval [] [.arr xs] = .ok (xs.map ((-1 : K) * ·)) := by
  rw [negVec_leaf h]
  simp only [Cons.eval, split2_one, split2_zero, numScalar_assem, valueAssem, Param.toArr, bind,
    Except.bind, vectorChildParams, scalar_mul_map, if_true, Arr.map, Arr.atleast1d, Cons.evalL,
    List.map_nil, List.append_nil]

theorem negVec_leaf_consistent {c : Cons K} (h : c.children = []) (p : Param K) :
    (negVec c).Consistent [p] := by
  rw [negVec_leaf h]
  exact ⟨rfl, rfl, fun pss _ => by simp [Cons.ConsistentL]⟩

theorem negVec_leaf_sized {c : Cons K} (h : c.children = []) (xs : List K)
    (hx : xs.length = c.value.sig.valueSize) : (negVec c).Sized [] [.arr xs] := by
  rw [negVec_leaf h]
  refine ⟨fun own ho => ?_, fun pss _ => by simp [Cons.SizedL]⟩
  simp only [split2_one, split2_zero, numScalar_assem, valueAssem, Param.toArr, bind,
    Except.bind, scalar_mul_map, Except.ok.injEq] at ho
  subst ho
  simp [Arr.map, Arr.atleast1d, hx]

theorem negVec_leaf_noPrimRefs {c : Cons K} (h : c.children = []) : (negVec c).NoPrimRefs := by
  rw [negVec_leaf h]
  intro p m hm ks hks
  cases hm with
  | here => simp at hks
  | down hmem _ => simp at hmem

/-- The children of the constraint of a construction whose children are leaves. -/
theorem constraint_evalL (pa : List (Prim K)) (cs : List (Str × Cons K)) :
    ∀ (kss : List (List Str)) (pss : List (List (Param K))) (xss : List (List K)) (u : List K),
    (∀ kc ∈ cs, Node.children kc.2 = []) → kss.length = cs.length → cs.length ≤ pss.length →
    List.Forall₂ (fun (kc : Str × Cons K) xs => xs.length = kc.2.value.sig.valueSize) cs xss →
    Cons.ConsistentL cs kss pss → Cons.SizedL pa cs kss pss →
    Cons.evalL pa cs kss pss = .ok u →
    u.length = xss.flatten.length ∧
    Cons.evalL pa (sumTreeL cs (cs.map fun kc => (kc.1, negVec kc.2)))
      (List.zipWith (· ++ ·) kss (cs.map fun _ => []))
      (List.zipWith (· ++ ·) pss (xss.map fun xs => [.arr xs]))
      = .ok (List.zipWith (· + ·) u (xss.flatten.map ((-1 : K) * ·))) := by
  induction cs with
  | nil =>
    intro kss pss xss u _ _ _ hx _ _ he
    cases hx
    simp only [Cons.evalL, Except.ok.injEq] at he
    subst he
    simp [sumTreeL, Cons.evalL]
  | cons kc cs ih =>
    obtain ⟨k, c⟩ := kc
    intro kss pss xss u hleaf hk hp hx hcon hsz he
    cases hx with
    | @cons _ xs _ xss hx1 hx2 =>
    cases kss with
    | nil => simp at hk
    | cons ks kss =>
    cases pss with
    | nil => simp at hp
    | cons ps pss =>
      simp only [Cons.evalL, py_bind_ok] at he
      obtain ⟨cp, hcp, v1, hv1, u1, hu1, e⟩ := he
      cases e
      have hl : Node.children c = [] := hleaf (k, c) (by simp)
      obtain ⟨l2, e2⟩ := ih kss pss xss u1 (fun kc h => hleaf kc (List.mem_cons_of_mem _ h))
        (by simpa using hk) (by simpa using hp) hx2 hcon.2.2 hsz.2 hu1
      have hb := negVec_leaf hl
      have hpl : cp.length = c.value.sig.primTypes.length := by
        rw [pyMap_length hcp]; exact hcon.1
      obtain ⟨l1, e1⟩ := sum_eval c (negVec c) (negVec_shape c) (negVec_leaf_noPrimRefs hl)
        cp [] ps [.arr xs] v1 (xs.map ((-1 : K) * ·)) hpl (by rw [hb]; rfl) hcon.2.1
        (negVec_leaf_consistent hl _) (hsz.1 cp hcp) (negVec_leaf_sized hl xs hx1) hv1
        (negVec_leaf_eval hl xs)
      simp only [List.length_map] at l1
      refine ⟨by simp [l1, l2], ?_⟩
      simp only [List.map_cons, sumTreeL, List.zipWith_cons_cons, Cons.evalL, py_bind_ok,
        List.append_nil] at e1 ⊢
      refine ⟨cp, hcp, _, e1, _, e2, ?_⟩
      simp only [List.flatten_cons, List.map_append]
      rw [List.zipWith_append (by simpa using l1)]

theorem negVec_children (t : ConsClass K) (v : ConsVal K) (cs : List (Str × Cons K)) :
    (negVec (.mk t v cs)).children = cs.map fun kc => (kc.1, negVec kc.2) := by
  simp only [negVec, sizes, Node.rmap, vecTree, mulTree, mapTree, Node.children_mk, mapTreeL_eq,
    vecTreeL_eq, Node.rmapL_eq, List.map_map]
  rfl

/-- Size of a child in the accumulated tree: a leaf has its own size. -/
theorem accumulate_leaf {c : Cons K} (h : c.children = []) :
    (accumulate () (· + ·) 0 (sizes c)).value = c.value.sig.valueSize := by
  cases c with
  | mk t v cs =>
    obtain rfl : cs = [] := h
    simp [sizes, Node.rmap, Node.rmapL, accumulate, accumulateL]

theorem negVec_childParams (t : ConsClass K) (v : ConsVal K) (cs : List (Str × Cons K))
    (hleaf : ∀ kc ∈ cs, Node.children kc.2 = []) (p : Param K) :
    (negVec (.mk t v cs)).value.childParams [p] =
      vectorChildParams (v.sig.valueSize + (cs.map fun kc => kc.2.value.sig.valueSize).sum)
        (cs.map fun kc => kc.2.value.sig.valueSize) (cs.map fun kc => kc.2.value.sig.valueSize)
        [p] := by
  have h1 : (accumulate () (· + ·) 0 (sizes (.mk t v cs))).children.map (·.2.value)
      = cs.map fun kc => kc.2.value.sig.valueSize := by
    simp only [sizes, Node.rmap, accumulate, Node.children_mk, Node.accumulateL_eq, Node.rmapL_eq,
      List.map_map]
    apply List.map_congr_left
    rintro ⟨k, c⟩ hm
    exact accumulate_leaf (hleaf _ hm)
  have h2 : (accumulate () (· + ·) 0 (sizes (.mk t v cs))).value
      = v.sig.valueSize + (cs.map fun kc => kc.2.value.sig.valueSize).sum := by
    have := Node.accumulate_value () (fun a b : Nat => a + b) (by intros; omega) 0 (by simp) (by simp)
      (sizes (.mk t v cs))
    rw [this]
    simp only [sizes, Node.rmap, Node.allValues, List.foldr_cons]
    congr 1
    clear this h1
    induction cs with
    | nil => rfl
    | cons kc cs ih =>
      obtain ⟨k, c⟩ := kc
      have hc : Node.children c = [] := hleaf (k, c) (by simp)
      cases c with
      | mk t' v' cs' =>
        obtain rfl : cs' = [] := hc
        simp only [Node.rmapL, Node.rmap, Node.allValuesL, Node.allValues, List.append_nil,
          List.cons_append, List.nil_append, List.foldr_cons, List.map_cons, List.sum_cons,
          Node.value_mk]
        rw [ih fun kc h => hleaf kc (List.mem_cons_of_mem _ h)]
  have h3 : (cs.map fun kc => kc.2.value.sig.valueSize)
      = (Node.rmapL () (fun v : ConsVal K => v.sig.valueSize) cs).map (·.2.value) := by
    rw [Node.rmapL_eq, List.map_map]
    apply List.map_congr_left
    rintro ⟨k, c⟩ _
    simp [Node.rmap_value]
  have h0 : (negVec (.mk t v cs)).value.childParams [p] = (do
      let ca ← vectorChildParams (accumulate () (· + ·) 0 (sizes (.mk t v cs))).value
        ((accumulate () (· + ·) 0 (sizes (.mk t v cs))).children.map (·.2.value))
        ((Node.rmapL () (fun v : ConsVal K => v.sig.valueSize) cs).map (·.2.value)) [p]
      .ok (ca.map (· ++ []))) := rfl
  rw [h0, h1, h2, ← h3]
  generalize vectorChildParams _ _ _ [p] = q
  cases q <;> simp [bind, Except.bind]

theorem negVec_childPrimKeys (t : ConsClass K) (v : ConsVal K) (cs : List (Str × Cons K)) :
    (negVec (.mk t v cs)).value.childPrimKeys = cs.map fun _ => [] := by
  have h0 : (negVec (.mk t v cs)).value.childPrimKeys
    = (Node.rmapL () (fun v : ConsVal K => v.sig.valueSize) cs).map fun _ => [] := rfl
  rw [h0, Node.rmapL_eq, List.map_map]
  rfl

/-- Evaluation of the constraint of a construction of depth at most one. -/
theorem constraint_eval {c : Cons K} (hw : c.WF) {prims : List (Prim K)}
    {params : List (Param K)} {val : Param K} {own y z : Arr K} {v : List K} {xss : List (List K)}
    (hleaf : ∀ kc ∈ c.children, Node.children kc.2 = [])
    (hcon : c.Consistent params) (hsz : c.Sized prims params)
    (hacc : c.Accepts prims params) (hev : c.eval prims params = .ok v)
    (hown : c.ty.assem prims params = .ok own) (hval : val.toArr = .ok y)
    (hz : own.add (y.map ((-1 : K) * ·)) = .ok z)
    (hx : List.Forall₂ (fun (kc : Str × Cons K) xs => xs.length = kc.2.value.sig.valueSize)
      c.children xss)
    (hcp : vectorChildParams
        (c.value.sig.valueSize + (c.children.map fun kc => kc.2.value.sig.valueSize).sum)
        (c.children.map fun kc => kc.2.value.sig.valueSize)
        (c.children.map fun kc => kc.2.value.sig.valueSize) [val]
      = .ok (xss.map fun xs => [.arr xs])) :
    ∃ u, v = own.atleast1d ++ u ∧ u.length = xss.flatten.length ∧
    (sumTree c (negVec c)).Accepts prims (params ++ [val]) ∧
    (sumTree c (negVec c)).eval prims (params ++ [val]) =
      .ok (z.atleast1d ++ List.zipWith (· + ·) u (xss.flatten.map ((-1 : K) * ·))) ∧
    (sumTree c (negVec c)).Aligned (params ++ [val]) := by
  cases c with
  | mk t w cs =>
    simp only [Node.children_mk] at hleaf hx
    simp only [Node.children_mk, Node.value_mk] at hcp
    have hleaf' : ∀ kc ∈ cs, Node.children kc.2 = [] := hleaf
    simp only [Node.ty_mk] at hown
    simp only [Cons.eval, py_bind_ok, hown, Except.ok.injEq, exists_eq_left'] at hev
    obtain ⟨pss, hpss, u, hu, e⟩ := hev
    have hsig : (negVec (.mk t w cs)).value.sig = ⟨[], [.ndarray], w.sig.valueSize⟩ := rfl
    have hnc : (negVec (.mk t w cs)).Consistent [val] ∨ True := Or.inr trivial
    have hs1 : split2 w.sig.primTypes.length 0 prims = (prims, []) := by
      have := split2_append (a := w.sig.primTypes.length) (b := 0) (xs := prims) (ys := [])
        hacc.1.length_eq rfl
      simpa using this
    have hs2 : split2 w.sig.paramTypes.length 1 (params ++ [val]) = (params, [val]) :=
      split2_append hacc.2 rfl
    obtain ⟨hc1, hc2, hc3⟩ := hcon
    obtain ⟨hl, hcl⟩ := hc3 pss hpss
    obtain ⟨l1, e1⟩ := constraint_evalL prims cs w.childPrimKeys pss xss u hleaf hc2 hl hx hcl
      (hsz.2 pss hpss) hu
    have hny : (negVec (.mk t w cs)).ty.assem [] [val] = .ok (y.map ((-1 : K) * ·)) := by
      have h0 : (negVec (.mk t w cs)).ty.assem [] [val] = (do
          let x ← val.toArr
          (Arr.scalar (-1 : K)).mul x) := rfl
      rw [h0, hval]
      exact scalar_mul_map _ _
    have hlcs : cs.length = xss.length := hx.length_eq
    refine ⟨u, e.symm, l1, ?_⟩
    rw [← and_assoc]
    refine ⟨?_, ?_⟩
    · refine ⟨⟨?_, ?_⟩, ?_⟩
      · simp only [sumTree, Node.value_mk, sumVal, ConsSig.concat, hsig, List.append_nil]
        exact hacc.1
      · have := hacc.2
        simp only [Node.value_mk] at this
        simp [sumTree, sumVal, ConsSig.concat, hsig, this]
      · simp only [sumTree, Cons.eval, sumClass, sumVal, hsig, Node.value_mk, Node.ty_mk,
          List.length_nil, List.length_cons, Nat.zero_add, hs1, hs2, py_bind_ok, hown, hny, hz,
          Except.ok.injEq, exists_eq_left', negVec_childParams t w cs hleaf, hcp, hpss,
          negVec_children]
        refine ⟨_, ?_, rfl⟩
        have hk := negVec_childPrimKeys t w cs
        rw [hk]
        exact e1
    · -- alignment
      refine ⟨?_, ?_⟩
      · have hk := negVec_childPrimKeys t w cs
        have hl' : (sumTreeL cs (negVec (.mk t w cs)).children).length = cs.length := by
          have := congrArg List.length (sumTreeL_keys (Shape_node (negVec_shape (.mk t w cs))))
          simpa using this
        simp only [sumVal, Node.value_mk, hk, hl', List.length_zipWith, List.length_map]
        rw [hc2]; omega
      · intro qss hq
        simp only [sumVal, hsig, Node.value_mk, List.length_cons, List.length_nil, Nat.zero_add,
          hs2, py_bind_ok, hpss, negVec_childParams t w cs hleaf, hcp, Except.ok.injEq,
          exists_eq_left'] at hq
        subst hq
        rw [negVec_children]
        have hl' : (sumTreeL cs (cs.map fun kc => (kc.1, negVec kc.2))).length = cs.length := by
          have := congrArg List.length (sumTreeL_keys (Shape_node (negVec_shape (.mk t w cs))))
          rw [negVec_children] at this
          simpa using this
        refine ⟨?_, ?_⟩
        · rw [hl']; simp; omega
        · have hk1 : w.childPrimKeys.length = cs.length := hc2
          generalize w.childPrimKeys = kss at hcl hk1
          clear hcp hpss hu e hl' hny hs1 hs2 hsig hsz hacc hw hc1 hc2 hc3 e1 l1 hlcs hnc hleaf'
          induction cs generalizing pss xss kss with
          | nil => simp [sumTreeL, Cons.AlignedL]
          | cons kc cs ih =>
            obtain ⟨k, c⟩ := kc
            cases hx with
            | @cons _ xs _ xss hx1 hx2 =>
            cases pss with
            | nil => simp at hl
            | cons ps pss =>
            cases kss with
            | nil => simp at hk1
            | cons ks kss =>
              have hlc : Node.children c = [] := hleaf (k, c) (by simp)
              refine ⟨sum_aligned c (negVec c) (negVec_shape c) ps [.arr xs] hcl.2.1
                (negVec_leaf_consistent hlc _), ?_⟩
              exact ih (fun kc h => hleaf kc (List.mem_cons_of_mem _ h)) hx2 pss
                (by simpa using hl) kss hcl.2.2 (by simpa using hk1)

/-- Call of the constraint of a construction of depth at most one. -/
theorem constraint_call {c : Cons K} (hw : c.WF) {prims : List (Prim K)}
    {params : List (Param K)} {val : Param K} {own y z : Arr K} {v : List K} {xss : List (List K)}
    (hleaf : ∀ kc ∈ c.children, Node.children kc.2 = [])
    (hcon : c.Consistent params) (hsz : c.Sized prims params)
    (hcall : c.call prims params = .ok v)
    (hown : c.ty.assem prims params = .ok own) (hval : val.toArr = .ok y)
    (hz : own.add (y.map ((-1 : K) * ·)) = .ok z)
    (hx : List.Forall₂ (fun (kc : Str × Cons K) xs => xs.length = kc.2.value.sig.valueSize)
      c.children xss)
    (hcp : vectorChildParams
        (c.value.sig.valueSize + (c.children.map fun kc => kc.2.value.sig.valueSize).sum)
        (c.children.map fun kc => kc.2.value.sig.valueSize)
        (c.children.map fun kc => kc.2.value.sig.valueSize) [val]
      = .ok (xss.map fun xs => [.arr xs])) :
    ∃ u, v = own.atleast1d ++ u ∧ u.length = xss.flatten.length ∧
    (sumTree c (negVec c)).call prims (params ++ [val]) =
      .ok (z.atleast1d ++ List.zipWith (· + ·) u (xss.flatten.map ((-1 : K) * ·))) := by
  rw [Cons.call_ok_iff _ hw _ _ hcon.aligned] at hcall
  obtain ⟨u, e, l, h1, h2, h3⟩ := constraint_eval hw hleaf hcon hsz hcall.1 hcall.2 hown hval hz hx hcp
  exact ⟨u, e, l, (Cons.call_ok_iff _ (sumTree_WF hw (negVec_shape _)) _ _ h3 _).mpr ⟨h1, h2⟩⟩

end

end MplLayout
