import Verif.Lemmas.Constructions

/-! Lemmas about `__call__` and the construction transforms. -/

namespace MplLayout

variable {α β K : Type}

/-! ## `__call__` -/

namespace Cons

theorem argKeys_nodup (n : Nat) : (argKeys n).Nodup := by
  unfold argKeys
  rw [List.nodup_iff_pairwise_ne, List.pairwise_map]
  apply List.Pairwise.imp ?_ (List.nodup_iff_pairwise_ne.1 List.nodup_range)
  intro a b h e
  exact h (natStr_injective (List.append_cancel_left e))

theorem argKeys_length (n : Nat) : (argKeys n).length = n := by simp [argKeys]

theorem argKey_noslash (i : Nat) : '/' ∉ k!"arg" ++ natStr i := by
  have := slash_notMem_natStr i
  simp [this]

theorem rootPrim_ok (prims : List (Prim K)) :
    rootPrim (argKeys prims.length) prims =
      .ok (.mk .primitiveNode ⟨0, []⟩ ((argKeys prims.length).zip prims)) := by
  unfold rootPrim
  rw [primInit_ok (argKeys_nodup _)]
  exact ⟨rfl, trivial, rfl⟩

theorem rootPrim_get (prims : List (Prim K)) (t : PrimType) (v : PVal K) :
    List.Forall₂ (fun k p =>
      (Node.mk t v ((argKeys prims.length).zip prims) : Prim K).getChild k = .ok p)
      (argKeys prims.length) prims := by
  rw [List.forall₂_iff_get]
  refine ⟨by simp [argKeys_length], ?_⟩
  intro i h1 h2
  have hi : i < prims.length := h2
  have hk : (argKeys prims.length).get ⟨i, h1⟩ = k!"arg" ++ natStr i := by simp [argKeys]
  rw [hk, Node.getChild_ok_iff, splitAll_noslash (argKey_noslash i), Node.find]
  have hg : dictGet ((argKeys prims.length).zip prims) (k!"arg" ++ natStr i)
      = some (prims.get ⟨i, h2⟩) := by
    apply dictGet_of_mem
    · rw [List.map_fst_zip (by simp [argKeys_length])]
      exact argKeys_nodup _
    · rw [List.mem_iff_getElem]
      refine ⟨i, by simp [argKeys_length, hi], ?_⟩
      simp [argKeys]
  simp only [Node.children_mk, hg]
  rfl

theorem validatePrims_ok (c : Cons K) (prims : List (Prim K)) :
    (c.validatePrims prims = .ok () ↔
      List.Forall₂ (fun (p : Prim K) t => p.ty.IsA t) prims c.value.sig.primTypes) ∧
    (c.validatePrims prims = .ok () ∨ c.validatePrims prims = .error .typeError) := by
  unfold validatePrims
  have hall : ∀ (ps : List (Prim K)) (ts : List PrimType), ps.length = ts.length →
      ((List.zipWith (fun (p : Prim K) t => !p.ty.sub t) ps ts).any id = false ↔
        List.Forall₂ (fun (p : Prim K) t => p.ty.IsA t) ps ts) := by
    intro ps
    induction ps with
    | nil => intro ts h; cases ts <;> simp_all
    | cons p ps ih =>
      intro ts h
      cases ts with
      | nil => simp at h
      | cons t ts =>
        have := ih ts (by simpa using h)
        simp only [List.zipWith_cons_cons, List.any_cons, id, Bool.or_eq_false_iff, this,
          List.forall₂_cons, Bool.not_eq_false', PrimType.sub_iff]
  by_cases hl : prims.length = c.value.sig.primTypes.length
  · simp only [hl, ne_eq, not_true_eq_false, if_false]
    have h := hall _ _ hl
    by_cases ha : (List.zipWith (fun (p : Prim K) t => !p.ty.sub t) prims
        c.value.sig.primTypes).any id = true
    · simp only [ha, if_true]
      simp [← h, ha]
    · rw [if_neg ha]
      rw [Bool.not_eq_true] at ha
      simp [← h, ha]
  · simp only [ne_eq, hl, not_false_eq_true, if_true, reduceCtorEq, or_true, and_true, false_iff]
    intro h
    exact hl h.length_eq

theorem validateParams_ok (c : Cons K) (params : List (Param K)) :
    (c.validateParams params = .ok () ↔ params.length = c.value.sig.paramTypes.length) ∧
    (c.validateParams params = .ok () ∨ c.validateParams params = .error .typeError) := by
  unfold validateParams
  by_cases h : params.length = c.value.sig.paramTypes.length <;> simp [h]

theorem call_ok_iff (c : Cons K) (hc : c.WF) (prims : List (Prim K)) (params : List (Param K))
    (ha : c.Aligned params) (v : List K) :
    c.call prims params = .ok v ↔ c.Accepts prims params ∧ c.eval prims params = .ok v := by
  unfold call Accepts
  simp only [py_bind_ok, rootPrim_ok, Except.ok.injEq, exists_eq_left']
  rw [← assemFromTree_eval c hc _ _ prims params (rootPrim_get prims .primitiveNode ⟨0, []⟩) ha]
  constructor
  · rintro ⟨_, h1, _, h2, kt, h3, pt, h4, h5⟩
    exact ⟨⟨(validatePrims_ok c prims).1.mp h1, (validateParams_ok c params).1.mp h2⟩,
      kt, pt, h3, h4, h5⟩
  · rintro ⟨⟨h1, h2⟩, kt, pt, h3, h4, h5⟩
    exact ⟨(), (validatePrims_ok c prims).1.mpr h1, (), (validateParams_ok c params).1.mpr h2,
      kt, h3, pt, h4, h5⟩

theorem Consistent.aligned {c : Cons K} {params : List (Param K)} (h : c.Consistent params) :
    c.Aligned params := by
  induction c using Node.induct generalizing params with
  | _ t v cs ih =>
    obtain ⟨h1, h2, h3⟩ := h
    refine ⟨h2, fun pss hp => ?_⟩
    obtain ⟨h4, h5⟩ := h3 pss hp
    refine ⟨h4, ?_⟩
    have : ∀ (kss : List (List Str)), kss.length = cs.length → ConsistentL cs kss pss →
        AlignedL cs pss := by
      clear h1 h2 h3 h5 hp
      induction cs generalizing pss with
      | nil => intros; cases pss <;> trivial
      | cons kc cs ihc =>
        obtain ⟨k, c⟩ := kc
        intro kss hk hcs
        cases pss with
        | nil => trivial
        | cons ps pss =>
          cases kss with
          | nil => simp at hk
          | cons ks kss =>
            exact ⟨ih k c (by simp) hcs.2.1, ihc (fun k c h => ih k c (List.mem_cons_of_mem _ h))
              pss (by simpa using h4) kss (by simpa using hk) hcs.2.2⟩
    exact this _ h2 h5

end Cons

/-! ## Splitting concatenated arguments -/

theorem chunk_lengths {vals : List (List α)} :
    chunk vals.flatten (vals.map List.length) = vals := by
  have := unpack_cumsum vals [] []
  simpa [chunk] using this

theorem split2_append {a b : Nat} {xs ys : List α} (ha : xs.length = a) (hb : ys.length = b) :
    split2 a b (xs ++ ys) = (xs, ys) := by
  subst ha hb
  have := chunk_lengths (vals := [xs, ys])
  simp only [List.flatten_cons, List.flatten_nil, List.append_nil, List.map_cons, List.map_nil]
    at this
  simp [split2, this]

/-! ## Node transforms -/

mutual
/-- Apply a node transform everywhere. -/
def mapTree (f : Cons K → ConsClass K × ConsVal K × List Str) : Cons K → Cons K
  | .mk t v cs => .mk (f (.mk t v cs)).1 (f (.mk t v cs)).2.1 (mapTreeL f cs)
/-- Apply a node transform in all children. -/
def mapTreeL (f : Cons K → ConsClass K × ConsVal K × List Str) :
    List (Str × Cons K) → List (Str × Cons K)
  | [] => []
  | (k, c) :: cs => (k, mapTree f c) :: mapTreeL f cs
end

variable {f : Cons K → ConsClass K × ConsVal K × List Str}

theorem mapTreeL_eq (cs : List (Str × Cons K)) :
    mapTreeL f cs = cs.map fun kc => (kc.1, mapTree f kc.2) := by
  induction cs with
  | nil => rfl
  | cons kc cs ih => obtain ⟨k, c⟩ := kc; simp [mapTreeL, ih]

theorem mapTree_WF {c : Cons K} (hc : c.WF) : (mapTree f c).WF := by
  induction c using Node.induct with
  | _ t v cs ih =>
    obtain ⟨h1, h2⟩ := Node.WF_mk.mp hc
    rw [mapTree, Node.WF_mk, mapTreeL_eq]
    refine ⟨by simpa [Function.comp_def] using h1, ?_⟩
    intro k c hm
    simp only [List.mem_map, Prod.mk.injEq, Prod.exists] at hm
    obtain ⟨k', c', hm', rfl, rfl⟩ := hm
    exact ih _ _ hm' (h2 _ _ hm')

theorem mapTree_flatten (hf : ∀ a, (f a).2.2 = a.keys) (c : Cons K) (key : Str) :
    flatten key (mapTree f c) = (c.iterFlat key).map fun kc =>
      (⟨kc.1, (f kc.2).1, (f kc.2).2.1, (f kc.2).2.2⟩ : FlatStruct (ConsClass K) (ConsVal K)) := by
  induction c using Node.induct generalizing key with
  | _ t v cs ih =>
    rw [mapTree, flatten_mk, Node.iterFlat, List.map_cons, hf]
    congr 1
    · simp [mapTreeL_eq, Function.comp_def]
    · rw [Node.iterFlatL_eq, List.map_flatMap, mapTreeL_eq, flattenL, Node.iterFlatL_eq,
        List.map_flatMap, List.flatMap_map]
      apply List.flatMap_congr
      rintro ⟨k, c⟩ hm
      exact ih k c hm _

theorem transformNodes_eq (hf : ∀ a, (f a).2.2 = a.keys) {c : Cons K} (hc : c.WF) :
    transformNodes f c = .ok (mapTree f c) := by
  unfold transformNodes
  have h := unflatten_flatten (mapTree f c) (mapTree_WF hc) [] []
  rw [List.append_nil, mapTree_flatten hf] at h
  simp [h, bind, Except.bind]

/-! ## Scalar multiples and powers -/

/-- `b` behaves as the number `y` when it is given the parameters `extra`. -/
structure ActsAs (b : Cons K) (extra : List (Param K)) (y : K) : Prop where
  prims : b.value.sig.primTypes = []
  params : extra.length = b.value.sig.paramTypes.length
  value : b.ty.assem [] extra = .ok (.scalar y)

section
variable {name : Str} {combine : Arr K → Arr K → Py (Arr K)} {b : Cons K}
  {extra : List (Param K)} {y : K} {g : K → K}

theorem Arr.atleast1d_map (a : Arr K) (g : K → K) : (a.map g).atleast1d = a.atleast1d.map g := by
  cases a <;> rfl

theorem scalarNode_keys (a : Cons K) : (scalarNode name combine a b).2.2 = a.keys := rfl

theorem scalar_sig (c : Cons K) : (mapTree (fun a => scalarNode name combine a b) c).value.sig
    = c.value.sig.concat b.value.sig c.value.sig.valueSize := by
  cases c; rfl

theorem scalar_eval (hb : ActsAs b extra y)
    (hg : ∀ x : Arr K, combine x (.scalar y) = .ok (x.map g)) (c : Cons K)
    (prims : List (Prim K)) (params : List (Param K))
    (hp : prims.length = c.value.sig.primTypes.length) (hc : c.Consistent params) (w : List K) :
    (mapTree (fun a => scalarNode name combine a b) c).eval prims (params ++ extra) = .ok w ↔
      ∃ v, c.eval prims params = .ok v ∧ w = v.map g := by
  induction c using Node.induct generalizing prims params w with
  | _ t v cs ih =>
    obtain ⟨h1, h2, h3⟩ := hc
    have hs1 : split2 v.sig.primTypes.length b.value.sig.primTypes.length prims = (prims, []) := by
      have := split2_append (a := v.sig.primTypes.length) (b := b.value.sig.primTypes.length)
        (xs := prims) (ys := []) hp (by simp [hb.prims])
      simpa using this
    have hs2 : split2 v.sig.paramTypes.length b.value.sig.paramTypes.length (params ++ extra)
        = (params, extra) := split2_append h1 hb.params
    simp only [mapTree, Cons.eval, scalarNode, Node.value_mk, Node.ty_mk, py_bind_ok, hs1, hs2,
      hb.value, Except.ok.injEq, exists_eq_left', hg]
    have key : ∀ (kss : List (List Str)) (pss : List (List (Param K))), kss.length = cs.length →
        Cons.ConsistentL cs kss pss → ∀ u,
        Cons.evalL prims (mapTreeL (fun a => scalarNode name combine a b) cs) kss
          (pss.map (· ++ extra)) = .ok u ↔
        ∃ v, Cons.evalL prims cs kss pss = .ok v ∧ u = v.map g := by
      clear h1 h2 h3 hs1 hs2 hp
      induction cs with
      | nil =>
        intro kss pss h1 _ u
        obtain rfl : kss = [] := List.length_eq_zero_iff.mp h1
        simp [mapTreeL, Cons.evalL, eq_comm]
      | cons kc cs ihc =>
        obtain ⟨k, c⟩ := kc
        intro kss pss h1 h2 u
        cases kss with
        | nil => simp at h1
        | cons ks kss =>
          cases pss with
          | nil => simp [mapTreeL, Cons.evalL, eq_comm]
          | cons ps pss =>
            obtain ⟨h3, h4, h5⟩ := h2
            have ih1 := ihc (fun k c h => ih k c (List.mem_cons_of_mem _ h)) kss pss
              (by simpa using h1) h5
            simp only [mapTreeL, List.map_cons, Cons.evalL, py_bind_ok, ih1]
            constructor
            · rintro ⟨cp, hcp, v1, hv1, v2, ⟨v2', hv2', rfl⟩, e⟩
              cases e
              have hl : cp.length = c.value.sig.primTypes.length := by
                rw [pyMap_length hcp, h3]
              obtain ⟨v1', hv1', rfl⟩ := (ih k c (by simp) cp ps hl h4 v1).mp hv1
              exact ⟨v1' ++ v2', ⟨cp, hcp, v1', hv1', v2', hv2', rfl⟩, by simp⟩
            · rintro ⟨_, ⟨cp, hcp, v1', hv1', v2', hv2', e⟩, rfl⟩
              cases e
              have hl : cp.length = c.value.sig.primTypes.length := by
                rw [pyMap_length hcp, h3]
              exact ⟨cp, hcp, v1'.map g, (ih k c (by simp) cp ps hl h4 _).mpr ⟨v1', hv1', rfl⟩,
                _, ⟨v2', hv2', rfl⟩, by simp⟩
    constructor
    · rintro ⟨own, ⟨x, hx, rfl⟩, pss', ⟨pss, hps, rfl⟩, u, hu, rfl⟩
      obtain ⟨v', hv', rfl⟩ := (key _ pss h2 (h3 pss hps).2 u).mp hu
      exact ⟨_, ⟨x, hx, pss, hps, v', hv', rfl⟩, by simp [Arr.atleast1d_map]⟩
    · rintro ⟨_, ⟨x, hx, pss, hps, v', hv', rfl⟩, rfl⟩
      exact ⟨x.map g, ⟨x, hx, rfl⟩, _, ⟨pss, hps, rfl⟩, _,
        (key _ pss h2 (h3 pss hps).2 _).mpr ⟨v', hv', rfl⟩, by simp [Arr.atleast1d_map]⟩

theorem scalar_consistent (hb : ActsAs b extra y) (c : Cons K) (params : List (Param K))
    (hc : c.Consistent params) :
    (mapTree (fun a => scalarNode name combine a b) c).Consistent (params ++ extra) := by
  induction c using Node.induct generalizing params with
  | _ t v cs ih =>
    obtain ⟨h1, h2, h3⟩ := hc
    have hs2 : split2 v.sig.paramTypes.length b.value.sig.paramTypes.length (params ++ extra)
        = (params, extra) := split2_append h1 hb.params
    rw [mapTree]
    refine ⟨?_, ?_, ?_⟩
    · simp [scalarNode, ConsSig.concat, h1, hb.params]
    · simp [scalarNode, mapTreeL_eq, h2]
    · intro pss' hps'
      simp only [scalarNode, Node.value_mk, hs2, py_bind_ok] at hps'
      obtain ⟨pss, hps, e⟩ := hps'
      cases e
      obtain ⟨h4, h5⟩ := h3 pss hps
      refine ⟨by simpa [mapTreeL_eq] using h4, ?_⟩
      show Cons.ConsistentL _ v.childPrimKeys _
      generalize v.childPrimKeys = kss at h5
      clear h1 h2 h3 h4 hs2 hps
      induction cs generalizing kss pss with
      | nil => trivial
      | cons kc cs ihc =>
        obtain ⟨k, c⟩ := kc
        cases kss with
        | nil => trivial
        | cons ks kss =>
          cases pss with
          | nil => trivial
          | cons ps pss =>
            refine ⟨?_, ih k c (by simp) ps h5.2.1,
              ihc (fun k c h => ih k c (List.mem_cons_of_mem _ h)) pss kss h5.2.2⟩
            rw [scalar_sig, h5.1]
            simp [ConsSig.concat, hb.prims]

theorem scalar_call (hb : ActsAs b extra y)
    (hg : ∀ x : Arr K, combine x (.scalar y) = .ok (x.map g)) (c : Cons K) (hw : c.WF)
    (prims : List (Prim K)) (params : List (Param K)) (hc : c.Consistent params) (w : List K) :
    (mapTree (fun a => scalarNode name combine a b) c).call prims (params ++ extra) = .ok w ↔
      ∃ v, c.call prims params = .ok v ∧ w = v.map g := by
  rw [Cons.call_ok_iff _ (mapTree_WF hw) _ _ (scalar_consistent hb c params hc).aligned]
  simp only [Cons.call_ok_iff c hw _ _ hc.aligned]
  have hacc : (mapTree (fun a => scalarNode name combine a b) c).Accepts prims (params ++ extra) ↔
      c.Accepts prims params := by
    unfold Cons.Accepts
    rw [scalar_sig]
    simp [ConsSig.concat, hb.prims, hb.params]
  rw [hacc]
  constructor
  · rintro ⟨h1, h2⟩
    obtain ⟨v, h3, rfl⟩ := (scalar_eval hb hg c prims params h1.1.length_eq hc w).mp h2
    exact ⟨v, ⟨h1, h3⟩, rfl⟩
  · rintro ⟨v, ⟨h1, h3⟩, rfl⟩
    exact ⟨h1, (scalar_eval hb hg c prims params h1.1.length_eq hc _).mpr ⟨v, h3, rfl⟩⟩

end

/-! ## Sums -/

section Sum

variable [PyNum K]

/-- Class of one node of a sum. -/
def sumClass (a b : Cons K) : ConsClass K :=
  { name := k!"SumConstruction"
    assem := fun prims params => do
      let x ← a.ty.assem (split2 a.value.sig.primTypes.length b.value.sig.primTypes.length prims).1
        (split2 a.value.sig.paramTypes.length b.value.sig.paramTypes.length params).1
      let y ← b.ty.assem (split2 a.value.sig.primTypes.length b.value.sig.primTypes.length prims).2
        (split2 a.value.sig.paramTypes.length b.value.sig.paramTypes.length params).2
      x.add y }

omit [PyNum K] in
/-- Value of one node of a sum. -/
def sumVal (a b : Cons K) : ConsVal K :=
  { childPrimKeys := List.zipWith (· ++ ·) a.value.childPrimKeys b.value.childPrimKeys
    childParams := fun params => do
      let ca ← a.value.childParams
        (split2 a.value.sig.paramTypes.length b.value.sig.paramTypes.length params).1
      let cb ← b.value.childParams
        (split2 a.value.sig.paramTypes.length b.value.sig.paramTypes.length params).2
      .ok (List.zipWith (· ++ ·) ca cb)
    sig := a.value.sig.concat b.value.sig a.value.sig.valueSize }

theorem sumNode_eq (a b : Cons K) : sumNode a b =
    if a.keys ≠ b.keys then .error .assertionError
    else if a.value.sig.valueSize ≠ b.value.sig.valueSize then .error .assertionError
    else .ok (sumClass a b, sumVal a b, a.keys) := rfl

mutual
/-- The sum of two trees of the same shape. -/
def sumTree : Cons K → Cons K → Cons K
  | .mk t v cs, b => .mk (sumClass (.mk t v cs) b) (sumVal (.mk t v cs) b) (sumTreeL cs b.children)
/-- The sums of corresponding children. -/
def sumTreeL : List (Str × Cons K) → List (Str × Cons K) → List (Str × Cons K)
  | (k, a) :: as, (_, b) :: bs => (k, sumTree a b) :: sumTreeL as bs
  | _, _ => []
end

mutual
/-- Same shape, recursively. -/
def Shape : Cons K → Cons K → Prop
  | .mk _ v cs, b => cs.map (·.1) = b.keys ∧ v.sig.valueSize = b.value.sig.valueSize ∧
      ShapeL cs b.children
/-- Same shape of corresponding children. -/
def ShapeL : List (Str × Cons K) → List (Str × Cons K) → Prop
  | (_, a) :: as, (_, b) :: bs => Shape a b ∧ ShapeL as bs
  | [], [] => True
  | _, _ => False
end

theorem sumTreeL_keys {as bs : List (Str × Cons K)} (h : ShapeL as bs) :
    (sumTreeL as bs).map (·.1) = as.map (·.1) := by
  induction as generalizing bs with
  | nil => cases bs <;> rfl
  | cons a as ih =>
    obtain ⟨k, a⟩ := a
    cases bs with
    | nil => exact h.elim
    | cons b bs => obtain ⟨k', b⟩ := b; simp [sumTreeL, ih h.2]

omit [PyNum K] in
theorem Shape_node {t : ConsClass K} {v : ConsVal K} {cs : List (Str × Cons K)} {b : Cons K}
    (h : Shape (.mk t v cs) b) : ShapeL cs b.children := h.2.2

theorem sumStructs_eq (a : Cons K) :
    ∀ (b : Cons K) (key key' : Str) (ra rb : List (Str × Cons K)),
    (Shape a b → ∀ rest, sumStructs ra rb = .ok rest →
      sumStructs (a.iterFlat key ++ ra) (b.iterFlat key' ++ rb)
        = .ok (flatten key (sumTree a b) ++ rest)) ∧
    (Shape a b → ∀ e, sumStructs ra rb = .error e →
      sumStructs (a.iterFlat key ++ ra) (b.iterFlat key' ++ rb) = .error e) ∧
    (¬ Shape a b → sumStructs (a.iterFlat key ++ ra) (b.iterFlat key' ++ rb)
        = .error .assertionError) := by
  induction a using Node.induct with
  | _ t v cs ih =>
    intro b key key' ra rb
    cases b with
    | mk t' v' ds =>
      simp only [Node.iterFlat, List.cons_append, sumStructs, sumNode_eq, Node.keys_mk,
        Node.value_mk]
      by_cases h1 : cs.map (·.1) = ds.map (·.1)
      swap
      · have hn : ¬ Shape (.mk t v cs) (.mk t' v' ds) := fun h => h1 h.1
        simp only [hn, false_implies, true_and, not_false_eq_true, true_implies, ne_eq, h1,
          if_true]
        rfl
      by_cases h2 : v.sig.valueSize = v'.sig.valueSize
      swap
      · have hn : ¬ Shape (.mk t v cs) (.mk t' v' ds) := fun h => h2 h.2.1
        simp only [hn, false_implies, true_and, not_false_eq_true, true_implies, ne_eq, h1, h2,
          not_true_eq_false, if_false, if_true]
        rfl
      simp only [ne_eq, h1, h2, not_true_eq_false, if_false]
      have hsh : Shape (.mk t v cs) (.mk t' v' ds) ↔ ShapeL cs ds :=
        ⟨fun h => h.2.2, fun h => ⟨h1, h2, h⟩⟩
      rw [hsh]
      have key : ∀ ds : List (Str × Cons K), cs.map (·.1) = ds.map (·.1) →
          (ShapeL cs ds → ∀ rest, sumStructs ra rb = .ok rest →
            sumStructs (Node.iterFlatL key cs ++ ra) (Node.iterFlatL key' ds ++ rb)
              = .ok (flattenL key (sumTreeL cs ds) ++ rest)) ∧
          (ShapeL cs ds → ∀ e, sumStructs ra rb = .error e →
            sumStructs (Node.iterFlatL key cs ++ ra) (Node.iterFlatL key' ds ++ rb) = .error e) ∧
          (¬ ShapeL cs ds → sumStructs (Node.iterFlatL key cs ++ ra) (Node.iterFlatL key' ds ++ rb)
              = .error .assertionError) := by
        clear h1 hsh
        induction cs with
        | nil =>
          intro ds h
          cases ds with
          | cons d ds => simp at h
          | nil =>
            refine ⟨fun _ rest hr => ?_, fun _ e he => ?_, fun hn => (hn trivial).elim⟩
            · simpa [Node.iterFlatL, flattenL, sumTreeL] using hr
            · simpa [Node.iterFlatL] using he
        | cons kc cs ihc =>
          obtain ⟨k, c⟩ := kc
          intro ds h
          cases ds with
          | nil => simp at h
          | cons d ds =>
            obtain ⟨k', d⟩ := d
            obtain ⟨i1, i2, i3⟩ := ihc (fun k c h => ih k c (List.mem_cons_of_mem _ h)) ds
              (by simpa using (List.cons.inj h).2)
            obtain ⟨j1, j2, j3⟩ := ih k c (by simp) d (key ++ '/' :: k) (key' ++ '/' :: k')
              (Node.iterFlatL key cs ++ ra) (Node.iterFlatL key' ds ++ rb)
            simp only [Node.iterFlatL, List.append_assoc, sumTreeL, flattenL_cons]
            refine ⟨fun hs rest hr => ?_, fun hs e he => ?_, fun hn => ?_⟩
            · exact j1 hs.1 _ (i1 hs.2 rest hr)
            · exact j2 hs.1 e (i2 hs.2 e he)
            · by_cases hc : Shape c d
              · have : ¬ ShapeL cs ds := fun h => hn ⟨hc, h⟩
                exact j2 hc _ (i3 this)
              · exact j3 hc
      obtain ⟨k1, k2, k3⟩ := key ds h1
      refine ⟨fun hs rest hr => ?_, fun hs e he => ?_, fun hn => ?_⟩
      · rw [k1 hs rest hr]
        simp only [bind, Except.bind, sumTree, flatten_mk, List.cons_append, Node.children_mk,
          sumTreeL_keys hs, h1]
      · rw [k2 hs e he]; rfl
      · rw [k3 hn]; rfl

theorem sumTree_WF {a b : Cons K} (ha : a.WF) (h : Shape a b) : (sumTree a b).WF := by
  induction a using Node.induct generalizing b with
  | _ t v cs ih =>
    cases b with
    | mk t' v' ds =>
      obtain ⟨h1, h2⟩ := Node.WF_mk.mp ha
      have hs := Shape_node h
      simp only [Node.children_mk] at hs
      rw [sumTree, Node.WF_mk]
      simp only [Node.children_mk]
      refine ⟨by rw [sumTreeL_keys hs]; exact h1, ?_⟩
      clear h h1 ha
      induction cs generalizing ds with
      | nil => intro k c hm; cases ds <;> simp [sumTreeL] at hm
      | cons kc cs ihc =>
        obtain ⟨k, c⟩ := kc
        cases ds with
        | nil => exact hs.elim
        | cons d ds =>
          obtain ⟨k', d⟩ := d
          intro j e hm
          simp only [sumTreeL, List.mem_cons, Prod.mk.injEq] at hm
          rcases hm with ⟨rfl, rfl⟩ | hm
          · exact ih j c (by simp) (h2 j c (by simp)) hs.1
          · exact ihc (fun k c h => ih k c (List.mem_cons_of_mem _ h)) ds
              (fun k c h => h2 k c (List.mem_cons_of_mem _ h)) hs.2 j e hm

theorem transformSum_cases (a b : Cons K) (ha : a.WF) :
    (Shape a b ∧ transformSum a b = .ok (sumTree a b)) ∨
    (¬ Shape a b ∧ transformSum a b = .error .assertionError) := by
  obtain ⟨h1, _, h3⟩ := sumStructs_eq a b [] [] [] []
  simp only [List.append_nil] at h1 h3
  by_cases h : Shape a b
  · left
    refine ⟨h, ?_⟩
    have hu := unflatten_flatten (sumTree a b) (sumTree_WF ha h) [] []
    rw [List.append_nil] at hu
    simp [transformSum, h1 h [] rfl, hu, bind, Except.bind]
  · right
    refine ⟨h, ?_⟩
    simp [transformSum, h3 h, bind, Except.bind]

omit [PyNum K] in
theorem Shape_iff {a b : Cons K} (ha : a.WF) (hb : b.WF) : Shape a b ↔ a.SameShape b := by
  induction a using Node.induct generalizing b with
  | _ t v cs ih =>
    cases b with
    | mk t' v' ds =>
      have hcs := (Node.WF_mk.mp ha)
      have hds := (Node.WF_mk.mp hb)
      have hL : ∀ cs ds : List (Str × Cons K), cs.map (·.1) = ds.map (·.1) →
          (ShapeL cs ds ↔ List.Forall₂ (fun x y => Shape x.2 y.2) cs ds) := by
        intro cs
        induction cs with
        | nil => intro ds h; cases ds <;> simp_all [ShapeL]
        | cons kc cs ihc =>
          intro ds h
          cases ds with
          | nil => simp at h
          | cons d ds =>
            have := ihc ds (by simpa using (List.cons.inj h).2)
            simp [ShapeL, this]
      constructor
      · rintro ⟨h1, h2, h3⟩
        simp only [Node.keys_mk, Node.children_mk, Node.value_mk] at h1 h2 h3
        intro p m hm
        cases hm with
        | here => exact ⟨_, .here _, by simp [h1], h2.symm⟩
        | @down _ c _ k p' hmem hat =>
          rw [hL cs ds h1] at h3
          replace hmem : (k, c) ∈ cs := hmem
          obtain ⟨i, hi, hget⟩ := List.mem_iff_getElem.mp hmem
          have hi' : i < ds.length := by rw [← h3.length_eq]; exact hi
          have hsh : Shape cs[i].2 ds[i].2 := (List.forall₂_iff_get.mp h3).2 i hi hi'
          have hk : ds[i].1 = k := by
            have : (cs.map (·.1))[i]? = (ds.map (·.1))[i]? := by rw [h1]
            simp only [List.getElem?_map, List.getElem?_eq_getElem hi,
              List.getElem?_eq_getElem hi', Option.map_some, Option.some.injEq, hget] at this
            exact this.symm
          have hmem' : (k, ds[i].2) ∈ ds := by rw [← hk]; exact List.getElem_mem hi'
          rw [hget] at hsh
          obtain ⟨m', hm', h4, h5⟩ := (ih k c hmem (hcs.2 k c hmem)
            (hds.2 k _ hmem')).mp hsh p' m hat
          exact ⟨m', .down hmem' hm', h4, h5⟩
      · intro h
        obtain ⟨m', hm', h1, h2⟩ := h [] _ (.here _)
        cases hm'
        simp only [Node.keys_mk, Node.value_mk] at h1 h2
        refine ⟨h1.symm, h2.symm, ?_⟩
        rw [Node.children_mk, hL cs ds h1.symm, List.forall₂_iff_get]
        have hlen : cs.length = ds.length := by
          have := congrArg List.length h1; simpa using this.symm
        refine ⟨hlen, fun i hi hi' => ?_⟩
        simp only [List.get_eq_getElem]
        have hmem : (cs[i].1, cs[i].2) ∈ cs := List.getElem_mem hi
        have hmem' : (ds[i].1, ds[i].2) ∈ ds := List.getElem_mem hi'
        have hk : ds[i].1 = cs[i].1 := by
          have : (cs.map (·.1))[i]? = (ds.map (·.1))[i]? := by rw [h1]
          simp only [List.getElem?_map, List.getElem?_eq_getElem hi,
            List.getElem?_eq_getElem hi', Option.map_some, Option.some.injEq] at this
          exact this.symm
        rw [ih _ _ hmem (hcs.2 _ _ hmem) (hds.2 _ _ hmem')]
        intro p m hat
        obtain ⟨m', hm', h4, h5⟩ := h (cs[i].1 :: p) m (.down hmem hat)
        cases hm' with
        | @down _ c _ k p' hc hat' =>
          have : c = ds[i].2 := by
            have e1 := dictGet_of_mem hds.1 hc
            have e2 := dictGet_of_mem hds.1 hmem'
            rw [hk] at e2
            rw [e1] at e2
            simpa using e2
          subst this
          exact ⟨_, hat', h4, h5⟩

theorem Arr.add_sized {x y : Arr K} (h : x.atleast1d.length = y.atleast1d.length) :
    ∃ z, x.add y = .ok z ∧ z.atleast1d = List.zipWith (· + ·) x.atleast1d y.atleast1d := by
  cases x with
  | scalar x =>
    cases y with
    | scalar y => exact ⟨_, rfl, rfl⟩
    | vec ys =>
      simp only [Arr.atleast1d, List.length_cons, List.length_nil, Nat.zero_add] at h
      obtain ⟨y, rfl⟩ := List.length_eq_one_iff.mp h.symm
      exact ⟨_, rfl, rfl⟩
  | vec xs =>
    cases y with
    | scalar y =>
      simp only [Arr.atleast1d, List.length_cons, List.length_nil, Nat.zero_add] at h
      obtain ⟨x, rfl⟩ := List.length_eq_one_iff.mp h
      exact ⟨_, rfl, rfl⟩
    | vec ys =>
      simp only [Arr.atleast1d] at h
      exact ⟨.vec (List.zipWith (· + ·) xs ys), by simp [Arr.add, Arr.binop, h], rfl⟩

omit [PyNum K] in
theorem resolve_append {pa pb : List (Prim K)} {key : Str} {p : Prim K}
    (h : resolve pa key = .ok p) : resolve (pa ++ pb) key = .ok p := by
  unfold resolve at h ⊢
  cases hs : splitAll key with
  | nil => simp [hs] at h
  | cons w ws =>
    simp only [hs] at h ⊢
    cases ha : argIndex w with
    | error e => simp [ha] at h
    | ok i =>
      simp only [ha] at h ⊢
      cases hi : pa[i]? with
      | none => simp [hi] at h
      | some q =>
        simp only [hi] at h
        have hlt : i < pa.length := (List.getElem?_eq_some_iff.mp hi).1
        rw [List.getElem?_append_left hlt, hi]
        exact h

omit [PyNum K] in
theorem resolves_append {pa pb : List (Prim K)} {ks : List Str} {ps : List (Prim K)}
    (h : pyMap (resolve pa) ks = .ok ps) : pyMap (resolve (pa ++ pb)) ks = .ok ps := by
  rw [pyMap_ok] at h ⊢
  exact h.imp fun _ _ h => resolve_append h

theorem sum_eval (a : Cons K) : ∀ (b : Cons K), Shape a b → b.NoPrimRefs →
    ∀ (pa pb : List (Prim K)) (qa qb : List (Param K)) (va vb : List K),
    pa.length = a.value.sig.primTypes.length → pb.length = b.value.sig.primTypes.length →
    a.Consistent qa → b.Consistent qb → a.Sized pa qa → b.Sized pb qb →
    a.eval pa qa = .ok va → b.eval pb qb = .ok vb →
    va.length = vb.length ∧
    (sumTree a b).eval (pa ++ pb) (qa ++ qb) = .ok (List.zipWith (· + ·) va vb) := by
  induction a using Node.induct with
  | _ t v cs ih =>
    intro b hsh hnp pa pb qa qb va vb hpa hpb hca hcb hza hzb hea heb
    cases b with
    | mk t' v' ds =>
      obtain ⟨ha1, ha2, ha3⟩ := hca
      obtain ⟨hb1, hb2, hb3⟩ := hcb
      simp only [Cons.eval, py_bind_ok] at hea heb
      obtain ⟨x, hx, pssa, hpssa, ua, hua, e⟩ := hea
      cases e
      obtain ⟨y, hy, pssb, hpssb, ub, hub, e⟩ := heb
      cases e
      have hlen : x.atleast1d.length = y.atleast1d.length := by
        rw [hza.1 x hx, hzb.1 y hy]; exact hsh.2.1
      obtain ⟨z, hz, hz'⟩ := Arr.add_sized hlen
      have hs1 : split2 v.sig.primTypes.length v'.sig.primTypes.length (pa ++ pb) = (pa, pb) :=
        split2_append hpa hpb
      have hs2 : split2 v.sig.paramTypes.length v'.sig.paramTypes.length (qa ++ qb) = (qa, qb) :=
        split2_append ha1 hb1
      have key : ∀ (cs ds : List (Str × Cons K)) (kssa kssb : List (List Str))
          (pssa pssb : List (List (Param K))) (ua ub : List K),
          (∀ k c, (k, c) ∈ cs → ∀ (b : Cons K), Shape c b → b.NoPrimRefs →
            ∀ (pa pb : List (Prim K)) (qa qb : List (Param K)) (va vb : List K),
            pa.length = c.value.sig.primTypes.length → pb.length = b.value.sig.primTypes.length →
            c.Consistent qa → b.Consistent qb → c.Sized pa qa → b.Sized pb qb →
            c.eval pa qa = .ok va → b.eval pb qb = .ok vb →
            va.length = vb.length ∧
            (sumTree c b).eval (pa ++ pb) (qa ++ qb) = .ok (List.zipWith (· + ·) va vb)) →
          ShapeL cs ds → (∀ kc ∈ ds, Cons.NoPrimRefs kc.2) → (∀ ks ∈ kssb, ks = []) →
          kssa.length = cs.length → kssb.length = ds.length →
          cs.length ≤ pssa.length → ds.length ≤ pssb.length →
          Cons.ConsistentL cs kssa pssa → Cons.ConsistentL ds kssb pssb →
          Cons.SizedL pa cs kssa pssa → Cons.SizedL pb ds kssb pssb →
          Cons.evalL pa cs kssa pssa = .ok ua → Cons.evalL pb ds kssb pssb = .ok ub →
          ua.length = ub.length ∧
          Cons.evalL (pa ++ pb) (sumTreeL cs ds) (List.zipWith (· ++ ·) kssa kssb)
            (List.zipWith (· ++ ·) pssa pssb) = .ok (List.zipWith (· + ·) ua ub) := by
        intro cs
        induction cs with
        | nil =>
          intro ds kssa kssb pssa pssb ua ub _ hsh _ _ hl1 hl2 _ _ _ _ _ _ he1 he2
          cases ds with
          | cons d ds => exact hsh.elim
          | nil =>
            simp only [Cons.evalL, Except.ok.injEq] at he1 he2
            subst he1 he2
            simp [sumTreeL, Cons.evalL]
        | cons kc cs ihc =>
          obtain ⟨k, c⟩ := kc
          intro ds kssa kssb pssa pssb ua ub ih hsh hnp hkb hl1 hl2 hl3 hl4 hc1 hc2 hz1 hz2 he1 he2
          cases ds with
          | nil => exact hsh.elim
          | cons d ds =>
            obtain ⟨k', d⟩ := d
            cases kssa with
            | nil => simp at hl1
            | cons ksa kssa =>
            cases kssb with
            | nil => simp at hl2
            | cons ksb kssb =>
            cases pssa with
            | nil => simp at hl3
            | cons qsa pssa =>
            cases pssb with
            | nil => simp at hl4
            | cons qsb pssb =>
              simp only [Cons.evalL, py_bind_ok] at he1 he2
              obtain ⟨cpa, hcpa, v1, hv1, u1, hu1, e⟩ := he1
              cases e
              obtain ⟨cpb, hcpb, v2, hv2, u2, hu2, e⟩ := he2
              cases e
              obtain rfl : ksb = [] := hkb ksb (by simp)
              simp only [pyMap, Except.ok.injEq] at hcpb
              subst hcpb
              obtain ⟨l1, e1⟩ := ih k c (by simp) d hsh.1 (hnp (k', d) (by simp)) cpa [] qsa qsb
                v1 v2 (by rw [pyMap_length hcpa]; exact hc1.1) (by simpa using hc2.1) hc1.2.1
                hc2.2.1 (hz1.1 cpa hcpa) (hz2.1 [] rfl) hv1 hv2
              obtain ⟨l2, e2⟩ := ihc ds kssa kssb pssa pssb u1 u2
                (fun k c h => ih k c (List.mem_cons_of_mem _ h)) hsh.2
                (fun kc h => hnp kc (List.mem_cons_of_mem _ h))
                (fun ks h => hkb ks (List.mem_cons_of_mem _ h)) (by simpa using hl1)
                (by simpa using hl2) (by simpa using hl3) (by simpa using hl4) hc1.2.2 hc2.2.2
                hz1.2 hz2.2 hu1 hu2
              refine ⟨by simp [l1, l2], ?_⟩
              simp only [sumTreeL, List.zipWith_cons_cons, Cons.evalL, py_bind_ok,
                List.append_nil] at e1 ⊢
              refine ⟨cpa, resolves_append hcpa, _, e1, _, e2, ?_⟩
              rw [List.zipWith_append l1]
      have hnp' : ∀ kc ∈ ds, Cons.NoPrimRefs kc.2 := by
        rintro ⟨k, d⟩ hm p m hat
        exact hnp (k :: p) m (.down hm hat)
      obtain ⟨l, e⟩ := key cs ds v.childPrimKeys v'.childPrimKeys pssa pssb ua ub
        (fun k c h => ih k c h) hsh.2.2 hnp' (hnp [] _ (.here _)) ha2 hb2 (ha3 pssa hpssa).1
        (hb3 pssb hpssb).1 (ha3 pssa hpssa).2 (hb3 pssb hpssb).2 (hza.2 pssa hpssa)
        (hzb.2 pssb hpssb) hua hub
      refine ⟨by simp [hlen, l], ?_⟩
      simp only [sumTree, Cons.eval, sumClass, sumVal, Node.value_mk, Node.ty_mk, py_bind_ok, hs1,
        hs2, hx, hy, hpssa, hpssb, Except.ok.injEq, exists_eq_left', hz, Node.children_mk]
      refine ⟨_, e, ?_⟩
      rw [hz', List.zipWith_append hlen]

end Sum

end MplLayout
