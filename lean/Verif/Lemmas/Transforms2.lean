import Verif.Lemmas.Transforms

/-! More lemmas about the construction transforms: leaves, sums, partial application, maps. -/

namespace MplLayout

variable {α K : Type}

/-! ## Calls and leaves -/

namespace Cons

theorem call_accepts {c : Cons K} {prims : List (Prim K)} {params : List (Param K)} {v : List K}
    (h : c.call prims params = .ok v) : c.Accepts prims params := by
  unfold call at h
  simp only [py_bind_ok] at h
  obtain ⟨_, h1, _, h2, _⟩ := h
  exact ⟨(validatePrims_ok c prims).1.mp h1, (validateParams_ok c params).1.mp h2⟩

theorem not_accepts_call {c : Cons K} {prims : List (Prim K)} {params : List (Param K)}
    (h : ¬ c.Accepts prims params) : c.call prims params = .error .typeError := by
  unfold call
  rcases (validatePrims_ok c prims).2 with h1 | h1
  · rcases (validateParams_ok c params).2 with h2 | h2
    · exact absurd ⟨(validatePrims_ok c prims).1.mp h1, (validateParams_ok c params).1.mp h2⟩ h
    · simp [h1, h2, bind, Except.bind]
  · simp [h1, bind, Except.bind]

theorem leaf_WF (cls : ConsClass K) (sig : ConsSig) : (leaf cls sig).WF := by
  rw [leaf, Node.WF_mk]; simp

theorem leaf_consistent (cls : ConsClass K) (sig : ConsSig) (params : List (Param K))
    (h : params.length = sig.paramTypes.length) : Consistent (leaf cls sig) params :=
  ⟨h, rfl, fun pss hp => by simp [ConsistentL]⟩

theorem leaf_eval (cls : ConsClass K) (sig : ConsSig) (prims : List (Prim K))
    (params : List (Param K)) (v : List K) : eval (leaf cls sig) prims params = .ok v ↔
      ∃ a, cls.assem prims params = .ok a ∧ v = a.atleast1d := by
  simp only [leaf, eval, evalL, py_bind_ok, Except.ok.injEq, exists_eq_left', List.append_nil]
  simp only [eq_comm (a := v)]

theorem leaf_call (cls : ConsClass K) (sig : ConsSig) (prims : List (Prim K))
    (params : List (Param K)) (v : List K) : call (leaf cls sig) prims params = .ok v ↔
      Accepts (leaf cls sig) prims params ∧ ∃ a, cls.assem prims params = .ok a ∧
        v = a.atleast1d := by
  by_cases h : params.length = sig.paramTypes.length
  · rw [call_ok_iff _ (leaf_WF cls sig) _ _ (leaf_consistent cls sig params h).aligned, leaf_eval]
  · constructor
    · intro hc; exact absurd (call_accepts hc).2 h
    · rintro ⟨hc, _⟩; exact absurd hc.2 h

theorem leaf_sized (cls : ConsClass K) (sig : ConsSig) (prims : List (Prim K))
    (params : List (Param K))
    (h : ∀ a, cls.assem prims params = .ok a → a.atleast1d.length = sig.valueSize) :
    Sized (leaf cls sig) prims params :=
  ⟨h, fun pss _ => by simp [SizedL]⟩

theorem leaf_noPrimRefs (cls : ConsClass K) (sig : ConsSig) : NoPrimRefs (leaf cls sig) := by
  intro p m hm ks hks
  cases hm with
  | here => simp [leaf] at hks
  | down hmem _ => simp [leaf] at hmem

end Cons

/-! ## Sums -/

section
variable [PyNum K]

theorem sum_aligned (a : Cons K) : ∀ (b : Cons K), Shape a b →
    ∀ (qa qb : List (Param K)), a.Consistent qa → b.Consistent qb →
    (sumTree a b).Aligned (qa ++ qb) := by
  induction a using Node.induct with
  | _ t v cs ih =>
    intro b hsh qa qb hca hcb
    cases b with
    | mk t' v' ds =>
      obtain ⟨ha1, ha2, ha3⟩ := hca
      obtain ⟨hb1, hb2, hb3⟩ := hcb
      have hs2 : split2 v.sig.paramTypes.length v'.sig.paramTypes.length (qa ++ qb) = (qa, qb) :=
        split2_append ha1 hb1
      have hlen : ∀ {cs ds : List (Str × Cons K)}, ShapeL cs ds → cs.length = ds.length := by
        intro cs
        induction cs with
        | nil => intro ds h; cases ds with
          | nil => rfl
          | cons d ds => exact h.elim
        | cons c cs ih => intro ds h; cases ds with
          | nil => exact h.elim
          | cons d ds => simp [ih h.2]
      have hl := hlen hsh.2.2
      have hl' : (sumTreeL cs ds).length = cs.length := by
        have := congrArg List.length (sumTreeL_keys hsh.2.2)
        simpa using this
      refine ⟨?_, ?_⟩
      · simp only [sumVal, Node.value_mk, List.length_zipWith, Node.children_mk] at hl ⊢
        rw [hl', ha2, hb2]; omega
      · intro pss hpss
        simp only [sumVal, Node.value_mk, hs2, py_bind_ok] at hpss
        obtain ⟨pssa, hpssa, pssb, hpssb, e⟩ := hpss
        cases e
        obtain ⟨l1, c1⟩ := ha3 pssa hpssa
        obtain ⟨l2, c2⟩ := hb3 pssb hpssb
        simp only [Node.children_mk] at hl
        refine ⟨?_, ?_⟩
        · simp only [Node.children_mk, hl', List.length_zipWith]; omega
        · simp only [Node.children_mk]
          have hsh' : ShapeL cs ds := hsh.2.2
          have hk1 : v.childPrimKeys.length = cs.length := ha2
          have hk2 : v'.childPrimKeys.length = ds.length := hb2
          generalize v.childPrimKeys = kss at c1 hk1
          generalize v'.childPrimKeys = kss' at c2 hk2
          clear hpssa hpssb ha1 ha2 ha3 hb1 hb2 hb3 hs2 hl hl' hsh
          induction cs generalizing ds kss kss' pssa pssb with
          | nil =>
            cases ds <;> simp [sumTreeL, Cons.AlignedL]
          | cons kc cs ihc =>
            obtain ⟨k, c⟩ := kc
            cases ds with
            | nil => exact hsh'.elim
            | cons d ds =>
              obtain ⟨k', d⟩ := d
              cases kss with
              | nil => simp at hk1
              | cons ks kss =>
              cases kss' with
              | nil => simp at hk2
              | cons ks' kss' =>
              cases pssa with
              | nil => simp at l1
              | cons qs pssa =>
              cases pssb with
              | nil => simp at l2
              | cons qs' pssb =>
                refine ⟨ih k c (by simp) d hsh'.1 qs qs' c1.2.1 c2.2.1, ?_⟩
                exact ihc (fun k c h => ih k c (List.mem_cons_of_mem _ h)) ds pssa pssb
                  (by simpa using l1) (by simpa using l2) hsh'.2 kss c1.2.2
                  (by simpa using hk1) kss' c2.2.2 (by simpa using hk2)

theorem sum_call {a b : Cons K} (ha : a.WF) (hsh : Shape a b) (hnp : b.NoPrimRefs)
    {pa pb : List (Prim K)} {qa qb : List (Param K)} {va vb : List K}
    (hca : a.Consistent qa) (hcb : b.Consistent qb) (hza : a.Sized pa qa) (hzb : b.Sized pb qb)
    (hb : b.WF)
    (hea : a.call pa qa = .ok va) (heb : b.call pb qb = .ok vb) :
    (sumTree a b).call (pa ++ pb) (qa ++ qb) = .ok (List.zipWith (· + ·) va vb) := by
  rw [Cons.call_ok_iff _ (sumTree_WF ha hsh) _ _ (sum_aligned a b hsh qa qb hca hcb)]
  rw [Cons.call_ok_iff _ ha _ _ hca.aligned] at hea
  rw [Cons.call_ok_iff _ hb _ _ hcb.aligned] at heb
  obtain ⟨⟨a1, a2⟩, hea⟩ := hea
  obtain ⟨⟨b1, b2⟩, heb⟩ := heb
  refine ⟨?_, (sum_eval a b hsh hnp pa pb qa qb va vb a1.length_eq b1.length_eq hca hcb hza hzb
    hea heb).2⟩
  cases a with
  | mk t v cs =>
    refine ⟨?_, ?_⟩
    · exact List.rel_append a1 b1
    · simp only [sumTree, Node.value_mk, sumVal, ConsSig.concat, List.length_append]
      simp only [Node.value_mk] at a2
      rw [a2, b2]

end

/-! ## Partial application -/

theorem partial_call' {c c' : Cons K} {freeze : List (Param K)}
    (hle : freeze.length ≤ c.value.sig.paramTypes.length)
    (hsl : pySlice c.value.sig.paramTypes none (some (-(freeze.length : Int)))
      = c.value.sig.paramTypes.take (c.value.sig.paramTypes.length - freeze.length))
    (h : transformPartial c freeze = .ok c') (prims : List (Prim K)) (params : List (Param K)) :
    c'.call prims params = c.call prims (params ++ freeze) := by
  simp only [transformPartial, consInit] at h
  split at h
  · simp at h
  split at h
  · simp at h
  obtain rfl := Except.ok.inj h
  cases c with
  | mk t v cs =>
    simp only [Node.value_mk] at hsl hle
    simp only [Cons.call, Cons.validatePrims, Cons.validateParams, Node.value_mk, hsl,
      List.length_take, List.length_append, Node.children_mk, Node.ty_mk]
    have hlen : (params.length ≠ min (v.sig.paramTypes.length - freeze.length)
        v.sig.paramTypes.length) ↔ (params.length + freeze.length ≠ v.sig.paramTypes.length) := by
      omega
    simp only [hlen]
    congr 1; funext _
    congr 1; funext _
    congr 1; funext root
    simp only [Cons.rootPrimKeys, Cons.rootParams, ConsVal.childKeys]
    cases pyMap (fun keys => pyMap (replacePrefix (Cons.argKeys prims.length)) keys)
      v.childPrimKeys with
    | error e => rfl
    | ok ck =>
      simp only [bind, Except.bind]
      cases Cons.rootPrimKeysL cs ck with
      | error e => rfl
      | ok kt =>
        simp only []
        cases v.childParams (params ++ freeze) with
        | error e => rfl
        | ok pss =>
          simp only []
          cases Cons.rootParamsL cs pss with
          | error e => rfl
          | ok pt =>
            simp only [Cons.assemFromTree, Node.iterFlat, List.map_cons, bind, Except.bind,
              Node.value_mk]
            generalize pyMap (Cons.lookupPrims root) (_ :: _) = fp
            cases fp with
            | error e => rfl
            | ok fp => cases fp <;> rfl

theorem partial_call {c c' : Cons K} {freeze : List (Param K)} (hne : freeze ≠ [])
    (hle : freeze.length ≤ c.value.sig.paramTypes.length)
    (h : transformPartial c freeze = .ok c') (prims : List (Prim K)) (params : List (Param K)) :
    c'.call prims params = c.call prims (params ++ freeze) := by
  refine partial_call' hle ?_ h prims params
  have hpos : 0 < freeze.length := List.length_pos_iff.mpr hne
  simp only [pySlice, sliceBound]
  have h1 : (-(freeze.length : Int)) < 0 := by omega
  rw [if_pos h1]
  have h2 : (-(freeze.length : Int) + c.value.sig.paramTypes.length).toNat
      = c.value.sig.paramTypes.length - freeze.length := by omega
  have h3 : ¬ (-(freeze.length : Int) + c.value.sig.paramTypes.length < 0) := by omega
  rw [if_neg h3, h2]
  simp

end MplLayout
