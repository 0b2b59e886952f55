import Verif.Spec.Constructions
import Verif.Lemmas.Containers
import Verif.Lemmas.Primitives
import Verif.Lemmas.Pack
import Mathlib.Data.List.Forall2

namespace MplLayout

variable {α β γ K : Type}

theorem py_bind_ok {x : Py α} {f : α → Py β} {b : β} :
    (x >>= f) = .ok b ↔ ∃ a, x = .ok a ∧ f a = .ok b := by
  cases x <;> simp [bind, Except.bind]

theorem pyMap_ok {f : α → Py β} {xs : List α} {ys : List β} :
    pyMap f xs = .ok ys ↔ List.Forall₂ (fun x y => f x = .ok y) xs ys := by
  induction xs generalizing ys with
  | nil => cases ys <;> simp [pyMap]
  | cons x xs ih =>
    simp only [pyMap, py_bind_ok, ih]
    constructor
    · rintro ⟨y, hy, ys', hys, h⟩
      cases h; exact .cons hy hys
    · intro h
      cases h with
      | cons hy hys => exact ⟨_, hy, _, hys, rfl⟩

theorem pyMap_append_ok {f : α → Py β} {xs xs' : List α} {zs : List β} :
    pyMap f (xs ++ xs') = .ok zs ↔
      ∃ ys ys', pyMap f xs = .ok ys ∧ pyMap f xs' = .ok ys' ∧ zs = ys ++ ys' := by
  induction xs generalizing zs with
  | nil => simp [pyMap]
  | cons x xs ih =>
    simp only [List.cons_append, pyMap, py_bind_ok, ih]
    constructor
    · rintro ⟨y, hy, zs', ⟨ys, ys', h, h', rfl⟩, e⟩
      cases e; exact ⟨y :: ys, ys', ⟨y, hy, ys, h, rfl⟩, h', rfl⟩
    · rintro ⟨zs', ys', ⟨y, hy, ys, h, e⟩, h', rfl⟩
      cases e
      exact ⟨y, hy, _, ⟨ys, ys', h, h', rfl⟩, rfl⟩

theorem pyMap_length {f : α → Py β} {xs : List α} {ys : List β} (h : pyMap f xs = .ok ys) :
    ys.length = xs.length := ((pyMap_ok.mp h).length_eq).symm

/-! ## Resolving argument keys -/

theorem pyIndex_nat (xs : List α) (i : Nat) :
    pyIndex xs (Int.ofNat i) = match xs[i]? with
      | some x => .ok x
      | none => .error .indexError := by
  have h : ¬ (Int.ofNat i < 0) := by simp
  have h' : ((Int.ofNat i).toNat) = i := rfl
  unfold pyIndex
  simp only [h, if_false, h']
  rfl

theorem forall₂_getElem? {R : α → β → Prop} {xs : List α} {ys : List β}
    (h : List.Forall₂ R xs ys) (i : Nat) :
    (xs[i]? = none ∧ ys[i]? = none) ∨ ∃ x y, xs[i]? = some x ∧ ys[i]? = some y ∧ R x y := by
  induction h generalizing i with
  | nil => simp
  | cons hr _ ih =>
    cases i with
    | zero => simpa using hr
    | succ i => simpa using ih i

theorem argnum_eq (w : Str) : argnum w = argIndex w := by
  unfold argnum argIndex parseInt
  split
  · rename_i h
    match w, h with
    | a :: b :: c :: ds, h =>
      simp only [List.take_succ_cons, List.take_zero, List.cons.injEq, and_true] at h
      obtain ⟨rfl, rfl, rfl⟩ := h
      rfl
  · rename_i h
    split
    · exact absurd rfl h
    · rfl

theorem resolve_replace {root : Prim K} {keys : List Str} {prims : List (Prim K)}
    (h : List.Forall₂ (fun k p => root.getChild k = .ok p) keys prims) (key : Str) (p : Prim K) :
    (∃ k', replacePrefix keys key = .ok k' ∧ root.getChild k' = .ok p) ↔
      resolve prims key = .ok p := by
  unfold replacePrefix resolve
  rw [split1_eq]
  cases hw : splitAll key with
  | nil => exact absurd hw (splitAll_ne_nil key)
  | cons w ws =>
    have hws : ∀ x ∈ ws, '/' ∉ x := fun x hx =>
      mem_splitAll_noslash (s := key) (by rw [hw]; exact List.mem_cons_of_mem _ hx)
    simp only [List.headD_cons, List.tail_cons]
    rw [argnum_eq]
    cases argIndex w with
    | error e => simp [bind, Except.bind]
    | ok i =>
      simp only [bind, Except.bind, pyIndex_nat]
      rcases forall₂_getElem? h i with ⟨h1, h2⟩ | ⟨k, q, h1, h2, hq⟩
      · simp [h1, h2]
      · simp only [h1, h2, Except.ok.injEq, exists_eq_left']
        by_cases he : ws = []
        · simp [he, joinSlash, hq]
        · simp only [he, if_false, Option.toList_some]
          rw [joinSlash_cons (by simp)]
          simp only [joinSlash]
          rw [Node.getChild_ok_iff, splitAll_append_slash, Node.find_append,
            Node.getChild_ok_iff.mp hq, Node.getChild_ok_iff]
          rfl

theorem resolve_replaces {root : Prim K} {keys : List Str} {prims : List (Prim K)}
    (h : List.Forall₂ (fun k p => root.getChild k = .ok p) keys prims) (ks : List Str)
    (ps : List (Prim K)) :
    (∃ ks', pyMap (replacePrefix keys) ks = .ok ks' ∧
      List.Forall₂ (fun k p => root.getChild k = .ok p) ks' ps) ↔
      pyMap (resolve prims) ks = .ok ps := by
  simp only [pyMap_ok]
  induction ks generalizing ps with
  | nil => simp
  | cons k ks ih =>
    constructor
    · rintro ⟨_, h1, h2⟩
      cases h1 with
      | cons a b =>
        cases h2 with
        | cons c d => exact .cons ((resolve_replace h _ _).mp ⟨_, a, c⟩) ((ih _).mp ⟨_, b, d⟩)
    · intro h1
      cases h1 with
      | cons a b =>
        obtain ⟨k', h2, h3⟩ := (resolve_replace h _ _).mpr a
        obtain ⟨ks', h4, h5⟩ := (ih _).mpr b
        exact ⟨k' :: ks', .cons h2 h4, .cons h3 h5⟩

/-! ## Flat evaluation is recursive evaluation -/

theorem iterFlat_key_irrel {τ : Type} (n : Node τ α) (k k' : Str) :
    (n.iterFlat k).map (·.2) = (n.iterFlat k').map (·.2) := by
  induction n using Node.induct generalizing k k' with
  | _ t v cs ih =>
    simp only [Node.iterFlat, List.map_cons, Node.iterFlatL_eq, List.map_flatMap]
    congr 1
    apply List.flatMap_congr
    intro x hx
    exact ih x.1 x.2 hx _ _

/-- All nodes of a tree, depth first. -/
def Node.flat {τ : Type} (n : Node τ α) : List (Node τ α) := (n.iterFlat []).map (·.2)

theorem flat_mk {τ : Type} (t : τ) (v : α) (cs : List (Str × Node τ α)) :
    (Node.mk t v cs).flat = .mk t v cs :: cs.flatMap (·.2.flat) := by
  simp only [Node.flat, Node.iterFlat, List.map_cons, Node.iterFlatL_eq, List.map_flatMap]
  congr 1
  apply List.flatMap_congr
  intro x hx
  exact iterFlat_key_irrel _ _ _

/-- All values of a tree, depth first. -/
def Node.flatVals {τ : Type} (n : Node τ α) : List α := (n.iterFlat []).map (·.2.value)

theorem flatVals_mk {τ : Type} (t : τ) (v : α) (cs : List (Str × Node τ α)) :
    (Node.mk t v cs).flatVals = v :: cs.flatMap (·.2.flatVals) := by
  have h : ∀ n : Node τ α, n.flatVals = n.flat.map (·.value) := by
    intro n; simp [Node.flatVals, Node.flat]
  simp [h, flat_mk, List.map_flatMap]

theorem WF_nodup {τ : Type} {t : τ} {v : α} {cs : List (Str × Node τ α)}
    (h : (Node.mk t v cs).WF) : (cs.map (·.1)).Nodup := h.keys_nodup

namespace Cons

theorem residuals_append {cs cs' : List (Cons K)} {ps ps' : List (List (Prim K))}
    {qs qs' : List (List (Param K))} (h1 : ps.length = cs.length) (h2 : qs.length = cs.length)
    {rs : List (List K)} :
    residuals (cs ++ cs') (ps ++ ps') (qs ++ qs') = .ok rs ↔
      ∃ r r', residuals cs ps qs = .ok r ∧ residuals cs' ps' qs' = .ok r' ∧ rs = r ++ r' := by
  induction cs generalizing ps qs rs with
  | nil =>
    obtain rfl : ps = [] := List.length_eq_zero_iff.mp h1
    obtain rfl : qs = [] := List.length_eq_zero_iff.mp h2
    simp [residuals]
  | cons c cs ih =>
    cases ps with
    | nil => simp at h1
    | cons p ps =>
      cases qs with
      | nil => simp at h2
      | cons q qs =>
        simp only [List.length_cons, Nat.add_right_cancel_iff] at h1 h2
        simp only [List.cons_append, residuals, py_bind_ok, ih h1 h2]
        constructor
        · rintro ⟨y, hy, zs', ⟨ys, ys', h, h', rfl⟩, e⟩
          cases e; exact ⟨y :: ys, ys', ⟨y, hy, ys, h, rfl⟩, h', rfl⟩
        · rintro ⟨zs', ys', ⟨y, hy, ys, h, e⟩, h', rfl⟩
          cases e
          exact ⟨y, hy, _, ⟨ys, ys', h, h', rfl⟩, rfl⟩

theorem rootPrimKeysL_keys {cs : List (Str × Cons K)} {kss : List (List Str)}
    {ns : List (Str × KeysNode)} (h : rootPrimKeysL cs kss = .ok ns) :
    ns.map (·.1) = (cs.map (·.1)).take kss.length := by
  induction cs generalizing kss ns with
  | nil => cases kss <;> simp [rootPrimKeysL] at h <;> simp [← h]
  | cons kc cs ih =>
    cases kss with
    | nil => simp [rootPrimKeysL] at h; simp [← h]
    | cons ks kss =>
      simp only [rootPrimKeysL, py_bind_ok] at h
      obtain ⟨n, hn, rest, hr, e⟩ := h
      cases e
      simp [ih hr]

theorem rootParamsL_keys {cs : List (Str × Cons K)} {kss : List (List (Param K))}
    {ns : List (Str × ParamsNode K)} (h : rootParamsL cs kss = .ok ns) :
    ns.map (·.1) = (cs.map (·.1)).take kss.length := by
  induction cs generalizing kss ns with
  | nil => cases kss <;> simp [rootParamsL] at h <;> simp [← h]
  | cons kc cs ih =>
    cases kss with
    | nil => simp [rootParamsL] at h; simp [← h]
    | cons ks kss =>
      simp only [rootParamsL, py_bind_ok] at h
      obtain ⟨n, hn, rest, hr, e⟩ := h
      cases e
      simp [ih hr]

/-- `root_prim_keys` without the dictionary. -/
theorem rootPrimKeys_ok {t : ConsClass K} {v : ConsVal K} {cs : List (Str × Cons K)}
    (hn : (cs.map (·.1)).Nodup) {keys : List Str} {n : KeysNode} :
    rootPrimKeys (.mk t v cs) keys = .ok n ↔
      ∃ kss ns, v.childKeys keys = .ok kss ∧ rootPrimKeysL cs kss = .ok ns ∧
        n = .mk () keys ns := by
  simp only [rootPrimKeys, py_bind_ok]
  constructor
  · rintro ⟨kss, h1, ns, h2, e⟩
    cases e
    refine ⟨kss, ns, h1, h2, ?_⟩
    rw [dictOfPairs_of_nodup]
    rw [rootPrimKeysL_keys h2]
    exact hn.sublist (List.take_sublist _ _)
  · rintro ⟨kss, ns, h1, h2, rfl⟩
    refine ⟨kss, h1, ns, h2, ?_⟩
    rw [dictOfPairs_of_nodup]
    rw [rootPrimKeysL_keys h2]
    exact hn.sublist (List.take_sublist _ _)

/-- `root_params` without the dictionary. -/
theorem rootParams_ok {t : ConsClass K} {v : ConsVal K} {cs : List (Str × Cons K)}
    (hn : (cs.map (·.1)).Nodup) {params : List (Param K)} {n : ParamsNode K} :
    rootParams (.mk t v cs) params = .ok n ↔
      ∃ pss ns, v.childParams params = .ok pss ∧ rootParamsL cs pss = .ok ns ∧
        n = .mk () params ns := by
  simp only [rootParams, py_bind_ok]
  constructor
  · rintro ⟨kss, h1, ns, h2, e⟩
    cases e
    refine ⟨kss, ns, h1, h2, ?_⟩
    rw [dictOfPairs_of_nodup]
    rw [rootParamsL_keys h2]
    exact hn.sublist (List.take_sublist _ _)
  · rintro ⟨kss, ns, h1, h2, rfl⟩
    refine ⟨kss, h1, ns, h2, ?_⟩
    rw [dictOfPairs_of_nodup]
    rw [rootParamsL_keys h2]
    exact hn.sublist (List.take_sublist _ _)

/-- The flat computation on the two argument trees, without the final concatenation. -/
def FlatOK (c : Cons K) (root : Prim K) (keys : List Str) (params : List (Param K))
    (rs : List (List K)) : Prop :=
  ∃ kt pt fp, rootPrimKeys c keys = .ok kt ∧ rootParams c params = .ok pt ∧
    pyMap (lookupPrims root) kt.flatVals = .ok fp ∧
    kt.flatVals.length = c.flat.length ∧ pt.flatVals.length = c.flat.length ∧
    residuals c.flat fp pt.flatVals = .ok rs

/-- The same for a list of children. -/
def FlatOKL (cs : List (Str × Cons K)) (root : Prim K) (kss : List (List Str))
    (pss : List (List (Param K))) (rs : List (List K)) : Prop :=
  ∃ kt pt fp, rootPrimKeysL cs kss = .ok kt ∧ rootParamsL cs pss = .ok pt ∧
    pyMap (lookupPrims root) (kt.flatMap (·.2.flatVals)) = .ok fp ∧
    (kt.flatMap (·.2.flatVals)).length = (cs.flatMap (·.2.flat)).length ∧
    (pt.flatMap (·.2.flatVals)).length = (cs.flatMap (·.2.flat)).length ∧
    residuals (cs.flatMap (·.2.flat)) fp (pt.flatMap (·.2.flatVals)) = .ok rs

theorem FlatOKL_cons {k : Str} {c : Cons K} {cs : List (Str × Cons K)} {root : Prim K}
    {ks : List Str} {kss : List (List Str)} {ps : List (Param K)} {pss : List (List (Param K))}
    {rs : List (List K)}
    (hl : ∀ kt pt, rootPrimKeys c ks = .ok kt → rootParams c ps = .ok pt →
      kt.flatVals.length = c.flat.length ∧ pt.flatVals.length = c.flat.length) :
    FlatOKL ((k, c) :: cs) root (ks :: kss) (ps :: pss) rs ↔
      ∃ r r', FlatOK c root ks ps r ∧ FlatOKL cs root kss pss r' ∧ rs = r ++ r' := by
  constructor
  · rintro ⟨kt, pt, fp, h1, h2, h3, h4, h5, h6⟩
    simp only [rootPrimKeysL, rootParamsL, py_bind_ok] at h1 h2
    obtain ⟨kt1, hk1, kt2, hk2, e⟩ := h1
    cases e
    obtain ⟨pt1, hp1, pt2, hp2, e⟩ := h2
    cases e
    obtain ⟨l1, l2⟩ := hl _ _ hk1 hp1
    simp only [List.flatMap_cons] at h3 h4 h5 h6
    rw [pyMap_append_ok] at h3
    obtain ⟨f1, f2, h31, h32, rfl⟩ := h3
    rw [residuals_append (by rw [pyMap_length h31, l1]) l2] at h6
    obtain ⟨r, r', h61, h62, rfl⟩ := h6
    simp only [List.length_append] at h4 h5
    exact ⟨r, r', ⟨kt1, pt1, f1, hk1, hp1, h31, l1, l2, h61⟩,
      ⟨kt2, pt2, f2, hk2, hp2, h32, by omega, by omega, h62⟩, rfl⟩
  · rintro ⟨r, r', ⟨kt1, pt1, f1, hk1, hp1, h31, l1, l2, h61⟩,
      ⟨kt2, pt2, f2, hk2, hp2, h32, l3, l4, h62⟩, rfl⟩
    refine ⟨(k, kt1) :: kt2, (k, pt1) :: pt2, f1 ++ f2, ?_, ?_, ?_, ?_, ?_, ?_⟩
    · simp only [rootPrimKeysL, py_bind_ok]; exact ⟨_, hk1, _, hk2, rfl⟩
    · simp only [rootParamsL, py_bind_ok]; exact ⟨_, hp1, _, hp2, rfl⟩
    · simp only [List.flatMap_cons]; rw [pyMap_append_ok]; exact ⟨f1, f2, h31, h32, rfl⟩
    · simp only [List.flatMap_cons, List.length_append]; omega
    · simp only [List.flatMap_cons, List.length_append]; omega
    · simp only [List.flatMap_cons]
      rw [residuals_append (by rw [pyMap_length h31, l1]) l2]
      exact ⟨r, r', h61, h62, rfl⟩

theorem FlatOK_mk {t : ConsClass K} {v : ConsVal K} {cs : List (Str × Cons K)}
    (hn : (cs.map (·.1)).Nodup) {root : Prim K} {keys : List Str} {prims : List (Prim K)}
    (hk : List.Forall₂ (fun k p => root.getChild k = .ok p) keys prims)
    {params : List (Param K)} {rs : List (List K)} :
    FlatOK (.mk t v cs) root keys params rs ↔
      ∃ own kss pss r, t.assem prims params = .ok own ∧ v.childKeys keys = .ok kss ∧
        v.childParams params = .ok pss ∧ FlatOKL cs root kss pss r ∧
        rs = own.atleast1d :: r := by
  have hlk : lookupPrims root keys = .ok prims := pyMap_ok.mpr hk
  constructor
  · rintro ⟨kt, pt, fp, h1, h2, h3, h4, h5, h6⟩
    rw [rootPrimKeys_ok hn] at h1
    obtain ⟨kss, ns, h11, h12, rfl⟩ := h1
    rw [rootParams_ok hn] at h2
    obtain ⟨pss, ms, h21, h22, rfl⟩ := h2
    simp only [flatVals_mk, flat_mk, List.length_cons, Nat.add_right_cancel_iff] at h3 h4 h5 h6
    simp only [pyMap, py_bind_ok, hlk, Except.ok.injEq, exists_eq_left'] at h3
    obtain ⟨f, h31, rfl⟩ := h3
    simp only [residuals, assemAtleast1d, py_bind_ok, Node.ty_mk] at h6
    obtain ⟨y, ⟨own, ho, e⟩, r, hr, e'⟩ := h6
    cases e; cases e'
    exact ⟨own, kss, pss, r, ho, h11, h21, ⟨ns, ms, f, h12, h22, h31, h4, h5, hr⟩, rfl⟩
  · rintro ⟨own, kss, pss, r, ho, h11, h21, ⟨ns, ms, f, h12, h22, h31, h4, h5, hr⟩, rfl⟩
    refine ⟨.mk () keys ns, .mk () params ms, prims :: f, (rootPrimKeys_ok hn).mpr
      ⟨kss, ns, h11, h12, rfl⟩, (rootParams_ok hn).mpr ⟨pss, ms, h21, h22, rfl⟩, ?_, ?_, ?_, ?_⟩
    · simp only [flatVals_mk, pyMap, py_bind_ok, hlk, Except.ok.injEq, exists_eq_left']
      exact ⟨f, h31, rfl⟩
    · simp [flatVals_mk, flat_mk, h4]
    · simp [flatVals_mk, flat_mk, h5]
    · simp only [flatVals_mk, flat_mk, residuals, assemAtleast1d, py_bind_ok, Node.ty_mk]
      exact ⟨_, ⟨own, ho, rfl⟩, r, hr, rfl⟩

mutual
/-- Every child has a tuple of argument keys, here and in all descendants. -/
def KeyAligned : Cons K → Prop
  | .mk _ v cs => v.childPrimKeys.length = cs.length ∧ KeyAlignedL cs
/-- `KeyAligned` for a list of children. -/
def KeyAlignedL : List (Str × Cons K) → Prop
  | [] => True
  | (_, c) :: cs => KeyAligned c ∧ KeyAlignedL cs
end

theorem length_flatMap_congr {γ : Type} {xs : List α} {ys : List β} {f : α → List γ}
    {δ : Type} {g : β → List δ}
    (h : List.Forall₂ (fun x y => (f x).length = (g y).length) xs ys) :
    (xs.flatMap f).length = (ys.flatMap g).length := by
  induction h with
  | nil => rfl
  | cons h _ ih => simp [h, ih]

/-- The two argument trees have as many nodes as the construction. -/
theorem lengths (c : Cons K) (hc : c.WF) (keys : List Str) (params : List (Param K))
    (ha : c.Aligned params) (kt : KeysNode) (pt : ParamsNode K)
    (h1 : rootPrimKeys c keys = .ok kt) (h2 : rootParams c params = .ok pt) :
    kt.flatVals.length = c.flat.length ∧ pt.flatVals.length = c.flat.length := by
  induction c using Node.induct generalizing keys params kt pt with
  | _ t v cs ih =>
    rw [rootPrimKeys_ok (WF_nodup hc)] at h1
    obtain ⟨kss, ns, h11, h12, rfl⟩ := h1
    rw [rootParams_ok (WF_nodup hc)] at h2
    obtain ⟨pss, ms, h21, h22, rfl⟩ := h2
    obtain ⟨ha1, ha2⟩ := ha
    obtain ⟨ha3, ha4⟩ := ha2 pss h21
    have hlen : kss.length = cs.length := by rw [← ha1]; exact pyMap_length h11
    have hch : ∀ k c, (k, c) ∈ cs → Node.WF c := fun k c hm => hc.child hm
    clear h11 h21 ha1 ha2 hc
    suffices h : (ns.flatMap (·.2.flatVals)).length = (cs.flatMap (·.2.flat)).length ∧
        (ms.flatMap (·.2.flatVals)).length = (cs.flatMap (·.2.flat)).length by
      simp only [flatVals_mk, flat_mk, List.length_cons]
      exact ⟨congrArg (· + 1) h.1, congrArg (· + 1) h.2⟩
    induction cs generalizing kss pss ns ms with
    | nil =>
      cases kss <;> cases pss <;> simp_all [rootPrimKeysL, rootParamsL]
    | cons kc cs ihc =>
      obtain ⟨k, c⟩ := kc
      cases kss with
      | nil => simp at hlen
      | cons ks kss =>
        cases pss with
        | nil => simp at ha3
        | cons ps pss =>
          simp only [rootPrimKeysL, rootParamsL, py_bind_ok] at h12 h22
          obtain ⟨n, hn, ns', hns, e⟩ := h12
          cases e
          obtain ⟨m, hm, ms', hms, e⟩ := h22
          cases e
          have h1 := ih k c (by simp) (hch k c (by simp)) ks ps ha4.1 n m hn hm
          have h2 := ihc (fun k c h => ih k c (List.mem_cons_of_mem _ h)) kss ns' hns pss ms' hms
            (by simpa using ha3) ha4.2 (by simpa using hlen)
            (fun k c h => hch k c (List.mem_cons_of_mem _ h))
          simp only [List.flatMap_cons, List.length_append]; omega

/-- The flat computation is the recursive evaluation. -/
theorem flat_eval (c : Cons K) (hc : c.WF) (root : Prim K) (keys : List Str)
    (prims : List (Prim K)) (params : List (Param K))
    (hk : List.Forall₂ (fun k p => root.getChild k = .ok p) keys prims) (ha : c.Aligned params)
    (v : List K) :
    (∃ rs, FlatOK c root keys params rs ∧ v = rs.flatten) ↔ c.eval prims params = .ok v := by
  induction c using Node.induct generalizing keys prims params v with
  | _ t w cs ih =>
    have hmk := fun rs => FlatOK_mk (rs := rs) (t := t) (v := w) (params := params)
      (WF_nodup hc) hk
    simp only [hmk, eval, py_bind_ok]
    obtain ⟨ha1, ha2⟩ := ha
    have key : ∀ (css : List (List Str)) (pss : List (List (Param K))), css.length = cs.length →
        cs.length ≤ pss.length → AlignedL cs pss → ∀ u,
        (∃ kss r, pyMap (fun ks => pyMap (replacePrefix keys) ks) css = .ok kss ∧
          FlatOKL cs root kss pss r ∧ u = r.flatten) ↔ evalL prims cs css pss = .ok u := by
      have hch : ∀ k c, (k, c) ∈ cs → Node.WF c := fun k c hm => hc.child hm
      clear ha1 ha2 hc hmk
      induction cs with
      | nil =>
        intro css pss h1 _ _ u
        obtain rfl : css = [] := List.length_eq_zero_iff.mp h1
        simp only [pyMap, evalL, Except.ok.injEq]
        constructor
        · rintro ⟨kss, r, rfl, ⟨kt, pt, fp, h1, h2, h3, h4, h5, h6⟩, rfl⟩
          simp only [List.flatMap_nil] at h6
          simp only [residuals, Except.ok.injEq] at h6
          simp [← h6]
        · rintro rfl
          exact ⟨[], [], rfl, ⟨[], [], [], rfl, by cases pss <;> rfl, rfl, rfl, rfl, rfl⟩, rfl⟩
      | cons kc cs ihc =>
        obtain ⟨k, c⟩ := kc
        intro css pss h1 h2 h3 u
        cases css with
        | nil => simp at h1
        | cons ks css =>
          cases pss with
          | nil => simp at h2
          | cons ps pss =>
            have hwf := hch k c (by simp)
            have ih1 := ihc (fun k c h => ih k c (List.mem_cons_of_mem _ h))
              (fun k c h => hch k c (List.mem_cons_of_mem _ h)) css pss (by simpa using h1)
              (by simpa using h2) h3.2
            have ih2 := ih k c (by simp) hwf
            simp only [evalL, py_bind_ok]
            constructor
            · rintro ⟨kss, r, hkss, hf, rfl⟩
              simp only [pyMap, py_bind_ok] at hkss
              obtain ⟨ks', hks, kss', hkss', e⟩ := hkss
              cases e
              rw [FlatOKL_cons (fun kt pt a b => lengths c hwf _ _ h3.1 kt pt a b)] at hf
              obtain ⟨r1, r2, hf1, hf2, rfl⟩ := hf
              have hres : ∃ cp, List.Forall₂ (fun k p => root.getChild k = .ok p) ks' cp := by
                obtain ⟨kt, pt, fp, g1, g2, g3, g4, g5, g6⟩ := hf1
                cases c with
                | mk t' w' cs' =>
                  rw [rootPrimKeys_ok (WF_nodup hwf)] at g1
                  obtain ⟨_, ns, _, _, rfl⟩ := g1
                  simp only [flatVals_mk, pyMap, py_bind_ok] at g3
                  obtain ⟨cp, hcp, _⟩ := g3
                  exact ⟨cp, pyMap_ok.mp hcp⟩
              obtain ⟨cp, hcp⟩ := hres
              refine ⟨cp, (resolve_replaces hk _ _).mp ⟨ks', hks, hcp⟩, r1.flatten,
                (ih2 ks' cp ps hcp h3.1 _).mp ⟨r1, hf1, rfl⟩, r2.flatten,
                (ih1 _).mp ⟨kss', r2, hkss', hf2, rfl⟩, by simp⟩
            · rintro ⟨cp, hcp, u1, hu1, u2, hu2, e⟩
              cases e
              obtain ⟨ks', hks, hfor⟩ := (resolve_replaces hk _ _).mpr hcp
              obtain ⟨r1, hf1, rfl⟩ := (ih2 ks' cp ps hfor h3.1 _).mpr hu1
              obtain ⟨kss', r2, hkss', hf2, rfl⟩ := (ih1 _).mpr hu2
              refine ⟨ks' :: kss', r1 ++ r2, ?_, ?_, by simp⟩
              · simp only [pyMap, py_bind_ok]
                exact ⟨ks', hks, kss', hkss', rfl⟩
              · rw [FlatOKL_cons (fun kt pt a b => lengths c hwf _ _ h3.1 kt pt a b)]
                exact ⟨r1, r2, hf1, hf2, rfl⟩
    constructor
    · rintro ⟨rs, ⟨own, kss, pss, r, h1, h2, h3, h4, rfl⟩, rfl⟩
      obtain ⟨l1, l2⟩ := ha2 pss h3
      exact ⟨own, h1, pss, h3, r.flatten, (key _ _ ha1 l1 l2 _).mp ⟨kss, r, h2, h4, rfl⟩,
        by simp⟩
    · rintro ⟨own, h1, pss, h3, u, hu, e⟩
      cases e
      obtain ⟨l1, l2⟩ := ha2 pss h3
      obtain ⟨kss, r, h2, h4, rfl⟩ := (key _ _ ha1 l1 l2 _).mpr hu
      exact ⟨_, ⟨own, kss, pss, r, h1, h2, h3, h4, rfl⟩, by simp⟩

/-- `assem_from_tree` on the trees built from keys and parameters is the recursive evaluation. -/
theorem assemFromTree_eval (c : Cons K) (hc : c.WF) (root : Prim K) (keys : List Str)
    (prims : List (Prim K)) (params : List (Param K))
    (hk : List.Forall₂ (fun k p => root.getChild k = .ok p) keys prims) (ha : c.Aligned params)
    (v : List K) :
    (∃ kt pt, c.rootPrimKeys keys = .ok kt ∧ c.rootParams params = .ok pt ∧
      c.assemFromTree root kt pt = .ok v) ↔ c.eval prims params = .ok v := by
  rw [← flat_eval c hc root keys prims params hk ha]
  constructor
  · rintro ⟨kt, pt, h1, h2, h3⟩
    simp only [assemFromTree, py_bind_ok] at h3
    obtain ⟨fp, h4, rs, h5, h6⟩ := h3
    have hl := lengths c hc keys params ha kt pt h1 h2
    refine ⟨rs, ⟨kt, pt, fp, h1, h2, h4, hl.1, hl.2, h5⟩, ?_⟩
    unfold npConcat at h6
    split at h6
    · cases h6
    · cases h6; rfl
  · rintro ⟨rs, ⟨kt, pt, fp, h1, h2, h4, hl1, hl2, h5⟩, rfl⟩
    refine ⟨kt, pt, h1, h2, ?_⟩
    simp only [assemFromTree, py_bind_ok]
    refine ⟨fp, h4, rs, h5, ?_⟩
    have : rs ≠ [] := by
      have := (FlatOK_mk (t := c.ty) (v := c.value) (cs := c.children) (by
        have := hc.keys_nodup; exact this) hk (params := params) (rs := rs)).mp
        (by rw [Node.eta]; exact ⟨kt, pt, fp, h1, h2, h4, hl1, hl2, h5⟩)
      obtain ⟨_, _, _, _, _, _, _, _, rfl⟩ := this
      simp
    simp [npConcat, this]

end Cons

end MplLayout
