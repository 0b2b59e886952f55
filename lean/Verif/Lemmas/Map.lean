import Verif.Lemmas.Constraint
import Mathlib.Data.List.Nodup

/-! Lemmas about evaluating children one by one, and about `transform_map`. -/

namespace MplLayout

variable {α K : Type}

theorem argnum_argKey (i : Nat) : argnum (k!"arg" ++ natStr i) = .ok i := by
  unfold argnum
  rw [if_pos (by simp)]
  have : (k!"arg" ++ natStr i).drop 3 = natStr i := by simp
  rw [this, parseInt_natStr]

theorem resolve_argKey (prims : List (Prim K)) (i : Nat) :
    resolve prims (k!"arg" ++ natStr i) = match prims[i]? with
      | some p => .ok p
      | none => .error .indexError := by
  unfold resolve
  rw [splitAll_noslash (Cons.argKey_noslash i)]
  simp only [← argnum_eq, argnum_argKey]
  cases prims[i]? <;> simp

theorem resolve_argKey_ok {prims : List (Prim K)} {i : Nat} {p : Prim K} :
    resolve prims (k!"arg" ++ natStr i) = .ok p ↔ prims[i]? = some p := by
  rw [resolve_argKey]
  cases prims[i]? <;> simp

/-- A key `arg{i}/path`. -/
theorem resolve_argKey_path (prims : List (Prim K)) (i : Nat) (path : Str) :
    resolve prims ((k!"arg" ++ natStr i) ++ '/' :: path) = match prims[i]? with
      | some p => p.getChild path
      | none => .error .indexError := by
  unfold resolve
  rw [splitAll_append_slash, splitAll_noslash (Cons.argKey_noslash i)]
  simp only [List.singleton_append, ← argnum_eq, argnum_argKey]
  cases prims[i]? with
  | none => rfl
  | some p =>
    simp only [splitAll_ne_nil, if_false, joinSlash_splitAll]

namespace Cons

/-- Evaluating a list of children, child by child. -/
theorem evalL_iff {prims : List (Prim K)} (cs : List (Str × Cons K)) :
    ∀ (kss : List (List Str)) (pss : List (List (Param K))) (u : List K),
    kss.length = cs.length → cs.length ≤ pss.length →
    (evalL prims cs kss pss = .ok u ↔
      ∃ vs : List (List K), vs.length = cs.length ∧ u = vs.flatten ∧
        ∀ (i : Nat) (kc : Str × Cons K) (ks : List Str) (ps : List (Param K)) (v : List K),
          cs[i]? = some kc → kss[i]? = some ks → pss[i]? = some ps → vs[i]? = some v →
          ∃ cps, pyMap (resolve prims) ks = .ok cps ∧ eval kc.2 cps ps = .ok v) := by
  induction cs with
  | nil =>
    intro kss pss u _ _
    simp only [evalL, Except.ok.injEq]
    constructor
    · rintro rfl; exact ⟨[], rfl, rfl, by simp⟩
    · rintro ⟨vs, h1, rfl, _⟩
      simp only [List.length_nil, List.length_eq_zero_iff] at h1
      simp [h1]
  | cons kc cs ih =>
    intro kss pss u hk hp
    obtain ⟨k, c⟩ := kc
    cases kss with
    | nil => simp at hk
    | cons ks kss =>
    cases pss with
    | nil => simp at hp
    | cons ps pss =>
      simp only [evalL, py_bind_ok]
      have ih' := ih kss pss
      constructor
      · rintro ⟨cps, h1, v, h2, rest, h3, e⟩
        obtain ⟨vs, l, rfl, hv⟩ := (ih' rest (by simpa using hk) (by simpa using hp)).mp h3
        cases e
        refine ⟨v :: vs, by simp [l], rfl, ?_⟩
        intro i kc' ks' ps' v' e1 e2 e3 e4
        cases i with
        | zero => simp at e1 e2 e3 e4; subst e1 e2 e3 e4; exact ⟨cps, h1, h2⟩
        | succ i => exact hv i kc' ks' ps' v' (by simpa using e1) (by simpa using e2)
                      (by simpa using e3) (by simpa using e4)
      · rintro ⟨vs, l, rfl, hv⟩
        cases vs with
        | nil => simp at l
        | cons v vs =>
          obtain ⟨cps, h1, h2⟩ := hv 0 _ _ _ _ rfl rfl rfl rfl
          refine ⟨cps, h1, v, h2, vs.flatten,
            (ih' _ (by simpa using hk) (by simpa using hp)).mpr ⟨vs, by simpa using l, rfl, ?_⟩,
            rfl⟩
          intro i kc' ks' ps' v' e1 e2 e3 e4
          exact hv (i + 1) kc' ks' ps' v' (by simpa using e1) (by simpa using e2)
            (by simpa using e3) (by simpa using e4)

end Cons

theorem sliceBound_nat' (m n : Nat) : sliceBound m ((n : Nat) : Int) = min n m := by
  unfold sliceBound
  have h : ¬ ((n : Int) < 0) := by omega
  simp [h]

theorem pySlice_block {xs : List α} (a b : Nat) (hab : a ≤ b) (hb : b ≤ xs.length) :
    pySlice xs (some ((a : Nat) : Int)) (some ((b : Nat) : Int)) = (xs.drop a).take (b - a) := by
  simp only [pySlice, sliceBound_nat']
  rw [Nat.min_eq_left hb, Nat.min_eq_left (by omega)]

/-- The construction made by `transform_map(c, PrimTypes)` with `n` types. -/
def mapCons (c : Cons K) (n : Nat) : Cons K :=
  let sig := c.value.sig
  let num := n + 1 - sig.primTypes.length
  .mk { name := k!"Map" ++ c.ty.name, assem := fun _ _ => .ok (.vec []) }
    ⟨(List.range num).map fun i => (k!"arg" ++ natStr i) ::
        (List.range (sig.primTypes.length - 1)).map fun j => k!"arg" ++ natStr (num + j),
     fun params => .ok ((List.range num).map fun i =>
      pySlice params (some ((i * sig.paramTypes.length : Nat) : Int))
        (some (((i + 1) * sig.paramTypes.length : Nat) : Int))),
     ⟨(List.replicate num (sig.primTypes.take 1)).flatten ++ sig.primTypes.drop 1,
      (List.replicate num sig.paramTypes).flatten, 0⟩⟩
    (((List.range num).map fun i => c.ty.name ++ natStr i).zip (List.replicate num c))

theorem mapKeys_nodup (s : Str) (n : Nat) : ((List.range n).map fun i => s ++ natStr i).Nodup := by
  refine List.Nodup.map ?_ List.nodup_range
  intro i j h
  exact natStr_injective (List.append_cancel_left h)

theorem mapKeys_ne (s : Str) (n : Nat) : [] ∉ ((List.range n).map fun i => s ++ natStr i) := by
  intro h
  obtain ⟨i, _, e⟩ := List.mem_map.mp h
  exact natStr_ne_nil i (List.append_eq_nil_iff.mp e).2

theorem transformMap_eq (c : Cons K) (n : Nat) : transformMap c n = .ok (mapCons c n) := by
  unfold transformMap mapCons
  exact construction_ok (mapKeys_nodup _ _) (mapKeys_ne _ _) (by simp)

theorem mapCons_child {c : Cons K} {n i : Nat} {kc : Str × Cons K}
    (h : (mapCons c n).children[i]? = some kc) : kc.2 = c := by
  have h := List.mem_of_getElem? h
  simp only [mapCons, Node.children_mk] at h
  exact List.eq_of_mem_replicate (List.of_mem_zip (a := kc.1) (b := kc.2) h).2

theorem mapCons_WF {c : Cons K} (hc : c.WF) (n : Nat) : (mapCons c n).WF := by
  rw [mapCons, Node.WF_mk]
  refine ⟨?_, ?_⟩
  · rw [List.map_fst_zip (by simp)]
    exact mapKeys_nodup _ _
  · intro k d hd
    rw [List.eq_of_mem_replicate (List.of_mem_zip hd).2]
    exact hc

theorem AlignedL_iff (cs : List (Str × Cons K)) : ∀ (pss : List (List (Param K))),
    (∀ (i : Nat) kc ps, cs[i]? = some kc → pss[i]? = some ps → Cons.Aligned kc.2 ps) →
    Cons.AlignedL cs pss := by
  induction cs with
  | nil => intro pss _; simp [Cons.AlignedL]
  | cons kc cs ih =>
    obtain ⟨k, c⟩ := kc
    intro pss h
    cases pss with
    | nil => simp [Cons.AlignedL]
    | cons ps pss =>
      exact ⟨h 0 (k, c) ps rfl rfl,
        ih pss fun i kc ps e1 e2 => h (i + 1) kc ps (by simpa using e1) (by simpa using e2)⟩

theorem mapCons_aligned {c : Cons K}
    (ha : ∀ ps : List (Param K), ps.length = c.value.sig.paramTypes.length → c.Aligned ps)
    {n : Nat} {params : List (Param K)}
    (hp : params.length = (n + 1 - c.value.sig.primTypes.length) * c.value.sig.paramTypes.length) :
    (mapCons c n).Aligned params := by
  refine ⟨by simp, ?_⟩
  intro pss h
  simp only [Except.ok.injEq] at h
  subst h
  refine ⟨by simp, ?_⟩
  apply AlignedL_iff
  intro i kc ps e1 e2
  rw [mapCons_child (n := n) (i := i) (kc := kc) e1]
  rw [List.getElem?_map, Option.map_eq_some_iff] at e2
  obtain ⟨j, e2, rfl⟩ := e2
  rw [List.getElem?_eq_some_iff] at e2
  obtain ⟨hj, e⟩ := e2
  simp only [List.getElem_range] at e
  subst e
  simp only [List.length_range] at hj
  apply ha
  have h1 : (i + 1) * c.value.sig.paramTypes.length ≤ params.length := by
    rw [hp]; exact Nat.mul_le_mul_right _ hj
  rw [pySlice_block _ _ (Nat.mul_le_mul_right _ (by omega)) h1, List.length_take,
    List.length_drop]
  have h2 : (i + 1) * c.value.sig.paramTypes.length
    = i * c.value.sig.paramTypes.length + c.value.sig.paramTypes.length := Nat.succ_mul _ _
  omega

theorem ConsistentL_iff (cs : List (Str × Cons K)) : ∀ (kss : List (List Str))
    (pss : List (List (Param K))),
    (∀ (i : Nat) kc ks ps, cs[i]? = some kc → kss[i]? = some ks → pss[i]? = some ps →
      ks.length = kc.2.value.sig.primTypes.length ∧ Cons.Consistent kc.2 ps) →
    Cons.ConsistentL cs kss pss := by
  induction cs with
  | nil => intro kss pss _; simp [Cons.ConsistentL]
  | cons kc cs ih =>
    obtain ⟨k, c⟩ := kc
    intro kss pss h
    cases kss with
    | nil => simp [Cons.ConsistentL]
    | cons ks kss =>
    cases pss with
    | nil => simp [Cons.ConsistentL]
    | cons ps pss =>
      obtain ⟨h1, h2⟩ := h 0 (k, c) ks ps rfl rfl rfl
      exact ⟨h1, h2, ih kss pss fun i kc ks ps e1 e2 e3 =>
        h (i + 1) kc ks ps (by simpa using e1) (by simpa using e2) (by simpa using e3)⟩

theorem mapCons_consistent {c : Cons K} (hne : c.value.sig.primTypes ≠ [])
    (ha : ∀ ps : List (Param K), ps.length = c.value.sig.paramTypes.length → c.Consistent ps)
    {n : Nat} {params : List (Param K)}
    (hp : params.length = (n + 1 - c.value.sig.primTypes.length) * c.value.sig.paramTypes.length) :
    (mapCons c n).Consistent params := by
  refine ⟨by simp [hp], by simp, ?_⟩
  intro pss h
  simp only [Except.ok.injEq] at h
  subst h
  refine ⟨by simp, ?_⟩
  apply ConsistentL_iff
  intro i kc ks ps e1 e2 e3
  rw [mapCons_child (n := n) (i := i) (kc := kc) e1]
  rw [List.getElem?_map, Option.map_eq_some_iff] at e3
  obtain ⟨j, e3, rfl⟩ := e3
  obtain ⟨hj, e⟩ := List.getElem?_eq_some_iff.mp e3
  simp only [List.getElem_range] at e
  subst e
  simp only [List.length_range] at hj
  constructor
  · rw [List.getElem?_map, Option.map_eq_some_iff] at e2
    obtain ⟨j, e2, rfl⟩ := e2
    have := List.length_pos_iff.mpr hne
    simp; omega
  apply ha
  have h1 : (i + 1) * c.value.sig.paramTypes.length ≤ params.length := by
    rw [hp]; exact Nat.mul_le_mul_right _ hj
  rw [pySlice_block _ _ (Nat.mul_le_mul_right _ (by omega)) h1, List.length_take,
    List.length_drop]
  have h2 : (i + 1) * c.value.sig.paramTypes.length
    = i * c.value.sig.paramTypes.length + c.value.sig.paramTypes.length := Nat.succ_mul _ _
  omega

theorem resolve_range {prims : List (Prim K)} {a m : Nat} (h : prims.length = a + m) :
    pyMap (resolve prims) ((List.range m).map fun j => k!"arg" ++ natStr (a + j))
      = .ok (prims.drop a) := by
  rw [pyMap_ok, List.forall₂_iff_get]
  refine ⟨by simp [h], ?_⟩
  intro i h1 h2
  simp only [List.get_eq_getElem, List.getElem_map, List.getElem_range, List.getElem_drop]
  rw [resolve_argKey_ok]
  exact List.getElem?_eq_getElem _

theorem forall₂_replicate_take {R : α → PrimType → Prop} {xs : List α} {t : PrimType} {n : Nat}
    (hl : xs.length = n) (h : ∀ x ∈ xs, R x t) : List.Forall₂ R xs (List.replicate n t) := by
  subst hl
  induction xs with
  | nil => exact .nil
  | cons x xs ih => exact .cons (h x (by simp)) (ih fun y hy => h y (List.mem_cons_of_mem _ hy))

/-- `transform_map(c, N types)` on `N` primitives evaluates `c` on each of the first primitives
together with the last ones. -/
theorem map_call {c : Cons K} (hw : c.WF) (hne : c.value.sig.primTypes ≠ [])
    (ha : ∀ ps : List (Param K), ps.length = c.value.sig.paramTypes.length → c.Aligned ps)
    {n : Nat} (hn : c.value.sig.primTypes.length ≤ n) (prims : List (Prim K))
    (params : List (Param K)) (v : List K) :
    (mapCons c n).call prims params = .ok v ↔
      prims.length = n ∧
      params.length = (n + 1 - c.value.sig.primTypes.length) * c.value.sig.paramTypes.length ∧
      ∃ vs : List (List K), vs.length = n + 1 - c.value.sig.primTypes.length ∧ v = vs.flatten ∧
        ∀ i p w, i < n + 1 - c.value.sig.primTypes.length → prims[i]? = some p → vs[i]? = some w →
          c.call (p :: prims.drop (n + 1 - c.value.sig.primTypes.length))
            ((params.drop (i * c.value.sig.paramTypes.length)).take c.value.sig.paramTypes.length)
            = .ok w := by
  obtain ⟨t0, ts, hts⟩ := List.exists_cons_of_ne_nil hne
  have hlen : c.value.sig.primTypes.length = ts.length + 1 := by simp [hts]
  generalize hnum : n + 1 - c.value.sig.primTypes.length = num
  generalize hP : c.value.sig.paramTypes.length = P
  have hnt : num + ts.length = n := by omega
  have hnum1 : 1 ≤ num := by omega
  have hsig1 : (mapCons c n).value.sig.primTypes = List.replicate num t0 ++ ts := by
    simp only [mapCons, Node.value_mk, hnum]
    simp [hts]
  have hsig2 : (mapCons c n).value.sig.paramTypes.length = num * P := by
    simp [mapCons, hnum, hP]
  by_cases hp : params.length = num * P
  swap
  · constructor
    · intro h; exact absurd ((Cons.call_accepts h).2.trans hsig2) hp
    · rintro ⟨_, h, _⟩; exact absurd h hp
  by_cases hl : prims.length = n
  swap
  · constructor
    · intro h
      have := (Cons.call_accepts h).1.length_eq
      rw [hsig1] at this
      simp at this
      omega
    · rintro ⟨h, _⟩; exact absurd h hl
  rw [Cons.call_ok_iff _ (mapCons_WF hw n) _ _ (mapCons_aligned ha (by rw [hnum, hP]; exact hp))]
  simp only [hl, hp, true_and]
  -- blocks
  have hblock : ∀ i, i < num → pySlice params (some ((i * P : Nat) : Int))
      (some (((i + 1) * P : Nat) : Int)) = (params.drop (i * P)).take P ∧
      ((params.drop (i * P)).take P).length = P := by
    intro i hi
    have h1 : (i + 1) * P ≤ params.length := by
      rw [hp]; exact Nat.mul_le_mul_right _ hi
    have h2 : (i + 1) * P = i * P + P := Nat.succ_mul _ _
    rw [pySlice_block _ _ (by omega) h1]
    refine ⟨by rw [h2]; simp, ?_⟩
    simp; omega
  have hdrop : pyMap (resolve prims) ((List.range ts.length).map fun j =>
      k!"arg" ++ natStr (num + j)) = .ok (prims.drop num) := resolve_range (by omega)
  -- evaluation
  have hev : (mapCons c n).eval prims params = .ok v ↔
      ∃ vs : List (List K), vs.length = num ∧ v = vs.flatten ∧
        ∀ i p w, i < num → prims[i]? = some p → vs[i]? = some w →
          c.eval (p :: prims.drop num) ((params.drop (i * P)).take P) = .ok w := by
    have h0 : (mapCons c n).eval prims params = (do
        let rest ← Cons.evalL prims (mapCons c n).children (mapCons c n).value.childPrimKeys
          ((List.range num).map fun i => pySlice params (some ((i * P : Nat) : Int))
            (some (((i + 1) * P : Nat) : Int)))
        .ok ([] ++ rest)) := by
      subst hnum hP; rfl
    rw [h0]
    simp only [py_bind_ok, List.nil_append, Except.ok.injEq, exists_eq_right]
    have hcl : (mapCons c n).children.length = num := by simp [mapCons, hnum]
    rw [Cons.evalL_iff _ _ _ _ (by simp [mapCons]) (by simp [hcl])]
    rw [hcl]
    have hkeys : ∀ i ks, (mapCons c n).value.childPrimKeys[i]? = some ks → i < num ∧
        ks = (k!"arg" ++ natStr i) :: (List.range ts.length).map fun j =>
          k!"arg" ++ natStr (num + j) := by
      intro i ks h
      simp only [mapCons, Node.value_mk, hnum, hlen, Nat.add_sub_cancel] at h
      rw [List.getElem?_map, Option.map_eq_some_iff] at h
      obtain ⟨j, h, rfl⟩ := h
      obtain ⟨hj, e⟩ := List.getElem?_eq_some_iff.mp h
      simp only [List.getElem_range] at e
      subst e
      have hj' : i < n + 1 - (ts.length + 1) := by simpa using hj
      refine ⟨by omega, ?_⟩
      congr 2
      funext j
      congr 2
      omega
    constructor
    · rintro ⟨vs, l, rfl, h⟩
      refine ⟨vs, l, rfl, fun i p w hi hpi hwi => ?_⟩
      obtain ⟨kc, hkc⟩ : ∃ kc, (mapCons c n).children[i]? = some kc :=
        ⟨_, List.getElem?_eq_getElem (by rw [hcl]; exact hi)⟩
      obtain ⟨ks, hks⟩ : ∃ ks, (mapCons c n).value.childPrimKeys[i]? = some ks :=
        ⟨_, List.getElem?_eq_getElem (by simp [mapCons, hnum, hi])⟩
      obtain ⟨cps, h1, h2⟩ := h i kc ks ((params.drop (i * P)).take P) w hkc hks
        (by rw [List.getElem?_map, List.getElem?_range hi]; exact congrArg some (hblock i hi).1) hwi
      rw [mapCons_child hkc] at h2
      rw [(hkeys i ks hks).2] at h1
      have h3 := pyMap_ok.mp h1
      cases h3 with
      | @cons _ q _ qs hq hqs =>
        rw [resolve_argKey_ok, hpi] at hq
        cases hq
        have := pyMap_ok.mpr hqs
        rw [hdrop] at this
        cases this
        exact h2
    · rintro ⟨vs, l, rfl, h⟩
      refine ⟨vs, l, rfl, fun i kc ks ps w hkc hks hps hwi => ?_⟩
      obtain ⟨hi, rfl⟩ := hkeys i ks hks
      obtain ⟨p, hpi⟩ : ∃ p, prims[i]? = some p :=
        ⟨_, List.getElem?_eq_getElem (by omega)⟩
      rw [List.getElem?_map, List.getElem?_range hi] at hps
      simp only [Option.map_some, Option.some.injEq, (hblock i hi).1] at hps
      subst hps
      refine ⟨p :: prims.drop num, ?_, ?_⟩
      · rw [pyMap_ok]
        exact .cons (resolve_argKey_ok.mpr hpi) (pyMap_ok.mp hdrop)
      · rw [mapCons_child hkc]; exact h i p w hi hpi hwi
  rw [hev]
  constructor
  · rintro ⟨⟨hac, _⟩, vs, l, rfl, h⟩
    refine ⟨vs, l, rfl, fun i p w hi hpi hwi => ?_⟩
    rw [Cons.call_ok_iff _ hw _ _ (ha _ (by rw [hP]; exact (hblock i hi).2))]
    refine ⟨⟨?_, by rw [hP]; exact (hblock i hi).2⟩, h i p w hi hpi hwi⟩
    rw [hsig1] at hac
    rw [hts]
    obtain ⟨hac1, hac2⟩ : List.Forall₂ (fun (p : Prim K) t => p.ty.IsA t) (prims.take num)
        (List.replicate num t0) ∧
        List.Forall₂ (fun (p : Prim K) t => p.ty.IsA t) (prims.drop num) ts := by
      have h1 := List.forall₂_take_append prims (List.replicate num t0) ts hac
      have h2 := List.forall₂_drop_append prims (List.replicate num t0) ts hac
      simp only [List.length_replicate] at h1 h2
      exact ⟨h1, h2⟩
    refine .cons ?_ hac2
    have hg := (List.forall₂_iff_get.mp hac1).2 i (by simp; omega) (by simpa using hi)
    simp only [List.get_eq_getElem, List.getElem_take, List.getElem_replicate] at hg
    rw [List.getElem?_eq_some_iff] at hpi
    obtain ⟨_, rfl⟩ := hpi
    exact hg
  · rintro ⟨vs, l, rfl, h⟩
    have hacc : ∀ i p, i < num → prims[i]? = some p →
        c.Accepts (p :: prims.drop num) ((params.drop (i * P)).take P) := by
      intro i p hi hpi
      exact Cons.call_accepts (h i p vs[i] hi hpi (List.getElem?_eq_getElem (by omega)))
    refine ⟨⟨?_, hp.trans hsig2.symm⟩, vs, l, rfl, fun i p w hi hpi hwi => ?_⟩
    · rw [hsig1, ← List.take_append_drop num prims]
      have h0 := (hacc 0 prims[0] (by omega) (List.getElem?_eq_getElem (by omega))).1
      rw [hts] at h0
      cases h0 with
      | cons _ hrest =>
      refine List.rel_append ?_ hrest
      · refine forall₂_replicate_take (by simp; omega) ?_
        intro p hp
        obtain ⟨i, hi, rfl⟩ := List.getElem_of_mem hp
        simp only [List.length_take] at hi
        rw [List.getElem_take]
        have := (hacc i prims[i] (by omega) (List.getElem?_eq_getElem (by omega))).1
        rw [hts] at this
        cases this with
        | cons h _ => exact h
    · have := h i p w hi hpi hwi
      rw [Cons.call_ok_iff _ hw _ _ (ha _ (by rw [hP]; exact (hblock i hi).2))] at this
      exact this.2

end MplLayout
