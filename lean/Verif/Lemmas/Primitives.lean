import Verif.Spec.Primitives
import Verif.Lemmas.Containers

/-! Lemmas about primitives. -/

namespace MplLayout

variable {τ α β ι K : Type}

/-! ### `validate_prims` -/

theorem allSub_spec (C : ClassTable τ) (ts : List τ) (ss : List (SigItem τ))
    (hl : ts.length = ss.length) (he : SigItem.ellipsis ∉ ss) :
    (List.Forall₂ (SigItem.Fits C) ts ss ∧ allSub C ts ss = .ok true) ∨
    (¬ List.Forall₂ (SigItem.Fits C) ts ss ∧ allSub C ts ss = .ok false) := by
  induction ts generalizing ss with
  | nil =>
    cases ss with
    | nil => left; exact ⟨.nil, rfl⟩
    | cons s ss => simp at hl
  | cons t ts ih =>
    cases ss with
    | nil => simp at hl
    | cons s ss =>
      simp only [List.length_cons, Nat.add_right_cancel_iff] at hl
      simp only [List.mem_cons, not_or] at he
      have := ih ss hl he.2
      cases s with
      | ellipsis => exact absurd rfl he.1
      | any =>
        simp only [allSub, List.forall₂_cons, SigItem.Fits]
        by_cases h : C.sub t C.node <;> simp [h, this]
      | cls u =>
        simp only [allSub, List.forall₂_cons, SigItem.Fits]
        by_cases h : C.sub t u <;> simp [h, this]

theorem mem_flatten_replicate {l : List α} {n : Nat} {x : α}
    (h : x ∈ (List.replicate n l).flatten) : x ∈ l := by
  simp only [List.mem_flatten, List.mem_replicate] at h
  obtain ⟨l', ⟨_, rfl⟩, hx⟩ := h; exact hx

theorem SigMatches_rep {C : ClassTable τ} {ts : List τ} {types : List (SigItem τ)}
    (h : types.getLast? = some .ellipsis) : SigMatches C ts types ↔
    ∃ n, List.Forall₂ (SigItem.Fits C) ts (List.replicate n types.dropLast).flatten := by
  simp [SigMatches, h]

theorem SigMatches_fix {C : ClassTable τ} {ts : List τ} {types : List (SigItem τ)}
    (h : types.getLast? ≠ some .ellipsis) : SigMatches C ts types ↔
    List.Forall₂ (SigItem.Fits C) ts types := by
  simp [SigMatches, h]

theorem validatePrims_spec (C : ClassTable τ) (ts : List τ) (types : List (SigItem τ))
    (hw : SigWellFormed types) :
    (SigMatches C ts types ∧ validatePrims C ts types = .ok ()) ∨
    (¬ SigMatches C ts types ∧ validatePrims C ts types = .error .valueError) := by
  have key : ∀ ss : List (SigItem τ), SigItem.ellipsis ∉ ss →
      expandTypes ts.length types = .ok ss →
      (List.Forall₂ (SigItem.Fits C) ts ss ∧ validatePrims C ts types = .ok ()) ∨
      (¬ List.Forall₂ (SigItem.Fits C) ts ss ∧
        validatePrims C ts types = .error .valueError) := by
    intro ss he hx
    unfold validatePrims
    rw [hx]
    by_cases hl : ts.length = ss.length
    · rcases allSub_spec C ts ss hl he with ⟨h1, h2⟩ | ⟨h1, h2⟩
      · left; refine ⟨h1, ?_⟩
        simp [hl, h2, Bind.bind, Except.bind]
      · right; refine ⟨h1, ?_⟩
        simp [hl, h2, Bind.bind, Except.bind]
    · right
      refine ⟨fun h => hl h.length_eq, ?_⟩
      simp [hl, Bind.bind, Except.bind]
  obtain ⟨hw1, hw2⟩ := hw
  by_cases hlast : types.getLast? = some .ellipsis
  · have hne : types ≠ [] := by rintro rfl; simp at hlast
    have hu : types.dropLast ≠ [] := by
      intro h
      apply hw2
      have h1 := List.dropLast_concat_getLast hne
      rw [h] at h1
      rw [List.getLast?_eq_some_getLast hne, Option.some.injEq] at hlast
      rw [← h1, hlast]; rfl
    have hlen : types.dropLast.length ≠ 0 := fun h => hu (List.length_eq_zero_iff.1 h)
    have hx : expandTypes ts.length types
        = .ok (List.replicate (ts.length / types.dropLast.length) types.dropLast).flatten := by
      unfold expandTypes; rw [hlast]; simp only [hlen, if_false]
    have := key _ (fun h => hw1 (mem_flatten_replicate h)) hx
    rw [SigMatches_rep hlast]
    have hiff : (∃ n, List.Forall₂ (SigItem.Fits C) ts (List.replicate n types.dropLast).flatten) ↔
        List.Forall₂ (SigItem.Fits C) ts
          (List.replicate (ts.length / types.dropLast.length) types.dropLast).flatten := by
      constructor
      · rintro ⟨n, hn⟩
        have hl := hn.length_eq
        rw [List.length_flatten, List.map_replicate, List.sum_replicate_nat] at hl
        have : ts.length / types.dropLast.length = n := by
          rw [hl]; exact Nat.mul_div_cancel _ (by omega)
        rw [this]; exact hn
      · intro h; exact ⟨_, h⟩
    rw [hiff]; exact this
  · have he : SigItem.ellipsis ∉ types := by
      intro h
      by_cases hne : types = []
      · subst hne; simp at h
      · rw [← List.dropLast_concat_getLast hne, List.mem_append] at h
        rcases h with h | h
        · exact hw1 h
        · simp only [List.mem_singleton] at h
          exact hlast (by rw [List.getLast?_eq_some_getLast hne, ← h])
    have hx : expandTypes ts.length types = .ok types := by
      unfold expandTypes
      split
      · next h => exact absurd h hlast
      · rfl
    rw [SigMatches_fix hlast]
    exact key _ he hx

theorem anyMatch_spec (C : ClassTable τ) (ts : List τ) (alts : List (List (SigItem τ)))
    (hw : ∀ a ∈ alts, SigWellFormed a) :
    ((∃ a ∈ alts, SigMatches C ts a) ∧ anyMatch C ts alts = .ok true) ∨
    ((¬ ∃ a ∈ alts, SigMatches C ts a) ∧ anyMatch C ts alts = .ok false) := by
  induction alts with
  | nil => right; simp [anyMatch]
  | cons a as ih =>
    have ih := ih (fun b hb => hw b (List.mem_cons_of_mem _ hb))
    rcases validatePrims_spec C ts a (hw a (by simp)) with ⟨h1, h2⟩ | ⟨h1, h2⟩
    · left; exact ⟨⟨a, by simp, h1⟩, by simp [anyMatch, h2]⟩
    · rcases ih with ⟨⟨b, hb, h3⟩, h4⟩ | ⟨h3, h4⟩
      · left; exact ⟨⟨b, List.mem_cons_of_mem _ hb, h3⟩, by simp [anyMatch, h2, h4]⟩
      · right
        refine ⟨?_, by simp [anyMatch, h2, h4]⟩
        rintro ⟨b, hb, hm⟩
        rcases List.mem_cons.1 hb with rfl | hb
        · exact h1 hm
        · exact h3 ⟨b, hb, hm⟩

/-! ### The shipped classes -/

theorem PrimType.sub_iff (t u : PrimType) : t.sub u = true ↔ t.IsA u := by
  constructor
  · intro h
    have key : ∀ t u : PrimType, t.sub u = true → t = u ∨ (t, u) ∈ PrimType.bases ∨
        (∃ a, (t, a) ∈ PrimType.bases ∧ (a, u) ∈ PrimType.bases) ∨
        (∃ a b, (t, a) ∈ PrimType.bases ∧ (a, b) ∈ PrimType.bases ∧ (b, u) ∈ PrimType.bases) := by
      intro t u
      cases t <;> cases u <;> simp [PrimType.sub, PrimType.parent, PrimType.bases]
    rcases key t u h with rfl | h | ⟨a, h1, h2⟩ | ⟨a, b, h1, h2, h3⟩
    · exact .refl _
    · exact .step h (.refl _)
    · exact .step h1 (.step h2 (.refl _))
    · exact .step h1 (.step h2 (.step h3 (.refl _)))
  · intro h
    induction h with
    | refl t => cases t <;> rfl
    | @step t u v hp _ ih =>
      revert ih
      cases t <;> cases u <;> first
        | (exfalso; revert hp; decide)
        | (cases v <;> decide)

theorem PrimType.sub_node (t : PrimType) : t.sub .primitiveNode = true := by cases t <;> rfl

/-- `signature` as declared, matched against child classes. -/
def sigOK (t : PrimType) (ts : List PrimType) : Prop :=
  match PrimType.table.sig t with
  | .tuple types => SigMatches PrimType.table ts types
  | .anyOf alts => ∃ a ∈ alts, SigMatches PrimType.table ts a

theorem sigOK_iff (t : PrimType) (ts : List PrimType) : sigOK t ts ↔ t.Accepts ts := by
  have hcls : ∀ a u : PrimType, SigItem.Fits PrimType.table a (.cls u) ↔ a.IsA u :=
    fun a u => PrimType.sub_iff a u
  have hany : ∀ n : Nat, ∀ ts : List PrimType, ts.length = n →
      List.Forall₂ (SigItem.Fits PrimType.table) ts (List.replicate n .any) := by
    intro n
    induction n with
    | zero => intro ts h; simp at h; subst h; exact .nil
    | succ n ih =>
      intro ts h
      cases ts with
      | nil => simp at h
      | cons a ts => exact .cons (PrimType.sub_node a) (ih ts (by simpa using h))
  have hrep : ∀ (n : Nat) (x : SigItem PrimType), (List.replicate n [x]).flatten = List.replicate n x := by
    intro n x
    induction n with
    | zero => rfl
    | succ n ih => simp [List.replicate_succ, ih]
  have hnode : SigMatches PrimType.table ts [.any, .ellipsis] := by
    rw [SigMatches_rep (by rfl)]
    refine ⟨ts.length, ?_⟩
    simp only [List.dropLast_cons_cons, List.dropLast_singleton, hrep]
    exact hany _ _ rfl
  have hline : ∀ ts : List PrimType, (∃ n, List.Forall₂ (SigItem.Fits PrimType.table) ts
      (List.replicate n (.cls .line))) ↔ ∀ t ∈ ts, t.IsA .line := by
    intro ts
    constructor
    · rintro ⟨n, h⟩
      intro t ht
      obtain ⟨i, hi, rfl⟩ := List.getElem_of_mem ht
      have := h.get hi (by rw [← h.length_eq]; exact hi)
      simp only [List.get_eq_getElem, List.getElem_replicate] at this
      exact (hcls _ _).1 this
    · intro h
      refine ⟨ts.length, ?_⟩
      induction ts with
      | nil => exact .nil
      | cons a ts ih =>
        exact .cons ((hcls _ _).2 (h a (by simp))) (ih fun t ht => h t (List.mem_cons_of_mem _ ht))
  cases t with
  | primitiveNode => exact ⟨fun _ => trivial, fun _ => hnode⟩
  | primitive => exact ⟨fun _ => trivial, fun _ => hnode⟩
  | staticPrimitive => exact ⟨fun _ => trivial, fun _ => hnode⟩
  | point => simp [sigOK, PrimType.table, PrimType.sig, SigMatches, PrimType.Accepts]
  | line =>
    simp only [sigOK, PrimType.table, PrimType.sig, PrimType.Accepts]
    rw [SigMatches_fix (by decide)]
    constructor
    · intro h
      match ts, h with
      | [a, b], .cons h1 (.cons h2 .nil) => exact ⟨a, b, rfl, (hcls _ _).1 h1, (hcls _ _).1 h2⟩
    · rintro ⟨a, b, rfl, h1, h2⟩
      exact .cons ((hcls _ _).2 h1) (.cons ((hcls _ _).2 h2) .nil)
  | polygon =>
    simp only [sigOK, PrimType.table, PrimType.sig, PrimType.Accepts]
    rw [SigMatches_rep (by decide)]
    simp only [List.dropLast_cons_cons, List.dropLast_singleton, hrep]
    exact hline ts
  | quadrilateral =>
    simp only [sigOK, PrimType.table, PrimType.sig, PrimType.Accepts]
    rw [SigMatches_fix (by decide)]
    constructor
    · intro h
      have hl := h.length_eq
      exact ⟨hl, (hline ts).1 ⟨4, h⟩⟩
    · rintro ⟨hl, h⟩
      obtain ⟨n, hn⟩ := (hline ts).2 h
      have := hn.length_eq
      simp only [List.length_replicate] at this
      rw [show n = 4 by omega] at hn
      exact hn
  | axes =>
    simp only [sigOK, PrimType.table, PrimType.sig, PrimType.Accepts, List.mem_map, List.mem_range]
    have conv : ∀ (us : List PrimType), List.Forall₂ (SigItem.Fits PrimType.table) ts
        (us.map .cls) ↔ List.Forall₂ PrimType.IsA ts us := by
      intro us
      rw [List.forall₂_map_right_iff]
      exact ⟨fun h => h.imp fun a b => (hcls a b).1, fun h => h.imp fun a b => (hcls a b).2⟩
    have he : ∀ k, (SigItem.cls PrimType.quadrilateral ::
          (List.replicate k [SigItem.cls PrimType.quadrilateral, .cls .point]).flatten)
        = (PrimType.quadrilateral ::
          (List.replicate k [PrimType.quadrilateral, .point]).flatten).map .cls := by
      intro k; simp [List.map_flatten, List.map_replicate]
    have hlast : ∀ us : List PrimType, (us.map SigItem.cls).getLast? ≠ some .ellipsis := by
      intro us h
      have := List.mem_of_getLast? h
      simp at this
    constructor
    · rintro ⟨a, ⟨k, hk, rfl⟩, h⟩
      refine ⟨k, by omega, ?_⟩
      rw [he, SigMatches_fix (hlast _)] at h
      exact (conv _).1 h
    · rintro ⟨k, hk, h⟩
      refine ⟨_, ⟨k, by omega, rfl⟩, ?_⟩
      rw [he, SigMatches_fix (hlast _)]
      exact (conv _).2 h

theorem sig_wellFormed (t : PrimType) : match PrimType.table.sig t with
    | .tuple types => SigWellFormed types
    | .anyOf alts => ∀ a ∈ alts, SigWellFormed a := by
  cases t <;> simp only [PrimType.table, PrimType.sig, SigWellFormed] <;> decide

theorem primNodeInit_cases (t : PrimType) (v : PVal K) (cs : List (Str × Prim K)) :
    (v.arr.length = t.size ∧ t.Accepts (cs.map (·.2.ty)) ∧
      primNodeInit PrimType.table t v cs = .ok (.mk t v cs)) ∨
    (v.arr.length = t.size ∧ ¬ t.Accepts (cs.map (·.2.ty)) ∧
      primNodeInit PrimType.table t v cs = .error .valueError) ∨
    (v.arr.length ≠ t.size ∧ primNodeInit PrimType.table t v cs = .error .assertionError) := by
  by_cases hl : v.arr.length = t.size
  · have hl' : ¬ v.arr.length ≠ PrimType.table.size t := fun h => h hl
    have hw := sig_wellFormed t
    have hs := sigOK_iff t (cs.map (·.2.ty))
    unfold sigOK at hs
    unfold primNodeInit
    rw [if_neg hl']
    revert hw hs
    generalize PrimType.table.sig t = sg
    intro hw hs
    cases sg with
    | tuple types =>
      simp only at hw hs ⊢
      rcases validatePrims_spec PrimType.table (cs.map (·.2.ty)) types hw with ⟨h1, h2⟩ | ⟨h1, h2⟩
      · left; exact ⟨hl, hs.1 h1, by simp [h2, Bind.bind, Except.bind]⟩
      · right; left; exact ⟨hl, fun h => h1 (hs.2 h), by simp [h2, Bind.bind, Except.bind]⟩
    | anyOf alts =>
      simp only at hw hs ⊢
      rcases anyMatch_spec PrimType.table (cs.map (·.2.ty)) alts hw with ⟨h1, h2⟩ | ⟨h1, h2⟩
      · left; exact ⟨hl, hs.1 h1, by simp [h2, Bind.bind, Except.bind]⟩
      · right; left; exact ⟨hl, fun h => h1 (hs.2 h), by simp [h2, Bind.bind, Except.bind]⟩
  · right; right
    refine ⟨hl, ?_⟩
    unfold primNodeInit
    rw [if_pos (show v.arr.length ≠ PrimType.table.size t from hl)]

theorem primNodeInit_ok_iff {t : PrimType} {v : PVal K} {cs : List (Str × Prim K)} {q : Prim K} :
    primNodeInit PrimType.table t v cs = .ok q ↔
      v.arr.length = t.size ∧ t.Accepts (cs.map (·.2.ty)) ∧ q = .mk t v cs := by
  rcases primNodeInit_cases t v cs with ⟨h1, h2, h3⟩ | ⟨h1, h2, h3⟩ | ⟨h1, h3⟩ <;> rw [h3]
  · simp [h1, h2, eq_comm]
  · simp [h2]
  · simp [h1]

/-! ### `filter_unique_values_from_prim` -/

/-- What the loop has established after the pairs `L`. -/
structure FilterInv [DecidableEq ι] (ident : α → ι) (L : List (Str × α)) (s : FilterState ι α) :
    Prop where
  ids : ∀ x i, s.valueIdToIdx.lookup x = some i ↔ (s.values[i]?).map ident = some x
  keys : s.primToIdx.map (·.1) = L.map (·.1)
  idx : ∀ kv ∈ L, ∃ i v, dictGet s.primToIdx kv.1 = some i ∧ s.values[i]? = some v ∧
    ident v = ident kv.2
  used : ∀ (i : Nat) (v : α), s.values[i]? = some v →
    ∃ kv ∈ L, kv.2 = v ∧ dictGet s.primToIdx kv.1 = some i

theorem lookup_append_single [DecidableEq ι] (l : List (ι × Nat)) (a x : ι) (i : Nat)
    (h : l.lookup a = none) :
    (l ++ [(a, i)]).lookup x = if x = a then some i else l.lookup x := by
  induction l with
  | nil =>
    by_cases hx : x = a
    · simp [hx]
    · have hx' : (x == a) = false := by simpa using hx
      simp [List.lookup, hx, hx']
  | cons p l ih =>
    obtain ⟨b, j⟩ := p
    by_cases hab : a = b
    · simp [List.lookup, hab] at h
    · have hab' : (a == b) = false := by simpa using hab
      simp only [List.lookup, hab'] at h
      have ih := ih h
      by_cases hxb : x = b
      · have : ¬ x = a := by rintro rfl; exact hab hxb
        simp [List.lookup, hxb]
        intro h; exact absurd h.symm hab
      · have hxb' : (x == b) = false := by simpa using hxb
        simp only [List.cons_append, List.lookup, hxb', ih]

theorem filterStep_inv [DecidableEq ι] (ident : α → ι) (L : List (Str × α)) (s : FilterState ι α)
    (kv : Str × α) (hs : FilterInv ident L s) (hk : kv.1 ∉ L.map (·.1)) :
    FilterInv ident (L ++ [kv]) (filterStep ident s kv) := by
  have hk' : kv.1 ∉ s.primToIdx.map (·.1) := by rw [hs.keys]; exact hk
  have hne : ∀ kv' ∈ L, kv'.1 ≠ kv.1 := fun kv' h e => hk (e ▸ List.mem_map_of_mem h)
  unfold filterStep
  cases hl : s.valueIdToIdx.lookup (ident kv.2) with
  | none =>
    simp only
    constructor
    · intro x i
      simp only
      rw [lookup_append_single _ _ _ _ hl]
      by_cases hx : x = ident kv.2
      · subst hx
        simp only [if_true, Option.some.injEq]
        constructor
        · rintro rfl; simp
        · intro h
          by_cases hi : i < s.values.length
          · rw [List.getElem?_append_left hi] at h
            have := (hs.ids _ _).2 h
            rw [hl] at this; simp at this
          · by_cases hi' : i = s.values.length
            · exact hi'.symm
            · rw [List.getElem?_eq_none (by simp; omega)] at h; simp at h
      · rw [if_neg hx, hs.ids]
        by_cases hi : i < s.values.length
        · rw [List.getElem?_append_left hi]
        · rw [List.getElem?_eq_none (by omega)]
          by_cases hi' : i = s.values.length
          · subst hi'; simp [Ne.symm hx]
          · rw [List.getElem?_eq_none (by simp; omega)]
    · simp [dictSet_of_notMem _ hk', hs.keys]
    · intro kv' h
      simp only [List.mem_append, List.mem_singleton] at h
      rcases h with h | rfl
      · obtain ⟨i, v, h1, h2, h3⟩ := hs.idx kv' h
        refine ⟨i, v, ?_, ?_, h3⟩
        · simp only [dictGet_dictSet, hne kv' h, if_false, h1]
        · have hi : i < s.values.length := by
            by_contra hc
            rw [List.getElem?_eq_none (by omega)] at h2; simp at h2
          simp only [List.getElem?_append_left hi, h2]
      · exact ⟨s.values.length, kv'.2, by simp [dictGet_dictSet], by simp, rfl⟩
    · intro i v h
      simp only at h ⊢
      by_cases hi : i < s.values.length
      · rw [List.getElem?_append_left hi] at h
        obtain ⟨kv', hm, h1, h2⟩ := hs.used i v h
        refine ⟨kv', by simp [hm], h1, ?_⟩
        simp only [dictGet_dictSet, hne kv' hm, if_false, h2]
      · by_cases hi' : i = s.values.length
        · subst hi'
          simp at h
          exact ⟨kv, by simp, h, by simp [dictGet_dictSet]⟩
        · rw [List.getElem?_eq_none (by simp; omega)] at h; simp at h
  | some j =>
    simp only
    have hj := (hs.ids _ _).1 hl
    constructor
    · exact hs.ids
    · simp [dictSet_of_notMem _ hk', hs.keys]
    · intro kv' h
      simp only [List.mem_append, List.mem_singleton] at h
      rcases h with h | rfl
      · obtain ⟨i, v, h1, h2, h3⟩ := hs.idx kv' h
        refine ⟨i, v, ?_, h2, h3⟩
        simp only [dictGet_dictSet, hne kv' h, if_false, h1]
      · cases hv : s.values[j]? with
        | none => rw [hv] at hj; simp at hj
        | some v =>
          rw [hv] at hj
          exact ⟨j, v, by simp [dictGet_dictSet], hv, by simpa using hj⟩
    · intro i v h
      obtain ⟨kv', hm, h1, h2⟩ := hs.used i v h
      refine ⟨kv', by simp [hm], h1, ?_⟩
      simp only [dictGet_dictSet, hne kv' hm, if_false, h2]

theorem filter_inv [DecidableEq ι] (ident : α → ι) (M L : List (Str × α)) (s : FilterState ι α)
    (hs : FilterInv ident L s) (hk : ((L ++ M).map (·.1)).Nodup) :
    FilterInv ident (L ++ M) (M.foldl (filterStep ident) s) := by
  induction M generalizing L s with
  | nil => simpa using hs
  | cons kv M ih =>
    rw [List.foldl_cons]
    have h1 : kv.1 ∉ L.map (·.1) := by
      intro h
      rw [List.map_append, List.nodup_append] at hk
      exact hk.2.2 _ h _ (by simp) rfl
    have := ih (L ++ [kv]) _ (filterStep_inv ident L s kv hs h1) (by simpa using hk)
    simpa using this

theorem iterFlat_keys_nodup (n : Node τ α) (hn : n.WF) (hs : n.SlashFree) :
    ((n.iterFlat []).map (·.1)).Nodup := by
  obtain ⟨ps, h1, h2, h3⟩ := n.iterFlat_paths [] hn
  rw [h1, List.map_map, List.nodup_iff_pairwise_ne, List.pairwise_map]
  apply List.Pairwise.imp_of_mem ?_ h3
  intro a b ha hb hab
  simp only [Function.comp, List.nil_append, ne_eq]
  intro e
  exact hab.ne hn (Node.slashed_injective ((h2 a ha).noslash hs) ((h2 b hb).noslash hs) e)

theorem filterUnique_inv [DecidableEq ι] (ident : α → ι) (n : Node τ α) (hn : n.WF)
    (hs : n.SlashFree) :
    FilterInv ident ((n.iterFlat []).map fun kn => (kn.1, kn.2.value))
      (((n.iterFlat []).map fun kn => (kn.1, kn.2.value)).foldl (filterStep ident) {}) := by
  have := filter_inv ident ((n.iterFlat []).map fun kn => (kn.1, kn.2.value)) [] {}
    ⟨by simp [List.lookup], rfl, by simp, by simp⟩
    (by rw [List.nil_append, List.map_map]; exact iterFlat_keys_nodup n hn hs)
  simpa using this

/-! ### `build_prim_from_unique_values` -/

mutual
/-- The tree with the value at listing key `k` replaced by `g k`. -/
def Node.revalue (g : Str → β) (key : Str) : Node τ α → Node τ β
  | .mk t _ cs => .mk t (g key) (Node.revalueL g key cs)
/-- `revalue` for children. -/
def Node.revalueL (g : Str → β) (key : Str) : List (Str × Node τ α) → List (Str × Node τ β)
  | [] => []
  | (k, c) :: cs => (k, Node.revalue g (key ++ '/' :: k) c) :: Node.revalueL g key cs
end

namespace Node

theorem revalueL_eq (g : Str → β) (key : Str) (cs : List (Str × Node τ α)) :
    revalueL g key cs = cs.map fun kc => (kc.1, revalue g (key ++ '/' :: kc.1) kc.2) := by
  induction cs with
  | nil => rfl
  | cons p cs ih => obtain ⟨k, c⟩ := p; simp [revalueL, ih]

theorem revalueL_keys (g : Str → β) (key : Str) (cs : List (Str × Node τ α)) :
    (revalueL g key cs).map (·.1) = cs.map (·.1) := by
  rw [revalueL_eq, List.map_map]; rfl

theorem revalue_ty (g : Str → β) (key : Str) (n : Node τ α) : (revalue g key n).ty = n.ty := by
  cases n; rfl

theorem revalue_value (g : Str → β) (key : Str) (n : Node τ α) :
    (revalue g key n).value = g key := by
  cases n; rfl

theorem revalue_keys (g : Str → β) (key : Str) (n : Node τ α) :
    (revalue g key n).keys = n.keys := by
  cases n; simp only [revalue, Node.keys, Node.children, revalueL_keys]

theorem revalue_At (g : Str → β) {key : Str} {n : Node τ α} {p : List Str} {m' : Node τ β} :
    (revalue g key n).At p m' ↔ ∃ m, n.At p m ∧ m' = revalue g (key ++ slashed p) m := by
  constructor
  · intro h
    generalize hn' : revalue g key n = n' at h
    induction h generalizing n key with
    | here => exact ⟨n, .here _, by simp [slashed, hn']⟩
    | @down n' c' m' k p hc _ ih =>
      subst hn'
      cases n with
      | mk t v cs =>
        simp only [revalue, children, revalueL_eq, List.mem_map] at hc
        obtain ⟨⟨k', c⟩, hm, he⟩ := hc
        simp only [Prod.mk.injEq] at he
        obtain ⟨rfl, he⟩ := he
        obtain ⟨m, h1, h2⟩ := ih he
        exact ⟨m, .down hm h1, by simpa [slashed] using h2⟩
  · rintro ⟨m, h, rfl⟩
    induction h generalizing key with
    | here => simpa [slashed] using .here _
    | @down n c m k p hc _ ih =>
      cases n with
      | mk t v cs =>
        have := ih (key := key ++ '/' :: k)
        refine .down (c := revalue g (key ++ '/' :: k) c) ?_ ?_
        · simp only [revalue, children, revalueL_eq, List.mem_map]
          exact ⟨(k, c), hc, rfl⟩
        · simpa [slashed] using this

theorem revalue_WF (g : Str → β) (key : Str) (n : Node τ α) (hn : n.WF) : (revalue g key n).WF := by
  intro p m h
  obtain ⟨m', h1, rfl⟩ := (revalue_At g).1 h
  rw [revalue_keys]
  exact hn p m' h1

theorem revalue_flatten (g : Str → β) (key : Str) (n : Node τ α) :
    flatten key (revalue g key n)
      = (flatten key n).map fun s => (⟨s.key, s.ty, g s.key, s.childKeys⟩ : FlatStruct τ β) := by
  induction n using induct generalizing key with
  | h t v cs ih =>
    rw [revalue, flatten_mk, flatten_mk, revalueL_keys, List.map_cons]
    congr 1
    clear v
    induction cs with
    | nil => rfl
    | cons p cs ih' =>
      obtain ⟨k, c⟩ := p
      rw [revalueL, flattenL_cons, flattenL_cons, List.map_append, ih k c (by simp),
        ih' fun k c h => ih k c (List.mem_cons_of_mem _ h)]

theorem revalue_self (g : Str → α) (key : Str) (n : Node τ α)
    (h : ∀ p m, n.At p m → g (key ++ slashed p) = m.value) : revalue g key n = n := by
  induction n using induct generalizing key with
  | h t v cs ih =>
    have hv := h [] _ (.here _)
    simp only [slashed, List.flatMap_nil, List.append_nil, value] at hv
    rw [revalue, hv, revalueL_eq]
    congr 1
    conv => rhs; rw [← List.map_id cs]
    apply List.map_congr_left
    rintro ⟨k, c⟩ hc
    simp only [id]
    rw [ih k c hc]
    intro p m hm
    have := h (k :: p) m (.down hc hm)
    simpa [slashed] using this

end Node

theorem newStructs_ok (idx : List (Str × Nat)) (values : List β) (g : Str → β)
    (ss : List (FlatStruct τ α)) (h : ∀ s ∈ ss, lookupValue idx values s.key = .ok (g s.key)) :
    newStructs idx values ss
      = .ok (ss.map fun s => (⟨s.key, s.ty, g s.key, s.childKeys⟩ : FlatStruct τ β)) := by
  induction ss with
  | nil => rfl
  | cons s ss ih =>
    simp only [newStructs, h s (by simp), ih fun s hs => h s (List.mem_cons_of_mem _ hs),
      Bind.bind, Except.bind, List.map_cons]

theorem newStructs_indexError (idx : List (Str × Nat)) (values : List β)
    (ss : List (FlatStruct τ α))
    (h : ∀ s ∈ ss, (∃ v, lookupValue idx values s.key = .ok v) ∨
      lookupValue idx values s.key = .error .indexError)
    (hex : ∃ s ∈ ss, lookupValue idx values s.key = .error .indexError) :
    newStructs idx values ss = .error .indexError := by
  induction ss with
  | nil => simp at hex
  | cons s ss ih =>
    rcases h s (by simp) with ⟨v, hv⟩ | hv
    · have : ∃ s ∈ ss, lookupValue idx values s.key = .error .indexError := by
        obtain ⟨s', hs', he⟩ := hex
        rcases List.mem_cons.1 hs' with rfl | hs'
        · rw [hv] at he; simp at he
        · exact ⟨s', hs', he⟩
      simp only [newStructs, hv, ih (fun s hs => h s (List.mem_cons_of_mem _ hs)) this,
        Bind.bind, Except.bind]
    · simp only [newStructs, hv, Bind.bind, Except.bind]

theorem mem_flatten_key {n : Node τ α} {s : FlatStruct τ α} (h : s ∈ flatten [] n) :
    ∃ p m, n.At p m ∧ s.key = slashed p := by
  simp only [flatten, List.mem_map] at h
  obtain ⟨⟨k, m⟩, hm, rfl⟩ := h
  obtain ⟨p, h1, h2⟩ := (n.iterFlat_mem [] k m).1 hm
  exact ⟨p, m, h2, by simpa using h1⟩

theorem buildPrim_eq (n : Node τ α) (hn : n.WF) (idx : List (Str × Nat)) (values : List β)
    (g : Str → β) (h : ∀ p m, n.At p m → lookupValue idx values (slashed p) = .ok (g (slashed p))) :
    buildPrim (flatten [] n) idx values = .ok (n.revalue g []) := by
  unfold buildPrim
  rw [newStructs_ok idx values g]
  · have := unflatten_flatten (n.revalue g []) (Node.revalue_WF g [] n hn) [] []
    rw [List.append_nil, Node.revalue_flatten] at this
    simp [Bind.bind, Except.bind, this]
  · intro s hs
    obtain ⟨p, m, h1, h2⟩ := mem_flatten_key hs
    rw [h2]; exact h p m h1

/-! ### Constructors -/

theorem liftPy_ok {x : Py α} {n n' : Nat} {a : α} :
    liftPy x n = .ok (a, n') ↔ x = .ok a ∧ n' = n := by
  unfold liftPy
  cases x <;> simp [eq_comm]

theorem bind_ok {γ : Type} {x : Alloc α} {f : α → Alloc γ} {n n' : Nat} {c : γ} :
    (x >>= f) n = .ok (c, n') ↔ ∃ a m, x n = .ok (a, m) ∧ f a m = .ok (c, n') := by
  simp only [Bind.bind, StateT.bind]
  cases hx : x n with
  | error e => simp [Except.bind]
  | ok am => obtain ⟨a, m⟩ := am; simp [Except.bind]

theorem pure_ok {a b : α} {n n' : Nat} :
    (pure a : Alloc α) n = .ok (b, n') ↔ b = a ∧ n' = n := by
  simp [Pure.pure, StateT.pure, Except.pure, eq_comm]

theorem newArray_ok {arr : List K} {v : PVal K} {n n' : Nat} :
    newArray arr n = .ok (v, n') ↔ v = ⟨n, arr⟩ ∧ n' = n + 1 := by
  simp [newArray, eq_comm]

theorem orDefault_some {d : List K} {v v' : PVal K} {n n' : Nat} :
    orDefault d (some v) n = .ok (v', n') ↔ v' = v ∧ n' = n := pure_ok

theorem orDefault_none {d : List K} {v : PVal K} {n n' : Nat} :
    orDefault d none n = .ok (v, n') ↔ v = ⟨n, d⟩ ∧ n' = n + 1 := newArray_ok

theorem primInit_ok {t : PrimType} {v : PVal K} {keys : List Str} {prims : List (Prim K)}
    (hk : keys.Nodup) {q : Prim K} :
    primInit t v keys prims = .ok q ↔
      v.arr.length = t.size ∧ t.Accepts ((keys.zip prims).map (·.2.ty)) ∧
        q = .mk t v (keys.zip prims) := by
  unfold primInit
  rw [dictOfZip_of_nodup hk, primNodeInit_ok_iff]

variable [PyNum K]

theorem newPoint_ok {v : PVal K} {n n' : Nat} {q : Prim K} :
    newPoint (some v) n = .ok (q, n') ↔ v.arr.length = 2 ∧ q = .mk .point v [] ∧ n' = n := by
  simp only [newPoint, bind_ok, orDefault_some, liftPy_ok, primInit_ok List.nodup_nil,
    PrimType.Accepts, PrimType.size, List.zip_nil_left, List.map_nil]
  constructor
  · rintro ⟨_, _, ⟨rfl, rfl⟩, ⟨h, _, rfl⟩, rfl⟩; exact ⟨h, rfl, rfl⟩
  · rintro ⟨h, rfl, rfl⟩; exact ⟨_, _, ⟨rfl, rfl⟩, ⟨h, trivial, rfl⟩, rfl⟩

/-- The line with the given own value through two points. -/
def mkLine (v : PVal K) (a b : Prim K) : Prim K :=
  .mk .line v [(k!"Point0", a), (k!"Point1", b)]

theorem newLine_pair_ok {v : PVal K} {a b q : Prim K} {n n' : Nat} :
    newLine (some v) (some [a, b]) n = .ok (q, n') ↔
      v.arr = [] ∧ a.ty.IsA .point ∧ b.ty.IsA .point ∧ q = mkLine v a b ∧ n' = n := by
  simp only [newLine, bind_ok, orDefault_some, liftPy_ok, pure_ok,
    primInit_ok (show [k!"Point0", k!"Point1"].Nodup by decide),
    PrimType.Accepts, PrimType.size, List.length_eq_zero_iff]
  constructor
  · rintro ⟨_, _, ⟨rfl, rfl⟩, _, _, ⟨rfl, rfl⟩, ⟨h, ⟨_, _, he, h1, h2⟩, rfl⟩, rfl⟩
    simp only [List.zip_cons_cons, List.zip_nil_left, List.map_cons, List.map_nil, List.cons.injEq,
      and_true] at he
    obtain ⟨rfl, rfl⟩ := he
    exact ⟨h, h1, h2, rfl, rfl⟩
  · rintro ⟨h, h1, h2, rfl, rfl⟩
    exact ⟨_, _, ⟨rfl, rfl⟩, _, _, ⟨rfl, rfl⟩, ⟨h, ⟨_, _, rfl, h1, h2⟩, rfl⟩, rfl⟩

theorem polygonLines_ok {pairs : List (Prim K × Prim K)} {n n' : Nat} {ls : List (Prim K)} :
    polygonLines pairs n = .ok (ls, n') ↔
      (∀ p ∈ pairs, p.1.ty.IsA .point ∧ p.2.ty.IsA .point) ∧
      ls = (pairs.zipIdx n).map (fun p => mkLine ⟨p.2, []⟩ p.1.1 p.1.2) ∧
      n' = n + pairs.length := by
  induction pairs generalizing n n' ls with
  | nil => simp [polygonLines, pure_ok]
  | cons ab pairs ih =>
    obtain ⟨a, b⟩ := ab
    simp only [polygonLines, bind_ok, newArray_ok, newLine_pair_ok, pure_ok, ih]
    constructor
    · rintro ⟨_, _, ⟨rfl, rfl⟩, _, _, ⟨_, h1, h2, rfl, rfl⟩, _, _, ⟨h3, rfl, rfl⟩, rfl, rfl⟩
      refine ⟨?_, by simp [List.zipIdx_cons], by simp; omega⟩
      intro p hp
      rcases List.mem_cons.1 hp with rfl | hp
      · exact ⟨h1, h2⟩
      · exact h3 p hp
    · rintro ⟨h1, rfl, rfl⟩
      refine ⟨_, _, ⟨rfl, rfl⟩, _, _, ⟨rfl, (h1 (a, b) (by simp)).1, (h1 (a, b) (by simp)).2, rfl, rfl⟩, _, _,
        ⟨fun p hp => h1 p (List.mem_cons_of_mem _ hp), rfl, rfl⟩, by simp [List.zipIdx_cons],
        by simp; omega⟩

theorem lineKey_injective {i j : Nat} (h : lineKey i = lineKey j) : i = j := by
  unfold lineKey at h
  exact natStr_injective (List.append_cancel_left h)

theorem lineKeys_nodup (n : Nat) : ((List.range n).map lineKey).Nodup := by
  rw [List.nodup_iff_pairwise_ne, List.pairwise_map]
  apply List.Pairwise.imp ?_ (List.nodup_iff_pairwise_ne.1 List.nodup_range)
  intro a b h e; exact h (lineKey_injective e)

/-- The lines of a polygon through `pts`, with own values numbered from `n`. -/
def loopLines (pts : List (Prim K)) (n : Nat) : List (Prim K) :=
  ((pts.zip (pts.drop 1 ++ pts.take 1)).zipIdx n).map (fun p => mkLine ⟨p.2, []⟩ p.1.1 p.1.2)

omit [PyNum K] in
theorem rotate_length (pts : List (Prim K)) : (pts.drop 1 ++ pts.take 1).length = pts.length := by
  cases pts <;> simp

omit [PyNum K] in
theorem rotate_getElem (pts : List (Prim K)) (i : Nat) (hi : i < pts.length) :
    (pts.drop 1 ++ pts.take 1)[i]'(by rw [rotate_length]; exact hi)
      = pts[(i + 1) % pts.length]'(Nat.mod_lt _ (by omega)) := by
  cases pts with
  | nil => simp at hi
  | cons a pts =>
    simp only [List.drop_succ_cons, List.drop_zero, List.take_succ_cons, List.take_zero,
      List.length_cons]
    simp only [List.length_cons] at hi
    by_cases h : i < pts.length
    · rw [List.getElem_append_left h]
      have : (i + 1) % (pts.length + 1) = i + 1 := Nat.mod_eq_of_lt (by omega)
      simp only [this, List.getElem_cons_succ]
    · have h' : i = pts.length := by omega
      subst h'
      simp

omit [PyNum K] in
theorem loopLines_length (pts : List (Prim K)) (n : Nat) : (loopLines pts n).length = pts.length := by
  simp only [loopLines, List.length_map, List.length_zipIdx, List.length_zip, rotate_length]
  omega

omit [PyNum K] in
theorem loopLines_getElem (pts : List (Prim K)) (n : Nat) (i : Nat) (hi : i < pts.length) :
    (loopLines pts n)[i]'(by rw [loopLines_length]; exact hi)
      = mkLine ⟨n + i, []⟩ pts[i] (pts[(i + 1) % pts.length]'(Nat.mod_lt _ (by omega))) := by
  simp only [loopLines, List.getElem_map, List.getElem_zipIdx, List.getElem_zip]
  rw [rotate_getElem pts i hi]

theorem polygonChildren_ok {pts : List (Prim K)} {n n' : Nat} {r : List Str × List (Prim K)} :
    polygonChildren pts n = .ok (r, n') ↔
      (∀ p ∈ pts, p.ty.IsA .point) ∧
      r = ((List.range pts.length).map lineKey, loopLines pts n) ∧ n' = n + pts.length := by
  simp only [polygonChildren, bind_ok, polygonLines_ok, pure_ok]
  have hlen : (pts.zip (pts.drop 1 ++ pts.take 1)).length = pts.length := by
    rw [List.length_zip, rotate_length]; omega
  have hpts : (∀ p ∈ pts.zip (pts.drop 1 ++ pts.take 1), p.1.ty.IsA .point ∧ p.2.ty.IsA .point) ↔
      ∀ p ∈ pts, p.ty.IsA .point := by
    constructor
    · intro h p hp
      obtain ⟨i, hi, rfl⟩ := List.getElem_of_mem hp
      have := h ((pts.zip (pts.drop 1 ++ pts.take 1))[i]'(by rw [hlen]; exact hi))
        (List.getElem_mem _)
      simpa using this.1
    · rintro h ⟨a, b⟩ hp
      obtain ⟨ha, hb⟩ := List.of_mem_zip hp
      refine ⟨h a ha, h b ?_⟩
      rcases List.mem_append.1 hb with hb | hb
      · exact List.mem_of_mem_drop hb
      · exact List.mem_of_mem_take hb
  constructor
  · rintro ⟨ls, m, ⟨h1, rfl, rfl⟩, rfl, rfl⟩
    refine ⟨hpts.1 h1, ?_, by rw [hlen]⟩
    rw [Prod.mk.injEq]
    refine ⟨?_, rfl⟩
    simp only [List.length_map, List.length_zipIdx, hlen]
    rfl
  · rintro ⟨h1, rfl, rfl⟩
    refine ⟨_, _, ⟨hpts.2 h1, rfl, rfl⟩, ?_, by rw [hlen]⟩
    rw [Prod.mk.injEq]
    refine ⟨?_, rfl⟩
    simp only [List.length_map, List.length_zipIdx, hlen]
    rfl

omit [PyNum K] in
theorem loop_children (pts : List (Prim K)) (n : Nat) (t : PrimType) (v : PVal K) :
    ClosedLoop (.mk t v (((List.range pts.length).map lineKey).zip (loopLines pts n))) pts := by
  constructor
  · simp only [Node.keys, Node.children]
    rw [List.map_fst_zip]
    simp [loopLines_length]
  · intro i hi
    refine ⟨(loopLines pts n)[i]'(by rw [loopLines_length]; exact hi), ?_, ?_⟩
    · simp only [Node.children]
      rw [List.mem_iff_getElem]
      refine ⟨i, by simp [loopLines_length, hi], by simp⟩
    · rw [loopLines_getElem pts n i hi]
      exact ⟨rfl, rfl, rfl⟩

omit [PyNum K] in
theorem loop_types (pts : List (Prim K)) (n : Nat) :
    (((List.range pts.length).map lineKey).zip (loopLines pts n)).map (·.2.ty)
      = List.replicate pts.length .line := by
  apply List.ext_getElem
  · simp [loopLines_length]
  · intro i h1 h2
    simp only [List.length_replicate] at h2
    simp [loopLines_getElem pts n i h2, mkLine, Node.ty]

/-- The point with the given object identity and coordinates. -/
def mkPoint (id : Nat) (x y : K) : Prim K := .mk .point ⟨id, [x, y]⟩ []

theorem newPoints_ok {l : List (K × K)} {n n' : Nat} {ps : List (Prim K)} :
    newPoints l n = .ok (ps, n') ↔
      ps = (l.zipIdx n).map (fun p => mkPoint p.2 p.1.1 p.1.2) ∧ n' = n + l.length := by
  induction l generalizing n n' ps with
  | nil => simp [newPoints, pure_ok]
  | cons xy l ih =>
    obtain ⟨x, y⟩ := xy
    simp only [newPoints, bind_ok, newArray_ok, newPoint_ok, pure_ok, ih]
    constructor
    · rintro ⟨_, _, ⟨rfl, rfl⟩, _, _, ⟨_, rfl, rfl⟩, _, _, ⟨rfl, rfl⟩, rfl, rfl⟩
      exact ⟨by simp [List.zipIdx_cons, mkPoint], by simp; omega⟩
    · rintro ⟨rfl, rfl⟩
      exact ⟨_, _, ⟨rfl, rfl⟩, _, _, ⟨rfl, rfl, rfl⟩, _, _, ⟨rfl, rfl⟩,
        by simp [List.zipIdx_cons, mkPoint], by simp; omega⟩

/-- The polygon of class `t` that the constructors build. -/
def mkLoop (t : PrimType) (v : PVal K) (pts : List (Prim K)) (n : Nat) : Prim K :=
  .mk t v (((List.range pts.length).map lineKey).zip (loopLines pts n))

omit [PyNum K] in
theorem loop_init_ok {t : PrimType} (v : PVal K) (pts : List (Prim K)) {n : Nat} {q : Prim K} :
    primInit t v ((List.range pts.length).map lineKey) (loopLines pts n) = .ok q ↔
      v.arr.length = t.size ∧ t.Accepts (List.replicate pts.length .line) ∧
        q = mkLoop t v pts n := by
  rw [primInit_ok (lineKeys_nodup _), loop_types, mkLoop]

theorem newPolygon_some_ok {v : PVal K} {pts : List (Prim K)} {size n n' : Nat} {q : Prim K} :
    newPolygon (some v) (some pts) size n = .ok (q, n') ↔
      v.arr = [] ∧ (∀ p ∈ pts, p.ty.IsA .point) ∧ q = mkLoop .polygon v pts n ∧
        n' = n + pts.length := by
  simp only [newPolygon, bind_ok, orDefault_some, pure_ok, polygonChildren_ok, liftPy_ok]
  constructor
  · rintro ⟨_, _, ⟨rfl, rfl⟩, _, _, ⟨rfl, rfl⟩, _, _, ⟨h, rfl, rfl⟩, h2, rfl⟩
    obtain ⟨h3, _, rfl⟩ := (loop_init_ok _ _).1 h2
    exact ⟨List.length_eq_zero_iff.1 h3, h, rfl, rfl⟩
  · rintro ⟨hv, h, rfl, rfl⟩
    refine ⟨_, _, ⟨rfl, rfl⟩, _, _, ⟨rfl, rfl⟩, _, _, ⟨h, rfl, rfl⟩, ?_, rfl⟩
    refine (loop_init_ok _ _).2 ⟨by simp [hv, PrimType.size], ?_, rfl⟩
    intro t ht
    rw [List.eq_of_mem_replicate ht]; exact .refl _

theorem quad_accepts {n : Nat} :
    PrimType.Accepts .quadrilateral (List.replicate n .line) ↔ n = 4 := by
  simp only [PrimType.Accepts, List.length_replicate]
  constructor
  · exact fun h => h.1
  · intro h
    refine ⟨h, fun t ht => ?_⟩
    rw [List.eq_of_mem_replicate ht]; exact .refl _

theorem newQuadrilateral_some_ok {v : PVal K} {pts : List (Prim K)} {n n' : Nat} {q : Prim K} :
    newQuadrilateral (some v) (some pts) n = .ok (q, n') ↔
      v.arr = [] ∧ pts.length = 4 ∧ (∀ p ∈ pts, p.ty.IsA .point) ∧
        q = mkLoop .quadrilateral v pts n ∧ n' = n + pts.length := by
  simp only [newQuadrilateral, bind_ok, orDefault_some, pure_ok, polygonChildren_ok, liftPy_ok]
  constructor
  · rintro ⟨_, _, ⟨rfl, rfl⟩, _, _, ⟨rfl, rfl⟩, _, _, ⟨h, rfl, rfl⟩, h2, rfl⟩
    obtain ⟨h3, h4, rfl⟩ := (loop_init_ok _ _).1 h2
    exact ⟨List.length_eq_zero_iff.1 h3, quad_accepts.1 h4, h, rfl, rfl⟩
  · rintro ⟨hv, h4, h, rfl, rfl⟩
    refine ⟨_, _, ⟨rfl, rfl⟩, _, _, ⟨rfl, rfl⟩, _, _, ⟨h, rfl, rfl⟩, ?_, rfl⟩
    exact (loop_init_ok _ _).2 ⟨by simp [hv, PrimType.size], quad_accepts.2 h4, rfl⟩

/-- The default quadrilateral. -/
def unitQuad (n : Nat) : Prim K := mkLoop .quadrilateral ⟨n, []⟩
  [mkPoint (n + 1) 0 0, mkPoint (n + 2) 1 0, mkPoint (n + 3) 1 1, mkPoint (n + 4) 0 1] (n + 5)

theorem newQuadrilateral_none_ok (n : Nat) :
    newQuadrilateral (K := K) none none n = .ok (unitQuad n, n + 9) := by
  simp only [newQuadrilateral, bind_ok, orDefault_none, newPoints_ok, polygonChildren_ok, liftPy_ok]
  refine ⟨_, _, ⟨rfl, rfl⟩, _, _, ⟨rfl, rfl⟩, _, _, ⟨?_, rfl, rfl⟩, ?_, rfl⟩
  · intro p hp
    simp only [List.zipIdx_cons, List.zipIdx_nil, List.map_cons, List.map_nil, List.mem_cons,
      List.not_mem_nil, or_false] at hp
    rcases hp with rfl | rfl | rfl | rfl <;> exact .refl _
  · exact (loop_init_ok _ _).2 ⟨rfl, quad_accepts.2 rfl, rfl⟩

theorem newPoint_none_ok (n : Nat) :
    newPoint (K := K) none n = .ok (mkPoint n 0 0, n + 1) := rfl

theorem axisPrims_ok (b : Bool) (n : Nat) : ∃ ps n', axisPrims (K := K) b n = .ok (ps, n') ∧
    ps.map (·.ty) = if b then [.quadrilateral, .point] else [] := by
  cases b with
  | false => exact ⟨[], n, rfl, rfl⟩
  | true =>
    refine ⟨[unitQuad n, mkPoint (n + 9) 0 0], n + 9 + 1, ?_, ?_⟩
    · simp only [axisPrims, if_true, bind_ok, newQuadrilateral_none_ok, pure_ok]
      exact ⟨_, _, rfl, _, _, newPoint_none_ok _, rfl, rfl⟩
    · rfl

theorem axesDefault_ok (x y tx ty : Bool) (n : Nat) : ∃ ps n',
    axesDefault (K := K) x y tx ty n = .ok (ps, n') ∧
    ps.map (·.ty) = .quadrilateral :: (List.replicate (((if x then 1 else 0) + if y then 1 else 0) +
      ((if x && tx then 1 else 0) + if y && ty then 1 else 0))
        [PrimType.quadrilateral, .point]).flatten := by
  obtain ⟨p1, n1, h1, t1⟩ := axisPrims_ok (K := K) x n
  obtain ⟨p2, n2, h2, t2⟩ := axisPrims_ok (K := K) (x && tx) n1
  obtain ⟨p3, n3, h3, t3⟩ := axisPrims_ok (K := K) y n2
  obtain ⟨p4, n4, h4, t4⟩ := axisPrims_ok (K := K) (y && ty) n3
  refine ⟨[unitQuad n4] ++ (p1 ++ p3) ++ (p2 ++ p4), n4 + 9, ?_, ?_⟩
  · simp only [axesDefault, bind_ok]
    refine ⟨_, _, h1, _, _, h2, _, _, h3, _, _, h4, _, _, newQuadrilateral_none_ok n4, ?_⟩
    exact pure_ok.2 ⟨rfl, rfl⟩
  · simp only [List.map_append, t1, t2, t3, t4]
    cases x <;> cases y <;> cases tx <;> cases ty <;> rfl

theorem axesKeys_nodup (x y tx ty : Bool) : (axesKeys x y tx ty).Nodup := by
  cases x <;> cases y <;> cases tx <;> cases ty <;> decide

theorem axesKeys_length (x y tx ty : Bool) : (axesKeys x y tx ty).length = 1 + 2 *
    (((if x then 1 else 0) + if y then 1 else 0) +
      ((if x && tx then 1 else 0) + if y && ty then 1 else 0)) := by
  cases x <;> cases y <;> cases tx <;> cases ty <;> rfl

theorem IsA_refl_all (ts : List PrimType) : List.Forall₂ PrimType.IsA ts ts := by
  induction ts with
  | nil => exact .nil
  | cons t ts ih => exact .cons (.refl t) ih

end MplLayout
