import Verif.Lemmas.Canonical

/-!
# What the solver rebuilds depends on the structure of the layout's geometry only
-/

namespace MplLayout.Solver

open MplLayout.Node

theorem flat_same {τ α : Type} {a b : Node τ α} (ha : a.WF) (hb : b.WF)
    (h1 : ∀ p, (∃ m, a.At p m) ↔ ∃ m, b.At p m)
    (h2 : ∀ p m m', a.At p m → b.At p m' → m.keys = m'.keys) (key : Str) :
    List.Forall₂ (fun x y : Str × Node τ α => x.1 = y.1 ∧ ∃ p, a.At p x.2 ∧ b.At p y.2)
      (a.iterFlat key) (b.iterFlat key) := by
  induction a using Node.induct generalizing b key with
  | _ t v cs ih =>
    cases b with
    | mk t' v' cs' =>
      have e2 := h2 [] _ _ (.here _) (.here _)
      simp only [Node.keys_mk] at e2
      rw [Node.WF_mk] at ha hb
      rw [iterFlat, iterFlat, iterFlatL_eq, iterFlatL_eq]
      refine .cons ⟨rfl, [], .here _, .here _⟩ ?_
      have hf : List.Forall₂ (fun x y : Str × Node τ α => x.1 = y.1) cs cs' := by
        rw [← List.forall₂_map_left_iff (f := fun x : Str × Node τ α => x.1) (R := fun k (y : Str × Node τ α) => k = y.1),
          ← List.forall₂_map_right_iff (f := fun x : Str × Node τ α => x.1) (R := fun k k' => k = k'), e2]
        exact List.forall₂_same.mpr fun _ _ => rfl
      have key' : ∀ ds ds' : List (Str × Node τ α), List.Forall₂ (fun x y : Str × Node τ α => x.1 = y.1) ds ds' →
          (∀ x ∈ ds, x ∈ cs) → (∀ x ∈ ds', x ∈ cs') →
          List.Forall₂ (fun x y : Str × Node τ α => x.1 = y.1 ∧ ∃ p, (Node.mk t v cs).At p x.2 ∧ (Node.mk t' v' cs').At p y.2)
            (ds.flatMap fun kc => iterFlat (key ++ '/' :: kc.1) kc.2)
            (ds'.flatMap fun kc => iterFlat (key ++ '/' :: kc.1) kc.2) := by
        intro ds ds' hd
        induction hd with
        | nil => exact fun _ _ => .nil
        | @cons x y ds ds' hk _ ih2 =>
          intro m1 m2
          obtain ⟨k, c⟩ := x
          obtain ⟨k', c'⟩ := y
          simp only at hk
          subst hk
          have hm := m1 _ (List.mem_cons_self ..)
          have hm' := m2 _ (List.mem_cons_self ..)
          rw [List.flatMap_cons, List.flatMap_cons]
          refine List.rel_append ?_ (ih2 (fun x hx => m1 x (List.mem_cons_of_mem _ hx)) (fun x hx => m2 x (List.mem_cons_of_mem _ hx)))
          refine (ih k c hm (ha.2 _ _ hm) (hb.2 _ _ hm') ?_ ?_ _).imp ?_
          · intro p
            constructor
            · rintro ⟨m, hm1⟩
              obtain ⟨m', hm2⟩ := (h1 (k :: p)).mp ⟨m, .down hm hm1⟩
              cases hm2 with
              | down hc hm3 =>
                have := nodup_unique hb.1 hc hm'
                subst this
                exact ⟨_, hm3⟩
            · rintro ⟨m, hm1⟩
              obtain ⟨m', hm2⟩ := (h1 (k :: p)).mpr ⟨m, .down hm' hm1⟩
              cases hm2 with
              | down hc hm3 =>
                have := nodup_unique ha.1 hc hm
                subst this
                exact ⟨_, hm3⟩
          · intro p m m' g1 g2
            exact h2 (k :: p) m m' (.down hm g1) (.down hm' g2)
          · rintro x y ⟨e, p, g1, g2⟩
            exact ⟨e, k :: p, .down hm g1, .down hm' g2⟩
      exact key' cs cs' hf (fun _ h => h) (fun _ h => h)

section filter
variable {α ι : Type} [DecidableEq ι] {ident : α → ι} {D : α → α → Prop}

/-- Related states of the filter. -/
structure SameState (ident : α → ι) (D : α → α → Prop) (s t : FilterState ι α) : Prop where
  ids : List.Forall₂ (fun p q : ι × Nat => p.2 = q.2 ∧ ∃ v w, D v w ∧ p.1 = ident v ∧ q.1 = ident w)
    s.valueIdToIdx t.valueIdToIdx
  vals : List.Forall₂ D s.values t.values
  idx : s.primToIdx = t.primToIdx

theorem lookup_same (hD : ∀ v w v' w', D v w → D v' w' → (ident v = ident v' ↔ ident w = ident w'))
    {l l' : List (ι × Nat)}
    (h : List.Forall₂ (fun p q : ι × Nat => p.2 = q.2 ∧ ∃ v w, D v w ∧ p.1 = ident v ∧ q.1 = ident w) l l')
    {v w : α} (hvw : D v w) : l.lookup (ident v) = l'.lookup (ident w) := by
  induction h with
  | nil => rfl
  | @cons p q l l' hpq _ ih =>
    obtain ⟨p1, p2⟩ := p
    obtain ⟨q1, q2⟩ := q
    obtain ⟨e, v', w', hd, e1, e2⟩ := hpq
    simp only at e e1 e2
    subst e e1 e2
    have := hD v w v' w' hvw hd
    by_cases hh : ident v = ident v'
    · rw [List.lookup, List.lookup, beq_iff_eq.mpr hh, beq_iff_eq.mpr (this.mp hh)]
    · rw [List.lookup, List.lookup, beq_eq_false_iff_ne.mpr hh,
        beq_eq_false_iff_ne.mpr (fun h => hh (this.mpr h))]
      exact ih

theorem filter_same (hD : ∀ v w v' w', D v w → D v' w' → (ident v = ident v' ↔ ident w = ident w'))
    {L L' : List (Str × α)} (h : List.Forall₂ (fun x y : Str × α => x.1 = y.1 ∧ D x.2 y.2) L L')
    {s t : FilterState ι α} (hst : SameState ident D s t) :
    SameState ident D (L.foldl (filterStep ident) s) (L'.foldl (filterStep ident) t) := by
  induction h generalizing s t with
  | nil => exact hst
  | @cons x y L L' hxy _ ih =>
    obtain ⟨k, v⟩ := x
    obtain ⟨k', w⟩ := y
    obtain ⟨e, hd⟩ := hxy
    simp only at e hd
    subst e
    refine ih ?_
    have hl := lookup_same hD hst.ids hd
    have hlen := hst.vals.length_eq
    unfold filterStep
    simp only
    rw [← hl]
    cases s.valueIdToIdx.lookup (ident v) with
    | none =>
      exact ⟨List.rel_append hst.ids (.cons ⟨hlen, v, w, hd, rfl, rfl⟩ .nil),
        List.rel_append hst.vals (.cons hd .nil), by simp only [hst.idx, hlen]⟩
    | some i => exact ⟨hst.ids, hst.vals, by simp only [hst.idx]⟩

end filter

theorem newStructs_same {τ α β : Type} (idx : List (Str × Nat)) (values : List β)
    {F F' : List (FlatStruct τ α)}
    (h : List.Forall₂ (fun x y => x.key = y.key ∧ x.ty = y.ty ∧ x.childKeys = y.childKeys) F F') :
    newStructs idx values F = newStructs idx values F' := by
  induction h with
  | nil => rfl
  | @cons x y F F' hxy _ ih =>
    obtain ⟨e1, e2, e3⟩ := hxy
    simp only [newStructs, ih, e1, e2, e3]

/-- Rebuilding depends on the structure of the layout's geometry only. -/
theorem rebuild_same {K : Type} {l l' : Layout K} (hok : PrimOK l.prim) (hok' : PrimOK l'.prim)
    (hs : SameStructure l.prim l'.prim) :
    rebuild l = rebuild l' ∧ dim l = dim l' := by
  have hflat := flat_same hok.wf hok'.wf hs.paths (fun p m m' h h' => (hs.nodes p m m' h h').2.1) []
  have hst : SameState PVal.id (fun v w : PVal K => ∃ p m m', l.prim.At p m ∧ l'.prim.At p m' ∧ v = m.value ∧ w = m'.value)
      (((l.prim.iterFlat []).map fun kn => (kn.1, kn.2.value)).foldl (filterStep PVal.id) {})
      (((l'.prim.iterFlat []).map fun kn => (kn.1, kn.2.value)).foldl (filterStep PVal.id) {}) := by
    refine filter_same ?_ ?_ ⟨.nil, .nil, rfl⟩
    · rintro v w v' w' ⟨p, m, m', h1, h2, rfl, rfl⟩ ⟨q, n, n', h3, h4, rfl, rfl⟩
      exact hs.sharing p q m n m' n' h1 h3 h2 h4
    · rw [List.forall₂_map_left_iff, List.forall₂_map_right_iff]
      exact hflat.imp fun x y ⟨e, p, h1, h2⟩ => ⟨e, p, _, _, h1, h2, rfl, rfl⟩
  have hlens : (primValues l).map List.length = (primValues l').map List.length := by
    simp only [primValues, List.map_map]
    have := hst.vals
    refine List.forall₂_eq_eq_eq ▸ ?_
    rw [List.forall₂_map_left_iff, List.forall₂_map_right_iff]
    refine this.imp ?_
    rintro v w ⟨p, m, m', h1, h2, rfl, rfl⟩
    exact (hs.nodes p m m' h1 h2).2.2
  have hidx : (filterUnique PVal.id l.prim).1 = (filterUnique PVal.id l'.prim).1 := hst.idx
  refine ⟨?_, by rw [dim, dim, hlens]⟩
  funext base g
  simp only [rebuild, buildPrim, idxBounds, hlens, hidx]
  rw [newStructs_same (F' := flatten [] l'.prim)]
  simp only [flatten]
  rw [List.forall₂_map_left_iff, List.forall₂_map_right_iff]
  refine hflat.imp ?_
  rintro x y ⟨e, p, h1, h2⟩
  obtain ⟨g1, g2, _⟩ := hs.nodes p _ _ h1 h2
  exact ⟨e, g1, g2⟩

end MplLayout.Solver
