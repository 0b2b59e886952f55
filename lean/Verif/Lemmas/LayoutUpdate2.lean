import Verif.Lemmas.LayoutUpdate
import Verif.Lemmas.LayoutResidual

/-! `update_layout_constraints` on layouts of shipped constraints. -/

namespace MplLayout

open Node Cons Flt

/-- No thickness constraint in the tree, and proper child keys. -/
def NN (c : Cons Flt) : Prop := ∀ p (m : Cons Flt), c.At p m → m.ty.axisKind = none ∧
  ∀ k ∈ m.children.map (·.1), '/' ∉ k ∧ k ≠ []

theorem NN_mk {t : ConsClass Flt} {v : ConsVal Flt} {cs : List (Str × Cons Flt)}
    (ht : t.axisKind = none) (h : ∀ k c, (k, c) ∈ cs → ('/' ∉ k ∧ k ≠ []) ∧ NN c) :
    NN (.mk t v cs) := by
  intro p m hm
  cases hm with
  | here =>
    refine ⟨ht, fun k hk => ?_⟩
    obtain ⟨⟨k', c⟩, hc, rfl⟩ := List.mem_map.mp hk
    exact (h k' c hc).1
  | down hc hm => exact (h _ _ hc).2 _ _ hm

theorem NN_leaf {c : Cons Flt} (hc : c.children = []) (ht : c.ty.axisKind = none) : NN c := by
  cases c with
  | mk t v cs =>
    simp only [children_mk] at hc
    subst hc
    exact NN_mk ht (by simp)

theorem NN_oneT {cls : ConsClass Flt} {key : Str} {ch : Cons Flt} {ks : List Str} {ty : List PrimType}
    (hk : '/' ∉ key ∧ key ≠ []) (hc : ch.children = []) :
    NN (cstr (oneT cls key ch ks ty)) := by
  cases ch with
  | mk t v cs =>
    simp only [children_mk] at hc
    subst hc
    refine NN_mk rfl ?_
    intro k c h
    have : (k, c) ∈ [(key, c)] := by
      have h' : (k, c) ∈ sumTreeL [(key, Node.mk t v [])] (negVec (oneT cls key (Node.mk t v []) ks ty)).children := h
      have e : ∃ b, (negVec (oneT cls key (Node.mk t v []) ks ty)).children = [(key, b)] := ⟨_, rfl⟩
      obtain ⟨b, e⟩ := e
      rw [e] at h'
      simp only [sumTreeL, List.mem_singleton] at h'
      cases h'
      simp
    rw [List.mem_singleton] at this
    cases this
    refine ⟨hk, ?_⟩
    have h' : (key, c) ∈ sumTreeL [(key, Node.mk t v [])] (negVec (oneT cls key (Node.mk t v []) ks ty)).children := h
    have e : ∃ b, (negVec (oneT cls key (Node.mk t v []) ks ty)).children = [(key, b)] := ⟨_, rfl⟩
    obtain ⟨b, e⟩ := e
    rw [e] at h'
    simp only [sumTreeL, List.mem_singleton] at h'
    cases h'
    exact NN_leaf rfl rfl

theorem numKey_nice (s : Str) (n : Nat) (hs : '/' ∉ s) : '/' ∉ s ++ natStr n ∧ s ++ natStr n ≠ [] := by
  constructor
  · simp [hs, slash_notMem_natStr]
  · simp [natStr_ne_nil]

theorem mem_zip_numKeys {s : Str} {n : Nat} {cs : List (Cons Flt)} {k : Str} {c : Cons Flt}
    (h : (k, c) ∈ ((List.range n).map fun i => s ++ natStr i).zip cs) (hs : '/' ∉ s) :
    ('/' ∉ k ∧ k ≠ []) ∧ c ∈ cs := by
  obtain ⟨h1, h2⟩ := List.of_mem_zip h
  obtain ⟨i, _, rfl⟩ := List.mem_map.mp h1
  exact ⟨numKey_nice s i hs, h2⟩

theorem NN_mapCons {c : Cons Flt} (hc : NN c) (hn : '/' ∉ c.ty.name) (n : Nat) : NN (mapCons c n) := by
  refine NN_mk rfl ?_
  intro k d h
  obtain ⟨h1, h2⟩ := List.of_mem_zip h
  obtain ⟨i, _, rfl⟩ := List.mem_map.mp h1
  refine ⟨numKey_nice _ _ hn, ?_⟩
  rw [List.eq_of_mem_replicate h2]; exact hc

theorem NN_align (row : Bool) : NN (alignT row) := by
  cases row
  · refine NN_mk rfl ?_
    intro k c h
    simp only [List.mem_cons, List.not_mem_nil, or_false, Prod.mk.injEq] at h
    rcases h with ⟨rfl, rfl⟩ | ⟨rfl, rfl⟩ <;> exact ⟨by decide, NN_leaf rfl rfl⟩
  · refine NN_mk rfl ?_
    intro k c h
    simp only [List.mem_cons, List.not_mem_nil, or_false, Prod.mk.injEq] at h
    rcases h with ⟨rfl, rfl⟩ | ⟨rfl, rfl⟩ <;> exact ⟨by decide, NN_leaf rfl rfl⟩

theorem align_noslash (row : Bool) : '/' ∉ (alignT (K := Flt) row).ty.name := by
  cases row
  · show '/' ∉ k!"AlignColumn"; decide
  · show '/' ∉ k!"AlignRow"; decide

theorem NN_rectGrid (rows cols : Nat) : NN (rectGridT rows cols) := by
  refine NN_mk rfl ?_
  intro k c h
  obtain ⟨h1, h2⟩ := List.of_mem_zip h
  constructor
  · rcases List.mem_append.mp h1 with h1 | h1
    · obtain ⟨i, _, rfl⟩ := List.mem_map.mp h1; exact numKey_nice _ _ (by decide)
    · obtain ⟨i, _, rfl⟩ := List.mem_map.mp h1; exact numKey_nice _ _ (by decide)
  · rcases List.mem_append.mp h2 with h2 | h2
    · rw [List.eq_of_mem_replicate h2]; exact NN_mapCons (NN_align _) (align_noslash _) _
    · rw [List.eq_of_mem_replicate h2]; exact NN_mapCons (NN_align _) (align_noslash _) _

theorem NN_margin (outer : Bool) (side : con.Side) : NN (cstr (marginT outer side)) := by
  cases outer <;> cases side <;> exact NN_oneT (by decide) rfl

theorem NN_marginArray {m : Cons Flt} (hm : NN m) (n : Nat) : NN (marginArrayT m n) := by
  refine NN_mk rfl ?_
  intro k c h
  obtain ⟨h1, h2⟩ := mem_zip_numKeys h (by decide)
  refine ⟨h1, ?_⟩
  rw [List.eq_of_mem_replicate h2]; exact hm

theorem NN_faces (side : con.Side) : NN (facesT side) := by
  refine NN_mk rfl ?_
  intro k c h
  simp only [List.mem_cons, List.not_mem_nil, or_false, Prod.mk.injEq] at h
  obtain ⟨rfl, rfl⟩ := h
  exact ⟨by decide, NN_leaf rfl rfl⟩

/-- A tree with one thickness constraint, at the root. -/
theorem NN_thickness (kind : AxisKind) : ∀ k c, (k, c) ∈ (thicknessT kind).children →
    ('/' ∉ k ∧ k ≠ []) ∧ NN c := by
  intro k c h
  cases kind
  · have h : (k, c) ∈ [(k!"Height", cstr con.yLength)] := h
    simp only [List.mem_cons, List.not_mem_nil, or_false, Prod.mk.injEq] at h
    obtain ⟨rfl, rfl⟩ := h
    exact ⟨by decide, NN_leaf rfl rfl⟩
  · have h : (k, c) ∈ [(k!"Height", cstr con.xLength)] := h
    simp only [List.mem_cons, List.not_mem_nil, or_false, Prod.mk.injEq] at h
    obtain ⟨rfl, rfl⟩ := h
    exact ⟨by decide, NN_leaf rfl rfl⟩

theorem shipped_NN (s : Shipped) {c : Cons Flt} (e : s.build = .ok c) :
    NN c ∨ ∃ kind, c = thicknessT kind := by
  by_cases ht : ∃ kind, s = .axisThickness kind
  · obtain ⟨kind, rfl⟩ := ht
    exact .inr ⟨kind, eq_of_ok (thickness_eq kind) e⟩
  refine .inl ?_
  have nomem : ∀ {k : Str} {c : Cons Flt}, (k, c) ∈ ([] : List (Str × Cons Flt)) → False := by simp
  cases s with
  | axisThickness kind => exact absurd ⟨kind, rfl⟩ ht
  | fix => rw [eq_of_ok ct_fix_eq e]; exact NN_leaf rfl rfl
  | directedDistance => rw [eq_of_ok ct_directedDistance_eq e]; exact NN_leaf rfl rfl
  | xDistance => rw [eq_of_ok ct_xDistance_eq e]; exact NN_leaf rfl rfl
  | yDistance => rw [eq_of_ok ct_yDistance_eq e]; exact NN_leaf rfl rfl
  | coincident => cases e; exact NN_leaf rfl rfl
  | length => rw [eq_of_ok ct_length_eq e]; exact NN_leaf rfl rfl
  | directedLength => rw [eq_of_ok ct_directedLength_eq e]; exact NN_leaf rfl rfl
  | xLength => rw [eq_of_ok ct_xLength_eq e]; exact NN_leaf rfl rfl
  | yLength => rw [eq_of_ok ct_yLength_eq e]; exact NN_leaf rfl rfl
  | vertical => cases e; exact NN_leaf rfl rfl
  | horizontal => cases e; exact NN_leaf rfl rfl
  | relativeLength => rw [eq_of_ok relativeLength_eq e]; exact NN_leaf rfl rfl
  | midpointXDistance => rw [eq_of_ok ct_midpointXDistance_eq e]; exact NN_leaf rfl rfl
  | midpointYDistance => rw [eq_of_ok ct_midpointYDistance_eq e]; exact NN_leaf rfl rfl
  | orthogonal => cases e; exact NN_leaf rfl rfl
  | parallel => cases e; exact NN_leaf rfl rfl
  | angle => rw [eq_of_ok ct_angle_eq e]; exact NN_leaf rfl rfl
  | collinear => cases e; exact NN_leaf rfl rfl
  | coincidentLines => cases e; exact NN_leaf rfl rfl
  | pointOnLineDistance => rw [eq_of_ok ct_pointOnLineDistance_eq e]; exact NN_leaf rfl rfl
  | pointToLineDistance => rw [eq_of_ok ct_pointToLineDistance_eq e]; exact NN_leaf rfl rfl
  | relativePointOnLineDistance =>
    rw [eq_of_ok ct_relativePointOnLineDistance_eq e]; exact NN_leaf rfl rfl
  | box =>
    rw [eq_of_ok box_eq e]
    refine NN_mk rfl ?_
    intro k c h
    simp only [List.mem_cons, List.not_mem_nil, or_false, Prod.mk.injEq] at h
    rcases h with ⟨rfl, rfl⟩ | ⟨rfl, rfl⟩ | ⟨rfl, rfl⟩ | ⟨rfl, rfl⟩ <;>
      exact ⟨by decide, NN_leaf rfl rfl⟩
  | width => rw [eq_of_ok ct_width_eq e]; exact NN_oneT (by decide) rfl
  | height => rw [eq_of_ok ct_height_eq e]; exact NN_oneT (by decide) rfl
  | aspectRatio => rw [eq_of_ok ct_aspectRatio_eq e]; exact NN_leaf rfl rfl
  | margin outer side => rw [eq_of_ok (ct_margin_eq outer side) e]; exact NN_margin outer side
  | outerMarginArray n side =>
    rw [eq_of_ok (outerMarginArray_eq (ct_margin_eq true side) n) e]
    exact NN_marginArray (NN_margin _ _) _
  | align row => rw [eq_of_ok (align_eq row) e]; exact NN_align row
  | coincidentOutwardFaces side => rw [eq_of_ok (faces_eq side) e]; exact NN_faces side
  | rectilinearGrid rows cols => rw [eq_of_ok (rectilinearGrid_eq rows cols) e]; exact NN_rectGrid _ _
  | grid rows cols =>
    rw [eq_of_ok (grid_eq (ct_margin_eq true .right) (ct_margin_eq true .bottom) rows cols) e]
    have hl : NN (relLenT (K := Flt)) := NN_leaf rfl rfl
    have hln : '/' ∉ (relLenT (K := Flt)).ty.name := by rw [good_relLen.2.2.2.1]; decide
    refine NN_mk rfl ?_
    intro k c h
    simp only [List.mem_cons, List.not_mem_nil, or_false, Prod.mk.injEq] at h
    rcases h with ⟨rfl, rfl⟩ | ⟨rfl, rfl⟩ | ⟨rfl, rfl⟩ | ⟨rfl, rfl⟩ | ⟨rfl, rfl⟩
    · exact ⟨by decide, NN_rectGrid _ _⟩
    · exact ⟨by decide, NN_mapCons hl hln _⟩
    · exact ⟨by decide, NN_mapCons hl hln _⟩
    · exact ⟨by decide, NN_marginArray (NN_margin _ _) _⟩
    · exact ⟨by decide, NN_marginArray (NN_margin _ _) _⟩
  | positionAxis axis side twin =>
    rw [eq_of_ok (position_eq axis side twin) e]
    cases twin
    · refine NN_mk rfl ?_
      intro k c h
      simp only [List.mem_cons, List.not_mem_nil, or_false, Prod.mk.injEq] at h
      obtain ⟨rfl, rfl⟩ := h
      exact ⟨by decide, NN_faces _⟩
    · refine NN_mk rfl ?_
      intro k c h
      simp only [List.mem_cons, List.not_mem_nil, or_false, Prod.mk.injEq] at h
      rcases h with ⟨rfl, rfl⟩ | ⟨rfl, rfl⟩ <;> exact ⟨by decide, NN_faces _⟩
  | positionAxisLabel axis twin =>
    rw [eq_of_ok (label_eq axis twin) e]
    refine NN_mk rfl ?_
    intro k c h
    simp only [List.mem_cons, List.not_mem_nil, or_false, Prod.mk.injEq] at h
    obtain ⟨rfl, rfl⟩ := h
    exact ⟨by decide, NN_leaf rfl rfl⟩

/-! ### Parameters of a thickness constraint -/

theorem thickness_params (kind : AxisKind) (a : MplAxis Flt) (pt : ParamsNode Flt)
    (h : Cons.rootParams (thicknessT kind) [.axis a] = .ok pt) :
    ∃ t, (ct.getAxisThickness a).1 = .ok t ∧
      pt = .mk () [.axis a] [(k!"Height", .mk () [.num t] [])] := by
  cases ht : (ct.getAxisThickness a).1 with
  | error e =>
    have : Cons.rootParams (thicknessT kind) [.axis a] = .error e := by
      cases kind <;>
        simp only [thicknessT, Cons.rootParams, ct.axisThicknessParams, ht, bind, Except.bind]
    rw [this] at h; cases h
  | ok t =>
    have : Cons.rootParams (thicknessT kind) [.axis a]
        = .ok (.mk () [.axis a] [(k!"Height", .mk () [.num t] [])]) := by
      cases kind <;>
        · simp only [thicknessT, Cons.rootParams, ct.axisThicknessParams, ht, bind, Except.bind]
          rfl
    rw [this] at h
    exact ⟨t, rfl, (Except.ok.inj h).symm⟩

theorem thickness_params_ok (kind : AxisKind) (a : MplAxis Flt) (t : Flt)
    (ht : (ct.getAxisThickness a).1 = .ok t) :
    Cons.rootParams (thicknessT kind) [.axis a]
        = .ok (.mk () [.axis a] [(k!"Height", .mk () [.num t] [])]) := by
  cases kind <;>
    · simp only [thicknessT, Cons.rootParams, ct.axisThicknessParams, ht, bind, Except.bind]
      rfl

theorem thickness_kind (kind : AxisKind) : (thicknessT kind).ty.axisKind = some kind := by
  cases kind <;> rfl

theorem thickness_skel (kind : AxisKind) (a : MplAxis Flt) (pt : ParamsNode Flt)
    (h : Cons.rootParams (thicknessT kind) [.axis a] = .ok pt) :
    pt.skel = Node.skel (thicknessT kind) := by
  obtain ⟨t, _, rfl⟩ := thickness_params kind a pt h
  cases kind <;> rfl

/-! ### Histories -/

/-- The top level of the constraint tree. -/
structure TopOK (l : Layout Flt) : Prop where
  root : l.cons.ty.axisKind = none
  child : ∀ k c, (k, c) ∈ l.cons.children → ('/' ∉ k ∧ k ≠ []) ∧ (NN c ∨ ∃ kind, c = thicknessT kind)

theorem addConstraint_cons {K : Type} (l : Layout K) {c : Cons K} (hc : '/' ∉ c.ty.name)
    (primKeys : List Str) (param : List (Param K)) (key : Str) (hk : '/' ∉ key) :
    (l.addConstraint c primKeys param key).1.cons = l.cons ∨
    ∃ key', '/' ∉ key' ∧ key' ≠ [] ∧ key' ∉ l.cons.keys ∧
      (l.addConstraint c primKeys param key).1.cons
        = .mk l.cons.ty l.cons.value (l.cons.children ++ [(key', c)]) := by
  have main : ∀ (l : Layout K) (key' : Str), '/' ∉ key' → key' ≠ [] →
      (l.checkAndStore c primKeys param key').1.cons = l.cons ∨
      key' ∉ l.cons.keys ∧
      (l.checkAndStore c primKeys param key').1.cons
        = .mk l.cons.ty l.cons.value (l.cons.children ++ [(key', c)]) := by
    intro l key' h1 h2
    unfold Layout.checkAndStore
    cases l.check c primKeys param with
    | error e => exact .inl rfl
    | ok u =>
      simp only
      unfold Layout.store
      cases ha : l.cons.addChild key' c with
      | error e => exact .inl rfl
      | ok cons =>
        have hcons : cons = .mk l.cons.ty l.cons.value (l.cons.children ++ [(key', c)]) ∧
            key' ∉ Node.keys l.cons := by
          obtain ⟨m, e1, e2, _⟩ := Node.addChild_ok ha
          rw [(noslash_iff_dropLast key').mp h1] at e1
          have e3 : (splitAll key').getLastD [] = key' := by rw [splitAll_noslash h1]; rfl
          rw [e3] at e2
          cases e1
          rw [Layout.addChild_top _ _ h1 e2] at ha
          exact ⟨(Except.ok.inj ha).symm, e2⟩
        refine .inr ⟨hcons.2, ?_⟩
        rw [← hcons.1]
        show (Layout.storeKeys { l with cons := cons } c primKeys param key').1.cons = cons
        unfold Layout.storeKeys
        split
        · unfold Layout.storeParams
          split <;> rfl
        · rfl
  by_cases h0 : key = []
  · obtain ⟨ctr, k, h1, h2, h3, h4⟩ := l.autoKey_eq c hc
    simp only [Layout.addConstraint, h0, if_true, h1]
    have := main { l with counter := ctr } (c.ty.name ++ natStr k)
      (by simp [hc, slash_notMem_natStr]) (by simp [natStr_ne_nil])
    exact this.imp id fun h => ⟨_, by simp [hc, slash_notMem_natStr], by simp [natStr_ne_nil], h⟩
  · simp only [Layout.addConstraint, h0, if_false]
    exact (main l key hk h0).imp id fun h => ⟨_, hk, h0, h⟩

theorem TopOK.empty (id : Nat) : TopOK (Layout.empty id) :=
  ⟨rfl, by intro k c h; cases h⟩

theorem TopOK.step {l : Layout Flt} (hl : TopOK l) {op : LayoutOp Flt} (hr : op.Sensible)
    (ht : op.TopLevel) : TopOK (l.step op).1 := by
  cases op with
  | addPrim prim key =>
    have := (Layout.addPrim_rest l prim key).1
    exact ⟨by rw [Layout.step, this]; exact hl.root, by rw [Layout.step, this]; exact hl.child⟩
  | addPrims prims =>
    have := (Layout.addPrims_rest l prims).1
    exact ⟨by rw [Layout.step, this]; exact hl.root, by rw [Layout.step, this]; exact hl.child⟩
  | addConstraint c primKeys param key =>
    obtain ⟨s, e, hs, _⟩ := hr
    have hn := (shipped_good (parts := s.parts) s hs (shipped_parts_self s) e).static.name
    rcases addConstraint_cons l hn primKeys param key ht with h | ⟨key', h1, h2, _, h⟩
    · exact ⟨by rw [Layout.step, h]; exact hl.root, by rw [Layout.step, h]; exact hl.child⟩
    · refine ⟨by rw [Layout.step, h]; exact hl.root, ?_⟩
      rw [Layout.step, h]
      intro k d hd
      rcases List.mem_append.mp hd with hd | hd
      · exact hl.child k d hd
      · rw [List.mem_singleton] at hd
        cases hd
        exact ⟨⟨h1, h2⟩, shipped_NN s e⟩

theorem TopOK.run {l : Layout Flt} (hl : TopOK l) {ops : List (LayoutOp Flt)}
    (hr : ∀ op ∈ ops, op.Sensible) (ht : ∀ op ∈ ops, op.TopLevel) : TopOK (l.run ops) := by
  induction ops generalizing l with
  | nil => exact hl
  | cons op ops ih =>
    exact ih (hl.step (hr op (by simp)) (ht op (by simp))) (fun o h => hr o (List.mem_cons_of_mem _ h))
      fun o h => ht o (List.mem_cons_of_mem _ h)

theorem NN.path {c : Cons Flt} (h : NN c) {p : List Str} {m : Cons Flt} (hm : c.At p m) :
    ∀ w ∈ p, '/' ∉ w ∧ w ≠ [] := by
  induction hm with
  | here => simp
  | @down n d m k p hd hm ih =>
    intro w hw
    rcases List.mem_cons.mp hw with rfl | hw
    · exact (h [] n (.here n)).2 w (List.mem_map.mpr ⟨_, hd, rfl⟩)
    · exact ih (fun q x hx => h (k :: q) x (.down hd hx)) w hw

theorem TopOK.thick {l : Layout Flt} (hl : TopOK l) (hi : l.Inv) : ThickOK l := by
  -- where the thickness constraints are
  have hw : ∀ p (c : Cons Flt), l.cons.At p c → (∀ w ∈ p, '/' ∉ w ∧ w ≠ []) ∧
      (c.ty.axisKind ≠ none → ∃ kind, c = thicknessT kind) := by
    intro p c hc
    cases hc with
    | here => exact ⟨by simp, fun h => absurd hl.root h⟩
    | @down _ d _ k p hd hm =>
      obtain ⟨hk, hd'⟩ := hl.child k d hd
      rcases hd' with hd' | ⟨kind, rfl⟩
      · refine ⟨?_, fun h => absurd (hd' p c hm).1 h⟩
        intro w hw
        rcases List.mem_cons.mp hw with rfl | hw
        · exact hk
        · exact hd'.path hm w hw
      · cases hm with
        | here => exact ⟨by simpa using hk, fun _ => ⟨kind, rfl⟩⟩
        | @down _ e _ k' p hd' hm =>
          obtain ⟨hk', he⟩ := NN_thickness kind k' e hd'
          refine ⟨?_, fun h => absurd (he p c hm).1 h⟩
          intro w hw
          rcases List.mem_cons.mp hw with rfl | hw
          · exact hk
          · rcases List.mem_cons.mp hw with rfl | hw
            · exact hk'
            · exact he.path hm w hw
  refine ⟨hi, fun p c hc => (hw p c hc).1, ?_, ?_⟩
  · intro p c q c' hc hk hc' hq
    obtain ⟨kind, rfl⟩ := (hw p c hc).2 hk
    cases hc' with
    | here => exact absurd rfl hq
    | down hd hm => exact ((NN_thickness kind _ _ hd).2 _ _ hm).1
  · intro p c hp hc hk a pt hpt
    obtain ⟨kind, rfl⟩ := (hw p c hc).2 hk
    exact thickness_skel kind a pt hpt

end MplLayout
