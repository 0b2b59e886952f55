import Verif.Lemmas.Canonical
import Verif.Lemmas.DrawShift

/-!
# Layouts whose primitives are moved
-/

namespace MplLayout

open Flt Cons

theorem Node.setAt_mapV {τ α β : Type} (f : α → β) (c : Node τ α) (k : Str) :
    ∀ (p : List Str) (n : Node τ α), (n.mapV f).setAt p k (c.mapV f) = (n.setAt p k c).mapV f
  | [], .mk t v cs => by
    simp only [Node.setAt, Node.mapV_mk, Node.children_mapV, Node.ty_mapV, Node.value_mapV, dictSet_mapVal,
      Node.children_mk, Node.ty_mk, Node.value_mk]
  | q :: p, .mk t v cs => by
    simp only [Node.setAt, Node.mapV_mk, Node.children_mk, dictGet_mapVal]
    cases dictGet cs q with
    | none => simp only [Option.map_none, Node.mapV_mk]
    | some d =>
      simp only [Option.map_some, Node.setAt_mapV f c k p d, Node.ty_mk, Node.value_mk, Node.mapV_mk,
        dictSet_mapVal]

theorem Node.addChild_mapV {τ α β : Type} (f : α → β) (n c : Node τ α) (key : Str) :
    (n.mapV f).addChild key (c.mapV f) = (n.addChild key c).map (Node.mapV f) := by
  rw [Node.addChild_eq, Node.addChild_eq, Node.find_mapV]
  cases n.find (splitAll key).dropLast with
  | none => rfl
  | some m =>
    simp only [Option.map_some, Node.keys_mapV, Node.setAt_mapV]
    split <;> rfl

/-- The same layout with other primitive values. -/
def Layout.mapP (f : PVal Flt → PVal Flt) (l : Layout Flt) : Layout Flt := { l with prim := l.prim.mapV f }

/-- The same call with other primitive values. -/
def LayoutOp.mapP (f : PVal Flt → PVal Flt) : LayoutOp Flt → LayoutOp Flt
  | .addPrim prim key => .addPrim (prim.mapV f) key
  | .addPrims prims => .addPrims (prims.map fun kp => (kp.1, kp.2.mapV f))
  | .addConstraint c ks ps key => .addConstraint c ks ps key

section
variable (f : PVal Flt → PVal Flt)

theorem addPrim_mapP (l : Layout Flt) (p : Prim Flt) (key : Str) :
    (l.mapP f).addPrim (p.mapV f) key = ((l.addPrim p key).1.mapP f, (l.addPrim p key).2) := by
  simp only [Layout.addPrim, Layout.mapP, Node.addChild_mapV]
  cases l.prim.addChild key p <;> rfl

theorem addPrims_mapP : ∀ (ps : List (Str × Prim Flt)) (l : Layout Flt),
    (l.mapP f).addPrims (ps.map fun kp => (kp.1, kp.2.mapV f))
      = ((l.addPrims ps).1.mapP f, (l.addPrims ps).2)
  | [], l => rfl
  | (key, p) :: ps, l => by
    simp only [List.map_cons, Layout.addPrims, addPrim_mapP]
    rcases h : l.addPrim p key with ⟨l', r⟩
    cases r with
    | ok u => exact addPrims_mapP ps l'
    | error e => rfl

theorem check_mapP (l : Layout Flt) (c : Cons Flt) (ks : List Str) (ps : List (Param Flt)) :
    (l.mapP f).check c ks ps = l.check c ks ps := by
  have hl : lookupPrims (l.prim.mapV f) ks = (lookupPrims l.prim ks).map (List.map (Node.mapV f)) :=
    pyMap_map_comm _ _ _ (fun k => Node.getChild_mapV f l.prim k) ks
  have hv : ∀ prims : List (Prim Flt), c.validatePrims (prims.map (Node.mapV f)) = c.validatePrims prims := by
    intro prims
    have hz : ∀ (ps : List (Prim Flt)) (ts : List PrimType),
        List.zipWith (fun (p : Prim Flt) t => !p.ty.sub t) (ps.map (Node.mapV f)) ts
          = List.zipWith (fun (p : Prim Flt) t => !p.ty.sub t) ps ts := by
      intro ps
      induction ps with
      | nil => intro ts; simp
      | cons p ps ih => intro ts; cases ts <;> simp [ih]
    simp only [Cons.validatePrims, List.length_map, hz]
  simp only [Layout.check, Layout.mapP, hl]
  cases lookupPrims l.prim ks with
  | error e => rfl
  | ok prims => simp only [Except.map, bind, Except.bind, hv]

theorem store_mapP (l : Layout Flt) (c : Cons Flt) (ks : List Str) (ps : List (Param Flt)) (key : Str) :
    (l.mapP f).store c ks ps key = ((l.store c ks ps key).1.mapP f, (l.store c ks ps key).2) := by
  simp only [Layout.store, Layout.mapP]
  cases l.cons.addChild key c with
  | error e => rfl
  | ok cons =>
    simp only [Layout.storeKeys]
    cases (c.rootPrimKeys ks >>= fun t => l.keys.addChild key t) with
    | error e => rfl
    | ok keys =>
      simp only [Layout.storeParams]
      cases (c.rootParams ps >>= fun t => l.params.addChild key t) <;> rfl

theorem checkAndStore_mapP (l : Layout Flt) (c : Cons Flt) (ks : List Str) (ps : List (Param Flt)) (key : Str) :
    (l.mapP f).checkAndStore c ks ps key
      = ((l.checkAndStore c ks ps key).1.mapP f, (l.checkAndStore c ks ps key).2) := by
  simp only [Layout.checkAndStore, check_mapP, store_mapP]
  cases l.check c ks ps <;> rfl

theorem step_mapP (l : Layout Flt) (op : LayoutOp Flt) :
    (l.mapP f).step (op.mapP f) = ((l.step op).1.mapP f, (l.step op).2) := by
  cases op with
  | addPrim p k => exact addPrim_mapP f l p k
  | addPrims ps => exact addPrims_mapP f ps l
  | addConstraint c ks ps key =>
    show (l.mapP f).addConstraint c ks ps key 
      = ((l.addConstraint c ks ps key).1.mapP f, (l.addConstraint c ks ps key).2)
    have ha : (l.mapP f).autoKey c = l.autoKey c := rfl
    unfold Layout.addConstraint
    split
    · rw [ha]
      rcases l.autoKey c with ⟨ctr, r⟩
      cases r with
      | error e => rfl
      | ok key => exact checkAndStore_mapP f { l with counter := ctr } c ks ps key
    · exact checkAndStore_mapP f l c ks ps key

theorem run_mapP : ∀ (ops : List (LayoutOp Flt)) (l : Layout Flt),
    (l.mapP f).run (ops.map (LayoutOp.mapP f)) = (l.run ops).mapP f
  | [], _ => rfl
  | op :: ops, l => by
    simp only [Layout.run, List.map_cons, List.foldl_cons, step_mapP] at *
    exact run_mapP ops _

end

/-- Moving all primitives does not change the residual. -/
theorem residual_shift {l : Layout Flt} (h : AllN SIP l.cons) (t : ℝ × ℝ) {root : Prim Flt}
    (hp : Planar root) : l.residual (shiftPrim t root) = l.residual root := by
  have hlk : ∀ ks, lookupPrims (shiftPrim t root) ks = (lookupPrims root ks).map (List.map (shiftPrim t)) :=
    fun ks => pyMap_map_comm _ _ _ (fun k => getChild_shift root k) ks
  simp only [Layout.residual, Layout.residualList]
  rw [pyMap_map_comm _ _ _ hlk]
  generalize List.take _ _ = kss
  cases hx : pyMap (lookupPrims root) kss with
  | error e => rfl
  | ok pss =>
    simp only [Except.map, bind, Except.bind]
    rw [residuals_shift fun c hc => flatCons_mem h hc]
    intro ps hps p hpp
    obtain ⟨ks, _, hks⟩ := pyMap_ok_mem hx hps
    obtain ⟨k, _, hk⟩ := pyMap_ok_mem hks hpp
    exact hp.getChild hk

namespace Solver

theorem shift_at {t : ℝ × ℝ} {p : Prim Flt} {q : List Str} {m : Prim Flt} :
    (shiftPrim t p).At q m ↔ ∃ m0, p.At q m0 ∧ m = shiftPrim t m0 := At_mapV _

theorem shift_planar {t : ℝ × ℝ} {p : Prim Flt} (h : Planar p) : Planar (shiftPrim t p) := by
  intro q m hm
  obtain ⟨m0, h0, rfl⟩ := shift_at.mp hm
  rw [shiftPrim_arr, shiftL_length]
  exact h q m0 h0

theorem shift_ok {t : ℝ × ℝ} {p : Prim Flt} (h : PrimOK p) : PrimOK (shiftPrim t p) := by
  refine ⟨WF_mapV _ h.wf, ?_, ?_⟩
  · intro q m hm k hk
    obtain ⟨m0, h0, rfl⟩ := shift_at.mp hm
    rw [shiftPrim, Node.keys_mapV] at hk
    exact h.slashFree q m0 h0 k hk
  · intro q q' m m' hm hm' e
    obtain ⟨m0, h0, rfl⟩ := shift_at.mp hm
    obtain ⟨m1, h1, rfl⟩ := shift_at.mp hm'
    simp only [shiftPrim, Node.value_mapV] at e ⊢
    have := h.ident q q' m0 m1 h0 h1 e
    rw [this]

theorem shift_finite {t : ℝ × ℝ} {p : Prim Flt} (hp : Planar p) (h : p.Finite) : (shiftPrim t p).Finite := by
  intro q m hm x hx
  obtain ⟨m0, h0, rfl⟩ := shift_at.mp hm
  rw [shiftPrim_arr] at hx
  have hf := h q m0 h0
  rcases planar_cases (hp q m0 h0) with e | ⟨a, b, e⟩
  · rw [e] at hx; simp [shiftL] at hx
  · rw [e] at hx hf
    simp only [shiftL, List.mem_cons, List.not_mem_nil, or_false] at hx hf
    obtain ⟨u, hu⟩ := hf a (.inl rfl)
    obtain ⟨v, hv⟩ := hf b (.inr rfl)
    rcases hx with rfl | rfl
    · exact ⟨u + t.1, by rw [hu]; rfl⟩
    · exact ⟨v + t.2, by rw [hv]; rfl⟩

/-- Moving keeps the structure. -/
theorem shift_same {t : ℝ × ℝ} {p : Prim Flt} (h : p.WF) : SameStructure p (shiftPrim t p) := by
  refine ⟨fun q => ?_, fun q m m' h1 h2 => ?_, fun q q' m n m' n' h1 h2 h3 h4 => ?_⟩
  · constructor
    · rintro ⟨m, hm⟩; exact ⟨_, shift_at.mpr ⟨m, hm, rfl⟩⟩
    · rintro ⟨m, hm⟩
      obtain ⟨m0, h0, rfl⟩ := shift_at.mp hm
      exact ⟨m0, h0⟩
  · obtain ⟨m0, h0, rfl⟩ := shift_at.mp h2
    cases At_unique h h1 h0
    rw [shiftPrim_arr, shiftL_length, shiftPrim_ty, shiftPrim, Node.keys_mapV]
    exact ⟨rfl, rfl, rfl⟩
  · obtain ⟨m0, e0, rfl⟩ := shift_at.mp h3
    obtain ⟨n0, e1, rfl⟩ := shift_at.mp h4
    cases At_unique h h1 e0
    cases At_unique h h2 e1
    simp only [shiftPrim, Node.value_mapV]

theorem planar_same {a b : Prim Flt} (h : SameStructure a b) (ha : Planar a) : Planar b := by
  intro q m hm
  obtain ⟨m0, h0⟩ := (h.paths q).mpr ⟨m, hm⟩
  rw [← (h.nodes q m0 m h0 hm).2.2]
  exact ha q m0 h0

theorem shift_back {t : ℝ × ℝ} {p : Prim Flt} (hp : Planar p) (hf : p.Finite) (hw : p.WF) :
    SameGeometry (shiftPrim (-t) (shiftPrim t p)) p := by
  refine ⟨fun q => ?_, fun q m m' h1 h2 => ?_⟩
  · constructor
    · rintro ⟨m, hm⟩
      obtain ⟨m0, h0, rfl⟩ := shift_at.mp hm
      obtain ⟨m1, h1, rfl⟩ := shift_at.mp h0
      exact ⟨m1, h1⟩
    · rintro ⟨m, hm⟩; exact ⟨_, shift_at.mpr ⟨_, shift_at.mpr ⟨m, hm, rfl⟩, rfl⟩⟩
  · obtain ⟨m0, h0, rfl⟩ := shift_at.mp h1
    obtain ⟨m1, h3, rfl⟩ := shift_at.mp h0
    cases At_unique hw h3 h2
    refine ⟨by simp [shiftPrim_ty], by simp [shiftPrim], ?_⟩
    rw [shiftPrim_arr, shiftPrim_arr]
    have hf := hf q _ h2
    rcases planar_cases (hp q _ h2) with e | ⟨a, b, e⟩
    · rw [e]; rfl
    · rw [e] at hf ⊢
      obtain ⟨u, hu⟩ := hf a (by simp)
      obtain ⟨v, hv⟩ := hf b (by simp)
      subst hu; subst hv
      simp [shiftL]

/-- `shiftL` for real numbers. -/
noncomputable def shiftR (t : ℝ × ℝ) : List ℝ → List ℝ
  | [x, y] => [x + t.1, y + t.2]
  | l => l

theorem shiftL_fin (t : ℝ × ℝ) (x : List ℝ) : shiftL t (x.map fin) = (shiftR t x).map fin := by
  rcases x with _ | ⟨a, _ | ⟨b, _ | ⟨c, x⟩⟩⟩ <;> rfl

theorem shiftR_length (t : ℝ × ℝ) (x : List ℝ) : (shiftR t x).length = x.length := by
  rcases x with _ | ⟨a, _ | ⟨b, _ | ⟨c, x⟩⟩⟩ <;> rfl

theorem lsq_shiftR (t : ℝ × ℝ) {x y : List ℝ} (h : x.length = y.length) :
    lsq (shiftR t x) (shiftR t y) = lsq x y := by
  rcases x with _ | ⟨a, _ | ⟨b, _ | ⟨c, x⟩⟩⟩ <;> rcases y with _ | ⟨a', _ | ⟨b', _ | ⟨c', y⟩⟩⟩ <;>
    simp only [List.length_cons, List.length_nil] at h <;> (try omega) <;> simp [shiftR, lsq]

/-- Distances do not change if both geometries are moved. -/
theorem moved_shift {t : ℝ × ℝ} {a b : Prim Flt} (hs : SameStructure a b) {ps : List (List Str)} {s : ℝ}
    (h : Moved ps a b s) : Moved ps (shiftPrim t a) (shiftPrim t b) s := by
  obtain ⟨_, _, ⟨xs, hx, rfl⟩, ⟨ys, hy, rfl⟩, rfl⟩ := h
  have key : ∀ {a : Prim Flt} {xs : List (List ℝ)},
      List.Forall₂ (fun p x => ∃ n, a.At p n ∧ n.value.arr = x.map Flt.fin) ps xs →
      CoordsAt (shiftPrim t a) ps (xs.map (shiftR t)).flatten := by
    intro a xs h
    refine ⟨_, ?_, rfl⟩
    rw [List.forall₂_map_right_iff]
    refine h.imp fun p x ⟨n, h1, h2⟩ => ⟨_, shift_at.mpr ⟨n, h1, rfl⟩, ?_⟩
    rw [shiftPrim_arr, h2, shiftL_fin]
  have hlen : ∀ {ps : List (List Str)} {xs ys : List (List ℝ)},
      List.Forall₂ (fun p x => ∃ n, a.At p n ∧ n.value.arr = x.map Flt.fin) ps xs →
      List.Forall₂ (fun p x => ∃ n, b.At p n ∧ n.value.arr = x.map Flt.fin) ps ys →
      xs.map List.length = ys.map List.length ∧
      List.zipWith lsq (xs.map (shiftR t)) (ys.map (shiftR t)) = List.zipWith lsq xs ys := by
    intro ps xs ys h1
    induction h1 generalizing ys with
    | nil => intro h; cases h; exact ⟨rfl, rfl⟩
    | cons h hs' ih =>
      intro h'
      cases h' with
      | cons h2 h3 =>
        obtain ⟨n, e1, e2⟩ := h
        obtain ⟨m, e3, e4⟩ := h2
        have := (hs.nodes _ n m e1 e3).2.2
        rw [e2, e4, List.length_map, List.length_map] at this
        obtain ⟨i1, i2⟩ := ih h3
        exact ⟨by simp [this, i1], by simp [lsq_shiftR t this, i2]⟩
  obtain ⟨h1, h2⟩ := hlen hx hy
  refine ⟨_, _, key hx, key hy, ?_⟩
  have e1 := lsq_flatten h1
  have e2 := lsq_flatten (xs := xs.map (shiftR t)) (ys := ys.map (shiftR t)) (by
    simp only [List.map_map, Function.comp_def, shiftR_length]; exact h1)
  rw [h2] at e2
  exact e1.trans e2.symm

end Solver

end MplLayout
