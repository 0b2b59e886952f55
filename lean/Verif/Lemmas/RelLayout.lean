import Verif.Lemmas.RelCons
import Verif.Lemmas.Shift
import Verif.Model.Solver

/-!
# The same computation with two kinds of numbers: layouts and residuals
-/

namespace MplLayout

variable {K0 K : Type} {R RC : K0 → K → Prop} {G : Prim K0 → Prop}

theorem rootPrimKeys_rel {c : Cons K0} : ∀ {c' : Cons K}, CRel R RC G c c' → ∀ ks : List Str,
    Cons.rootPrimKeys c ks = Cons.rootPrimKeys c' ks := by
  induction c using Node.induct with
  | _ t v cs ih =>
    intro c' h ks
    obtain ⟨t', v', cs'⟩ := c'
    obtain ⟨-, hv, hc⟩ := NRel_mk.mp h
    simp only [Cons.rootPrimKeys, ConsVal.childKeys, hv.childPrimKeys]
    have : ∀ kss, Cons.rootPrimKeysL cs kss = Cons.rootPrimKeysL cs' kss := by
      clear h
      induction hc with
      | nil => intro kss; rfl
      | @cons a b _ _ h _ ih' =>
        obtain ⟨k1, a⟩ := a
        obtain ⟨k2, b⟩ := b
        obtain ⟨rfl, h2⟩ := h
        intro kss
        cases kss with
        | nil => rfl
        | cons ks kss =>
          simp only [Cons.rootPrimKeysL, ih _ _ (List.mem_cons_self ..) h2 ks,
            ih' (fun k c hc => ih k c (List.mem_cons_of_mem _ hc)) kss]
    simp only [this]

theorem rootParams_rel {c : Cons K0} : ∀ {c' : Cons K}, CRel R RC G c c' → ∀ {ps : List (Param K0)}
    {ps' : List (Param K)}, LRel (PaRel RC) ps ps' →
    PyRel (NRel Eq (LRel (PaRel RC))) (Cons.rootParams c ps) (Cons.rootParams c' ps') := by
  induction c using Node.induct with
  | _ t v cs ih =>
    intro c' h ps ps' hp
    obtain ⟨t', v', cs'⟩ := c'
    obtain ⟨-, hv, hc⟩ := NRel_mk.mp h
    simp only [Cons.rootParams]
    have hl : ∀ {pss : List (List (Param K0))} {pss' : List (List (Param K))}, LRel (LRel (PaRel RC)) pss pss' →
        PyRel (LRel (KRel (NRel Eq (LRel (PaRel RC))))) (Cons.rootParamsL cs pss) (Cons.rootParamsL cs' pss') := by
      clear h
      induction hc with
      | nil => intro pss pss' _; exact PyRel.ok .nil
      | @cons a b _ _ h _ ih' =>
        obtain ⟨k1, a⟩ := a
        obtain ⟨k2, b⟩ := b
        obtain ⟨rfl, h2⟩ := h
        intro pss pss' hs
        cases hs with
        | nil => exact PyRel.ok .nil
        | cons h3 h4 =>
          exact PyRel.bind' (ih _ _ (List.mem_cons_self ..) h2 h3) fun n n' hn =>
            PyRel.bind' (ih' (fun k c hc => ih k c (List.mem_cons_of_mem _ hc)) h4) fun r r' hr =>
              PyRel.ok (.cons ⟨rfl, hn⟩ hr)
    exact PyRel.bind' (hv.childParams _ _ hp) fun _ _ h1 => PyRel.bind' (hl h1) fun _ _ h2 =>
      PyRel.ok (NRel_mk.mpr ⟨rfl, hp, dictOfPairs_rel h2⟩)

/-- Related layouts. -/
structure LyRel (R RC : K0 → K → Prop) (G : Prim K0 → Prop) (l : Layout K0) (l' : Layout K) : Prop where
  prim : PrRel R l.prim l'.prim
  cons : CRel R RC G l.cons l'.cons
  keys : l.keys = l'.keys
  params : NRel Eq (LRel (PaRel RC)) l.params l'.params
  counter : l.counter = l'.counter

theorem empty_rel (id : Nat) : LyRel R RC G (Layout.empty id) (Layout.empty id) :=
  ⟨NRel_mk.mpr ⟨rfl, ⟨rfl, .nil⟩, .nil⟩,
   NRel_mk.mpr ⟨⟨rfl, rfl, rfl, fun _ _ _ _ _ _ _ => rfl⟩, ⟨rfl, fun _ _ _ => PyRel.ok .nil, rfl⟩, .nil⟩,
   rfl, NRel_mk.mpr ⟨rfl, .nil, .nil⟩, rfl⟩

/-- Related states and outcomes. -/
def StRel (R RC : K0 → K → Prop) (G : Prim K0 → Prop) (r : Layout K0 × Py Unit) (r' : Layout K × Py Unit) : Prop :=
  LyRel R RC G r.1 r'.1 ∧ r.2 = r'.2

theorem addPrim_rel {l : Layout K0} {l' : Layout K} (h : LyRel R RC G l l') {p : Prim K0} {p' : Prim K}
    (hp : PrRel R p p') (key : Str) : StRel R RC G (l.addPrim p key) (l'.addPrim p' key) := by
  have := h.prim.addChild key hp
  simp only [Layout.addPrim]
  revert this
  cases l.prim.addChild key p <;> cases l'.prim.addChild key p' <;> intro this
  · exact ⟨h, by rw [show _ = _ from this]⟩
  · exact this.elim
  · exact this.elim
  · exact ⟨⟨this, h.cons, h.keys, h.params, h.counter⟩, rfl⟩

theorem addPrims_rel {ps : List (Str × Prim K0)} {ps' : List (Str × Prim K)} (hp : LRel (KRel (PrRel R)) ps ps') :
    ∀ {l : Layout K0} {l' : Layout K}, LyRel R RC G l l' → StRel R RC G (l.addPrims ps) (l'.addPrims ps') := by
  induction hp with
  | nil => exact fun h => ⟨h, rfl⟩
  | @cons a b _ _ h1 _ ih =>
    obtain ⟨k1, a⟩ := a
    obtain ⟨k2, b⟩ := b
    obtain ⟨rfl, h2⟩ := h1
    intro l l' h
    have := addPrim_rel h h2 k1
    simp only [Layout.addPrims]
    obtain ⟨h3, h4⟩ := this
    rcases e : l.addPrim a k1 with ⟨m, r⟩
    rcases e' : l'.addPrim b k1 with ⟨m', r'⟩
    rw [e, e'] at h3 h4
    simp only at h3 h4
    subst h4
    cases r with
    | error x => exact ⟨h3, rfl⟩
    | ok x => cases x; exact ih h3

theorem lookupPrims_rel {p : Prim K0} {p' : Prim K} (h : PrRel R p p') (ks : List Str) :
    PyRel (LRel (PrRel R)) (Cons.lookupPrims p ks) (Cons.lookupPrims p' ks) :=
  pyMap_rel (Q := Eq) (List.forall₂_same.mpr fun _ _ => rfl) fun a b _ e => by subst e; exact h.getChild a

theorem validatePrims_rel {c : Cons K0} {c' : Cons K} (h : CRel R RC G c c') {ps : List (Prim K0)}
    {ps' : List (Prim K)} (hp : LRel (PrRel R) ps ps') : Cons.validatePrims c ps = Cons.validatePrims c' ps' := by
  have : ∀ ts : List PrimType, List.zipWith (fun (p : Prim K0) t => !p.ty.sub t) ps ts
      = List.zipWith (fun (p : Prim K) t => !p.ty.sub t) ps' ts := by
    clear h
    induction hp with
    | nil => intro ts; rfl
    | cons h1 _ ih =>
      intro ts
      cases ts with
      | nil => rfl
      | cons t ts => simp only [List.zipWith_cons_cons, ih, show Node.ty _ = Node.ty _ from h1.ty]
  simp only [Cons.validatePrims, h.value.sig, hp.length, this]

theorem check_rel {l : Layout K0} {l' : Layout K} (h : LyRel R RC G l l') {c : Cons K0} {c' : Cons K}
    (hc : CRel R RC G c c') (ks : List Str) {ps : List (Param K0)} {ps' : List (Param K)}
    (hp : LRel (PaRel RC) ps ps') : l.check c ks ps = l'.check c' ks ps' := by
  have h1 : (do let prims ← Cons.lookupPrims l.prim ks; Cons.validatePrims c prims)
      = (do let prims ← Cons.lookupPrims l'.prim ks; Cons.validatePrims c' prims) :=
    PyRel.eq (PyRel.bind' (lookupPrims_rel h.prim ks) fun _ _ h2 => PyRel.of_eq (validatePrims_rel hc h2))
  have h2 : Cons.validateParams c ps = Cons.validateParams c' ps' := by
    simp only [Cons.validateParams, hp.length, hc.value.sig]
  simp only [Layout.check, h1, h2]

theorem storeParams_rel {l : Layout K0} {l' : Layout K} (h : LyRel R RC G l l') {c : Cons K0} {c' : Cons K}
    (hc : CRel R RC G c c') {ps : List (Param K0)} {ps' : List (Param K)}
    (hp : LRel (PaRel RC) ps ps') (key : Str) : StRel R RC G (l.storeParams c ps key) (l'.storeParams c' ps' key) := by
  have : PyRel (NRel Eq (LRel (PaRel RC))) (do let t ← Cons.rootParams c ps; l.params.addChild key t)
      (do let t ← Cons.rootParams c' ps'; l'.params.addChild key t) :=
    PyRel.bind' (rootParams_rel hc hp) fun _ _ ht => h.params.addChild key ht
  simp only [Layout.storeParams]
  revert this
  cases (do let t ← Cons.rootParams c ps; l.params.addChild key t) <;>
    cases (do let t ← Cons.rootParams c' ps'; l'.params.addChild key t) <;> intro this
  · exact ⟨h, by rw [show _ = _ from this]⟩
  · exact this.elim
  · exact this.elim
  · exact ⟨⟨h.prim, h.cons, h.keys, this, h.counter⟩, rfl⟩

theorem storeKeys_rel {l : Layout K0} {l' : Layout K} (h : LyRel R RC G l l') {c : Cons K0} {c' : Cons K}
    (hc : CRel R RC G c c') (ks : List Str) {ps : List (Param K0)} {ps' : List (Param K)}
    (hp : LRel (PaRel RC) ps ps') (key : Str) :
    StRel R RC G (l.storeKeys c ks ps key) (l'.storeKeys c' ks ps' key) := by
  simp only [Layout.storeKeys, rootPrimKeys_rel hc ks, h.keys]
  split
  · refine storeParams_rel ?_ hc hp key
    exact ⟨h.prim, h.cons, rfl, h.params, h.counter⟩
  · exact ⟨h, rfl⟩

theorem store_rel {l : Layout K0} {l' : Layout K} (h : LyRel R RC G l l') {c : Cons K0} {c' : Cons K}
    (hc : CRel R RC G c c') (ks : List Str) {ps : List (Param K0)} {ps' : List (Param K)}
    (hp : LRel (PaRel RC) ps ps') (key : Str) :
    StRel R RC G (l.store c ks ps key) (l'.store c' ks ps' key) := by
  have := h.cons.addChild key hc
  simp only [Layout.store]
  revert this
  cases l.cons.addChild key c <;> cases l'.cons.addChild key c' <;> intro this
  · exact ⟨h, by rw [show _ = _ from this]⟩
  · exact this.elim
  · exact this.elim
  · refine storeKeys_rel ?_ hc ks hp key
    exact ⟨h.prim, this, h.keys, h.params, h.counter⟩

theorem checkAndStore_rel {l : Layout K0} {l' : Layout K} (h : LyRel R RC G l l') {c : Cons K0} {c' : Cons K}
    (hc : CRel R RC G c c') (ks : List Str) {ps : List (Param K0)} {ps' : List (Param K)}
    (hp : LRel (PaRel RC) ps ps') (key : Str) :
    StRel R RC G (l.checkAndStore c ks ps key) (l'.checkAndStore c' ks ps' key) := by
  simp only [Layout.checkAndStore, check_rel h hc ks hp]
  split
  · exact store_rel h hc ks hp key
  · exact ⟨h, rfl⟩

theorem autoKey_rel {l : Layout K0} {l' : Layout K} (h : LyRel R RC G l l') {c : Cons K0} {c' : Cons K}
    (hc : CRel R RC G c c') : l.autoKey c = l'.autoKey c' := by
  simp only [Layout.autoKey, Layout.counterFuel, h.counter, hc.ty.name, h.cons.contains, h.keys, h.params.contains,
    h.cons.len, h.params.len]

theorem addConstraint_rel {l : Layout K0} {l' : Layout K} (h : LyRel R RC G l l') {c : Cons K0} {c' : Cons K}
    (hc : CRel R RC G c c') (ks : List Str) {ps : List (Param K0)} {ps' : List (Param K)}
    (hp : LRel (PaRel RC) ps ps') (key : Str) :
    StRel R RC G (l.addConstraint c ks ps key) (l'.addConstraint c' ks ps' key) := by
  simp only [Layout.addConstraint, autoKey_rel h hc]
  split
  · split
    · refine checkAndStore_rel ?_ hc ks hp _
      exact ⟨h.prim, h.cons, h.keys, h.params, rfl⟩
    · exact ⟨⟨h.prim, h.cons, h.keys, h.params, rfl⟩, rfl⟩
  · exact checkAndStore_rel h hc ks hp key

/-- Related calls. -/
inductive OpRel' (R RC : K0 → K → Prop) (G : Prim K0 → Prop) : LayoutOp K0 → LayoutOp K → Prop
  | addPrim {p p'} (h : PrRel R p p') (key) : OpRel' R RC G (.addPrim p key) (.addPrim p' key)
  | addPrims {ps ps'} (h : LRel (KRel (PrRel R)) ps ps') : OpRel' R RC G (.addPrims ps) (.addPrims ps')
  | addConstraint {c c'} (hc : CRel R RC G c c') (ks) {ps ps'} (hp : LRel (PaRel RC) ps ps') (key) :
    OpRel' R RC G (.addConstraint c ks ps key) (.addConstraint c' ks ps' key)

theorem run_rel {ops : List (LayoutOp K0)} {ops' : List (LayoutOp K)} (ho : LRel (OpRel' R RC G) ops ops') :
    ∀ {l : Layout K0} {l' : Layout K}, LyRel R RC G l l' → LyRel R RC G (l.run ops) (l'.run ops') := by
  induction ho with
  | nil => exact fun h => h
  | cons h1 _ ih =>
    intro l l' h
    simp only [Layout.run, List.foldl_cons]
    refine ih ?_
    cases h1 with
    | addPrim h2 key => exact (addPrim_rel h h2 key).1
    | addPrims h2 => exact (addPrims_rel h2 h).1
    | addConstraint hc ks hp key => exact (addConstraint_rel h hc ks hp key).1

/-! ## The residual -/

theorem residuals_rel {cs : List (Cons K0)} {cs' : List (Cons K)} (hc : LRel (CRel R RC G) cs cs') :
    ∀ {pss : List (List (Prim K0))} {pss' : List (List (Prim K))} {qss : List (List (Param K0))}
      {qss' : List (List (Param K))}, LRel (LRel (PrRel R)) pss pss' → (∀ ps ∈ pss, ∀ p ∈ ps, G p) →
      LRel (LRel (PaRel RC)) qss qss' →
      PyRel (LRel (LRel R)) (Cons.residuals cs pss qss) (Cons.residuals cs' pss' qss') := by
  induction hc with
  | nil => intro _ _ _ _ _ _ _; exact PyRel.ok .nil
  | cons h1 _ ih =>
    intro pss pss' qss qss' hp hG hq
    cases hp with
    | nil => exact PyRel.ok .nil
    | cons hp1 hp2 => cases hq with
      | nil => exact PyRel.ok .nil
      | cons hq1 hq2 =>
        refine PyRel.bind' (Q := LRel R) ?_ fun _ _ hr => PyRel.bind' (ih hp2 (fun ps h => hG ps
          (List.mem_cons_of_mem _ h)) hq2) fun _ _ hs => PyRel.ok (.cons hr hs)
        exact PyRel.bind' (h1.ty.assem _ _ _ _ hp1 (hG _ (List.mem_cons_self ..)) hq1) fun _ _ ha =>
          PyRel.ok ha.atleast1d

theorem residual_rel {l : Layout K0} {l' : Layout K} (h : LyRel R RC G l l') {root : Prim K0} {root' : Prim K}
    (hr : PrRel R root root') (hG : ∀ k q, root.getChild k = .ok q → G q) :
    PyRel (LRel R) (l.residual root) (l'.residual root') := by
  have hcs := (LRel.map (h.cons.iterFlat []) (f := (·.2)) (g := (·.2)) (Q' := CRel R RC G) fun _ _ h => h.2).drop 1
  have hps := (LRel.map (h.params.iterFlat []) (f := (·.2.value)) (g := (·.2.value)) (Q' := LRel (PaRel RC))
    fun _ _ h => h.2.value).drop 1
  simp only [Layout.residual, Layout.residualList, Layout.flatConstraints, h.keys, hcs.length, hps.length]
  refine PyRel.bind' (Q := LRel (LRel R)) ?_ fun _ _ h => h.npConcat
  refine PyRel.bind (Q := LRel (LRel (PrRel R))) (pyMap_rel (Q := Eq) (List.forall₂_same.mpr fun _ _ => rfl)
    fun a b _ e => by subst e; exact lookupPrims_rel hr a) fun pss pss' e _ hp => ?_
  refine residuals_rel hcs hp (fun ps hps p hp => ?_) hps
  obtain ⟨ks, -, hks⟩ := pyMap_ok_mem e hps
  obtain ⟨k, -, hk⟩ := pyMap_ok_mem hks hp
  exact hG k p hk

/-! ## The primitives from the parameter vector -/

theorem filterFold_rel {xs : List (Str × PVal K0)} {ys : List (Str × PVal K)} (h : LRel (KRel (PVRel R)) xs ys) :
    ∀ {s : FilterState Nat (PVal K0)} {s' : FilterState Nat (PVal K)}, s.valueIdToIdx = s'.valueIdToIdx →
      LRel (PVRel R) s.values s'.values → s.primToIdx = s'.primToIdx →
      (xs.foldl (filterStep PVal.id) s).primToIdx = (ys.foldl (filterStep PVal.id) s').primToIdx ∧
      LRel (PVRel R) (xs.foldl (filterStep PVal.id) s).values (ys.foldl (filterStep PVal.id) s').values := by
  induction h with
  | nil => exact fun _ h1 h2 => ⟨h2, h1⟩
  | @cons a b _ _ h _ ih =>
    obtain ⟨k1, a⟩ := a
    obtain ⟨k2, b⟩ := b
    obtain ⟨rfl, h2⟩ := h
    intro s s' e1 h1 e2
    simp only [List.foldl_cons]
    have hid : a.id = b.id := h2.1
    have hl := LRel.length h1
    apply ih
    · simp only [filterStep, e1, hid, hl]
      split <;> simp
    · simp only [filterStep, e1, hid]
      split
      · exact LRel.append h1 (.cons h2 .nil)
      · exact h1
    · simp only [filterStep, e1, hid, hl, e2]
      split <;> rfl

theorem filterUnique_rel {p : Prim K0} {p' : Prim K} (h : PrRel R p p') :
    (filterUnique PVal.id p).1 = (filterUnique PVal.id p').1 ∧
    LRel (PVRel R) (filterUnique PVal.id p).2 (filterUnique PVal.id p').2 :=
  filterFold_rel (LRel.map (h.iterFlat []) fun _ _ h => ⟨h.1, h.2.value⟩) rfl .nil rfl

theorem newStructs_rel (idx : List (Str × Nat)) {R' : K0 → K → Prop} {vs : List (PVal K0)} {vs' : List (PVal K)}
    (hv : LRel (PVRel R') vs vs') {fs : List (FlatStruct PrimType (PVal K0))} {fs' : List (FlatStruct PrimType (PVal K))}
    (hf : LRel (FRel Eq (PVRel R)) fs fs') :
    PyRel (LRel (FRel Eq (PVRel R'))) (newStructs idx vs fs) (newStructs idx vs' fs') := by
  induction hf with
  | nil => exact PyRel.ok .nil
  | cons h1 _ ih =>
    simp only [newStructs, h1.1]
    refine PyRel.bind' (Q := PVRel R') ?_ fun _ _ ha => PyRel.bind' ih fun _ _ hb =>
      PyRel.ok (.cons ⟨rfl, h1.2.1, ha, h1.2.2.2⟩ hb)
    simp only [lookupValue]
    split
    · rfl
    · rename_i i _
      have := hv.get? i
      revert this
      cases vs[i]? <;> cases vs'[i]? <;> intro this
      · rfl
      · exact this.elim
      · exact this.elim
      · exact this

theorem freshVals_rel (base : Nat) {vs : List (List K0)} {vs' : List (List K)} (h : LRel (LRel R) vs vs') :
    LRel (PVRel R) (Solver.freshVals base vs) (Solver.freshVals base vs') := by
  simp only [Solver.freshVals]
  induction h generalizing base with
  | nil => exact .nil
  | cons h1 _ ih =>
    simp only [List.mapIdx_cons]
    refine .cons ⟨rfl, h1⟩ ?_
    have := ih (base + 1)
    simpa only [Nat.add_assoc, Nat.add_comm 1] using this

theorem primValues_rel {l : Layout K0} {l' : Layout K} (h : LyRel R RC G l l') :
    LRel (LRel R) (Solver.primValues l) (Solver.primValues l') :=
  (filterUnique_rel h.prim).2.map fun _ _ h => h.2

theorem rebuild_rel {l : Layout K0} {l' : Layout K} (h : LyRel R RC G l l') {R' : K0 → K → Prop} (base : Nat)
    {g : List K0} {g' : List K} (hg : LRel R' g g') :
    PyRel (PrRel R') (Solver.rebuild l base g) (Solver.rebuild l' base g') := by
  have hi : idxBounds (Solver.primValues l) = idxBounds (Solver.primValues l') := by
    simp only [idxBounds]
    rw [(primValues_rel h).map_eq fun _ _ h => LRel.length h]
  simp only [Solver.rebuild, buildPrim, hi, (filterUnique_rel h.prim).1]
  exact PyRel.bind' (newStructs_rel _ (freshVals_rel base (hg.unpack _)) (h.prim.flatten [])) fun _ _ hs =>
    PyRel.bind' (unflatten_rel hs) fun _ _ hr => PyRel.ok hr.1

theorem globalRes_rel {l : Layout K0} {l' : Layout K} (h : LyRel R RC G l l') (base : Nat) {g : List K0}
    {g' : List K} (hg : LRel R g g')
    (hG : ∀ root, Solver.rebuild l base g = .ok root → ∀ k q, root.getChild k = .ok q → G q) :
    PyRel (LRel R) (Solver.globalRes l base g) (Solver.globalRes l' base g') :=
  PyRel.bind (rebuild_rel h base hg) fun _ _ e _ hr => residual_rel h hr (hG _ e)

end MplLayout
