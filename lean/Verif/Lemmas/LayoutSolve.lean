import Verif.Lemmas.IdFree
import Verif.Lemmas.Affine
import Verif.Lemmas.LayoutRefs
import Verif.Lemmas.ShippedFits

/-!
# The residual of a layout as a function of the primitives
-/

namespace MplLayout

open Flt Cons

section allN
variable {K τ α : Type}

theorem AllN.addChild {P : τ → α → Prop} {n n' c : Node τ α} {key : Str}
    (h : n.addChild key c = .ok n') (hn : n.WF) (hc : c.WF) (h1 : AllN P n) (h2 : AllN P c) :
    AllN P n' := by
  intro p m hm
  rw [← Node.find_iff_At (Node.addChild_WF h hn hc)] at hm
  rcases Node.addChild_find_cases h hm with ⟨r, rfl, hr⟩ | ⟨_, m0, hm0, hty, hv⟩
  · exact h2 r m (Node.At_of_find hr)
  · rw [hty, hv]; exact h1 p m0 (Node.At_of_find hm0)

theorem storeKeys_cons (l : Layout K) (c : Cons K) (primKeys : List Str) (param : List (Param K))
    (key : Str) : (l.storeKeys c primKeys param key).1.cons = l.cons := by
  unfold Layout.storeKeys
  split
  · unfold Layout.storeParams
    split <;> rfl
  · rfl

theorem checkAndStore_all {P : ConsPred K} {l : Layout K} (hl : l.Wf) (h : AllN P l.cons)
    {c : Cons K} (hc : c.WF) (hP : AllN P c) (primKeys : List Str) (param : List (Param K))
    (key : Str) : AllN P (l.checkAndStore c primKeys param key).1.cons := by
  unfold Layout.checkAndStore
  split
  · unfold Layout.store
    split
    · next e => rw [storeKeys_cons]; exact AllN.addChild e hl.cons hc h hP
    · exact h
  · exact h

theorem run_all {P : ConsPred K} (hroot : P rootClass rootVal) {ops : List (LayoutOp K)}
    (ht : ∀ op ∈ ops, op.Trees)
    (hP : ∀ c ks ps k, LayoutOp.addConstraint c ks ps k ∈ ops → AllN P c) (id : Nat) :
    AllN P ((Layout.empty id).run ops).cons := by
  have key : ∀ (l : Layout K), l.Wf → AllN P l.cons → AllN P (l.run ops).cons := by
    induction ops with
    | nil => intro l _ h; exact h
    | cons op ops ih =>
      intro l hl h
      have ht0 := ht op (by simp)
      refine ih (fun o ho => ht o (List.mem_cons_of_mem _ ho))
        (fun c ks ps k hm => hP c ks ps k (List.mem_cons_of_mem _ hm)) _ (hl.step ht0).1 ?_
      cases op with
      | addPrim prim key => show AllN P (l.addPrim prim key).1.cons; rw [(Layout.addPrim_rest l prim key).1]; exact h
      | addPrims prims => show AllN P (l.addPrims prims).1.cons; rw [(Layout.addPrims_rest l prims).1]; exact h
      | addConstraint c ks ps k =>
        obtain ⟨hw, hn⟩ := ht0
        obtain ⟨ctr, key', _, _, e⟩ := l.addConstraint_cases hn ks ps k
        show AllN P (l.addConstraint c ks ps k).1.cons
        rw [e]
        exact checkAndStore_all (l := { l with counter := ctr }) ⟨hl.prim, hl.cons, hl.keys, hl.params⟩ h hw
          (hP c ks ps k (by simp)) ks ps key'
  refine key _ (Layout.Inv.empty id).wf ?_
  rw [Layout.empty, AllN_mk]
  exact ⟨hroot, by simp⟩

end allN

theorem nodup_unique {β : Type} {cs : List (Str × β)} (h : (cs.map (·.1)).Nodup) {k : Str} {a b : β}
    (ha : (k, a) ∈ cs) (hb : (k, b) ∈ cs) : a = b := by
  have e1 := dictGet_of_mem h ha
  rw [dictGet_of_mem h hb] at e1
  exact (Option.some.inj e1).symm

/-! ## Identities do not matter -/

section noId
variable {K : Type} [PyNum K]

theorem residuals_noId {cs : List (Cons K)} (hcs : ∀ c ∈ cs, NIP c.ty c.value) :
    ∀ (pss : List (List (Prim K))) (qss : List (List (Param K))),
      residuals cs (pss.map (List.map noId)) qss = residuals cs pss qss := by
  induction cs with
  | nil => intro pss qss; simp [residuals]
  | cons c cs ih =>
    intro pss qss
    cases pss with
    | nil => simp [residuals]
    | cons ps pss =>
      cases qss with
      | nil => simp [residuals]
      | cons q qss =>
        have h : c.ty.assem (ps.map noId) q = c.ty.assem ps q := hcs c (by simp) q ps
        simp only [List.map_cons, residuals, assemAtleast1d, h,
          ih (fun c h => hcs c (by simp [h])) pss qss]

theorem flatCons_mem {P : ConsPred K} {l : Layout K} (h : AllN P l.cons) {c : Cons K}
    (hc : c ∈ l.flatConstraints.1) : P c.ty c.value := by
  have := List.mem_of_mem_drop hc
  obtain ⟨kc, hkc, rfl⟩ := List.mem_map.mp this
  exact h.iterFlat [] kc hkc

theorem residual_noId {l : Layout K} (h : AllN NIP l.cons) (root : Prim K) :
    l.residual (noId root) = l.residual root := by
  have hlk : ∀ ks, lookupPrims (noId root) ks = (lookupPrims root ks).map (List.map noId) := fun ks =>
    pyMap_map_comm _ _ _ (fun k => noId_getChild root k) ks
  simp only [Layout.residual, Layout.residualList]
  rw [pyMap_map_comm _ _ _ hlk]
  generalize pyMap (lookupPrims root) _ = x
  cases x with
  | error e => rfl
  | ok pss =>
    simp only [Except.map, bind, Except.bind]
    rw [residuals_noId fun c hc => flatCons_mem h hc]

theorem At_mapV {τ α β : Type} (f : α → β) {n : Node τ α} {p : List Str} {m : Node τ β} :
    (n.mapV f).At p m ↔ ∃ m0, n.At p m0 ∧ m = m0.mapV f := by
  induction p generalizing n with
  | nil =>
    constructor
    · intro h; cases h; exact ⟨n, .here _, rfl⟩
    · rintro ⟨m0, h, rfl⟩; cases h; exact .here _
  | cons k p ih =>
    constructor
    · intro h
      generalize hn : n.mapV f = n' at h
      cases h with
      | down hc hm =>
        rw [← hn, Node.children_mapV] at hc
        obtain ⟨kc, hkc, e⟩ := List.mem_map.mp hc
        cases e
        obtain ⟨m0, h1, h2⟩ := ih.mp hm
        exact ⟨m0, .down hkc h1, h2⟩
    · rintro ⟨m0, h, rfl⟩
      cases h with
      | down hc hm =>
        refine .down (c := _) ?_ (ih.mpr ⟨m0, hm, rfl⟩)
        rw [Node.children_mapV]
        exact List.mem_map.mpr ⟨_, hc, rfl⟩

theorem WF_mapV {τ α β : Type} (f : α → β) {n : Node τ α} (h : n.WF) : (n.mapV f).WF := by
  intro p m hm
  obtain ⟨m0, h1, rfl⟩ := (At_mapV f).mp hm
  rw [Node.keys_mapV]
  exact h p m0 h1

/-- A tree is determined by its nodes' classes, values and keys. -/
theorem ext_At {τ α : Type} {a b : Node τ α} (ha : a.WF) (hb : b.WF)
    (h1 : ∀ p, (∃ m, a.At p m) ↔ ∃ m, b.At p m)
    (h2 : ∀ p m m', a.At p m → b.At p m' → m.ty = m'.ty ∧ m.keys = m'.keys ∧ m.value = m'.value) :
    a = b := by
  induction a using Node.induct generalizing b with
  | _ t v cs ih =>
    cases b with
    | mk t' v' cs' =>
      obtain ⟨e1, e2, e3⟩ := h2 [] _ _ (.here _) (.here _)
      simp only [Node.ty_mk, Node.keys_mk, Node.value_mk] at e1 e2 e3
      subst e1 e3
      rw [Node.WF_mk] at ha hb
      congr 1
      apply List.ext_getElem?
      intro i
      have h2i := congrArg (·[i]?) e2
      simp only [List.getElem?_map] at h2i
      cases e : cs[i]? with
      | none =>
        rw [e] at h2i
        cases e' : cs'[i]? with
        | none => rfl
        | some x => rw [e'] at h2i; cases h2i
      | some x =>
        rw [e] at h2i
        cases e' : cs'[i]? with
        | none => rw [e'] at h2i; cases h2i
        | some y =>
          rw [e'] at h2i
          obtain ⟨k, c⟩ := x
          obtain ⟨k', c'⟩ := y
          simp only [Option.map_some, Option.some.injEq] at h2i
          subst h2i
          have hm := List.mem_of_getElem? e
          have hm' := List.mem_of_getElem? e'
          simp only [Option.some.injEq, Prod.mk.injEq, true_and]
          refine ih k c hm (ha.2 _ _ hm) (hb.2 _ _ hm') ?_ ?_
          · intro p
            constructor
            · rintro ⟨m, hm1⟩
              obtain ⟨m', hm2⟩ := (h1 (k :: p)).mp ⟨m, .down hm hm1⟩
              cases hm2 with
              | down hc hm3 =>
                have := nodup_unique hb.1 hc hm'
                subst this
                exact ⟨_, hm3⟩
            · rintro ⟨m, hm1⟩
              obtain ⟨m', hm2⟩ := (h1 (k :: p)).mpr ⟨m, .down hm' hm1⟩
              cases hm2 with
              | down hc hm3 =>
                have := nodup_unique ha.1 hc hm
                subst this
                exact ⟨_, hm3⟩
          · intro p m m' hp hp'
            exact h2 (k :: p) m m' (.down hm hp) (.down hm' hp')

theorem geometry_noId {a b : Prim K} (ha : a.WF) (hb : b.WF) (h : SameGeometry a b) :
    noId a = noId b := by
  refine ext_At (WF_mapV _ ha) (WF_mapV _ hb) (fun p => ?_) (fun p m m' hm hm' => ?_)
  · constructor
    · rintro ⟨m, hm⟩
      obtain ⟨m0, h0, rfl⟩ := (At_mapV _).mp hm
      obtain ⟨m1, h1⟩ := (h.1 p).mp ⟨m0, h0⟩
      exact ⟨_, (At_mapV _).mpr ⟨m1, h1, rfl⟩⟩
    · rintro ⟨m, hm⟩
      obtain ⟨m0, h0, rfl⟩ := (At_mapV _).mp hm
      obtain ⟨m1, h1⟩ := (h.1 p).mpr ⟨m0, h0⟩
      exact ⟨_, (At_mapV _).mpr ⟨m1, h1, rfl⟩⟩
  · obtain ⟨m0, h0, rfl⟩ := (At_mapV _).mp hm
    obtain ⟨m1, h1, rfl⟩ := (At_mapV _).mp hm'
    obtain ⟨e1, e2, e3⟩ := h.2 p m0 m1 h0 h1
    simp only [Node.ty_mapV, Node.keys_mapV, Node.value_mapV, e1, e2, e3, true_and]

theorem residual_geometry {l : Layout K} (h : AllN NIP l.cons) {a b : Prim K} (ha : a.WF)
    (hb : b.WF) (hab : SameGeometry a b) : l.residual a = l.residual b := by
  rw [← residual_noId h a, ← residual_noId h b, geometry_noId ha hb hab]

end noId

/-! ## Primitives that depend on a parameter -/

section tame
variable {X α : Type} {A : (X → Flt) → Prop} {f : X → α → PVal Flt} {G : Node PrimType α → Prop}

/-- A list of vectors at one parameter. -/
def evL (x : X) (r : List (List (X → Flt))) : List (List Flt) := r.map (List.map (· x))

theorem residuals_tame {cs : List (Cons Flt)} (hcs : ∀ c ∈ cs, TameP A f G c.ty c.value) :
    ∀ (pss : List (List (Node PrimType α))) (qss : List (List (Param Flt))),
      (∀ ps ∈ pss, ∀ p ∈ ps, G p) → ∃ r : Py (List (List (X → Flt))),
        (∀ x, residuals cs (pss.map (List.map (·.mapV (f x)))) qss = r.map (evL x)) ∧
        ∀ a, r = .ok a → ∀ v ∈ a, ∀ g ∈ v, A g := by
  induction cs with
  | nil => intro pss qss _; exact ⟨.ok [], fun x => by simp [residuals]; rfl, by simp⟩
  | cons c cs ih =>
    intro pss qss hG
    cases pss with
    | nil => exact ⟨.ok [], fun x => by simp [residuals]; rfl, by simp⟩
    | cons ps pss =>
      cases qss with
      | nil => exact ⟨.ok [], fun x => by simp [residuals]; rfl, by simp⟩
      | cons q qss =>
        obtain ⟨r0, h1, h2⟩ := hcs c (by simp) q ps (hG ps (by simp))
        obtain ⟨r1, h3, h4⟩ := ih (fun c h => hcs c (by simp [h])) pss qss
          fun ps h => hG ps (by simp [h])
        simp only [List.map_cons, residuals, assemAtleast1d, h1, h3]
        cases r0 with
        | error e => exact ⟨.error e, fun x => rfl, by simp⟩
        | ok a =>
          cases r1 with
          | error e => exact ⟨.error e, fun x => rfl, by simp⟩
          | ok b =>
            refine ⟨.ok (a.atleast1d :: b), fun x => ?_, fun a' e => ?_⟩
            · simp only [Except.map, bind, Except.bind, evL, List.map_cons, evA_atleast1d]
            · cases e
              intro v hv
              rcases List.mem_cons.mp hv with rfl | hv
              · exact h2 a rfl
              · exact h4 b rfl v hv

theorem residual_tame {l : Layout Flt} (h : AllN (TameP A f G) l.cons) (root : Node PrimType α)
    (hroot : ∀ k p, root.getChild k = .ok p → G p) :
    ∃ r : Py (List (X → Flt)), (∀ x, l.residual (root.mapV (f x)) = r.map (List.map (· x))) ∧
      ∀ a, r = .ok a → ∀ g ∈ a, A g := by
  have hm : ∀ (ks : List Str), ∃ r : Py (List (Node PrimType α)), (∀ x,
      lookupPrims (root.mapV (f x)) ks = r.map (List.map (·.mapV (f x)))) ∧
      ∀ ps, r = .ok ps → ∀ p ∈ ps, G p := by
    intro ks
    refine ⟨pyMap root.getChild ks, fun x => ?_, fun ps e p hp => ?_⟩
    swap
    · obtain ⟨k, _, hk⟩ := pyMap_ok_mem e hp
      exact hroot k p hk
    induction ks with
    | nil => rfl
    | cons k ks ih =>
      simp only [lookupPrims, pyMap, Node.getChild_mapV] at ih ⊢
      rw [ih]
      cases root.getChild k with
      | error e => rfl
      | ok y => cases pyMap root.getChild ks <;> rfl
  have hmm : ∀ (kss : List (List Str)), ∃ r : Py (List (List (Node PrimType α))), (∀ x,
      pyMap (lookupPrims (root.mapV (f x))) kss = r.map (List.map (List.map (·.mapV (f x))))) ∧
      ∀ pss, r = .ok pss → ∀ ps ∈ pss, ∀ p ∈ ps, G p := by
    intro kss
    induction kss with
    | nil => exact ⟨.ok [], fun x => rfl, by simp⟩
    | cons ks kss ih =>
      obtain ⟨r, hr, hg⟩ := ih
      obtain ⟨r', hr', hg'⟩ := hm ks
      refine ⟨do let a ← r'; let b ← r; .ok (a :: b), fun x => ?_, fun pss e ps hps => ?_⟩
      swap
      · simp only [py_bind_ok] at e
        obtain ⟨a, ha, b, hb, e⟩ := e
        cases e
        rcases List.mem_cons.mp hps with rfl | hps
        · exact hg' _ ha
        · exact hg _ hb ps hps
      simp only [pyMap, hr, hr']
      cases r' with
      | error e => rfl
      | ok y => cases r <;> rfl
  simp only [Layout.residual, Layout.residualList]
  generalize l.flatConstraints.2.1.take (min l.flatConstraints.1.length (min l.flatConstraints.2.1.length
    l.flatConstraints.2.2.length)) = kss
  obtain ⟨r, hr, hg⟩ := hmm kss
  simp only [hr]
  cases r with
  | error e => exact ⟨.error e, fun x => rfl, by simp⟩
  | ok pss =>
    obtain ⟨r1, h1, h2⟩ := residuals_tame (A := A) (f := f) (G := G) (cs := l.flatConstraints.1)
      (fun c hc => flatCons_mem h hc) pss l.flatConstraints.2.2 (hg pss rfl)
    simp only [Except.map, bind, Except.bind, h1]
    cases r1 with
    | error e => exact ⟨.error e, fun x => rfl, by simp⟩
    | ok a =>
      by_cases ha : a = []
      · subst ha
        exact ⟨.error .valueError, fun x => rfl, by simp⟩
      · refine ⟨.ok a.flatten, fun x => ?_, fun b e => ?_⟩
        · simp [npConcat, evL, ha, List.map_flatten]
        · cases e
          intro g hg
          obtain ⟨v, hv, hg⟩ := List.mem_flatten.mp hg
          exact h2 a rfl v hv g hg

end tame

end MplLayout
