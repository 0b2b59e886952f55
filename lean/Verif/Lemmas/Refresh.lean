import Verif.Spec.Refresh
import Verif.Props.LayoutUpdate

/-! `update_layout_constraints` gives the layout that the same calls with the current axes give. -/

namespace MplLayout

open Node Cons Flt

section trees
variable {τ σ α β : Type}

theorem Node.containsPath_rmap (b : σ) (f : α → β) (n : Node τ α) (p : List Str) :
    (n.rmap b f).containsPath p = n.containsPath p := by
  induction p generalizing n with
  | nil => rfl
  | cons k p ih =>
    simp only [containsPath, children_rmap, dictHas, dictGet_mapVal, Option.isSome_map]
    split
    · rfl
    · cases dictGet n.children k with
      | none => rfl
      | some c => exact ih c

theorem Node.contains_skel {n : Node τ α} {m : Node σ β} (h : n.skel = m.skel) :
    n.contains = m.contains := by
  funext key
  have h1 := containsPath_rmap () (fun _ => ()) n (splitAll key)
  have h2 := containsPath_rmap () (fun _ => ()) m (splitAll key)
  rw [show n.rmap () (fun _ => ()) = m.rmap () (fun _ => ()) from h] at h1
  exact h1.symm.trans h2

theorem Node.keys_skel {n : Node τ α} {m : Node σ β} (h : n.skel = m.skel) : n.keys = m.keys := by
  have h1 := rmap_keys () (fun _ => ()) n
  have h2 := rmap_keys () (fun _ => ()) m
  rw [show n.rmap () (fun _ => ()) = m.rmap () (fun _ => ()) from h] at h1
  exact h1.symm.trans h2

theorem Node.len_skel {n : Node τ α} {m : Node σ β} (h : n.skel = m.skel) : n.len = m.len := by
  have := congrArg List.length (keys_skel h)
  simpa [Node.keys, Node.len] using this

/-- Two trees of one shape with the same values at all paths are the same. -/
theorem Node.ext_find {n m : Node Unit α} (hn : n.WF) (h : n.skel = m.skel)
    (hv : ∀ p, (n.find p).map Node.value = (m.find p).map Node.value) : n = m := by
  induction n using induct generalizing m with
  | _ t v cs ih =>
    obtain ⟨t', v', ds⟩ := m
    have h0 := hv []
    simp only [find, Option.map_some, value_mk, Option.some.injEq] at h0
    subst h0
    have hk : cs.map (·.1) = ds.map (·.1) := keys_skel h
    congr 1
    have hnd : (cs.map (·.1)).Nodup := by
      have := WF_mk.mp hn
      exact this.1
    have hch : ∀ k c, (k, c) ∈ cs → ∀ d, (k, d) ∈ ds → c = d := by
      intro k c hc d hd
      have g1 : dictGet cs k = some c := dictGet_of_mem hnd hc
      have g2 : dictGet ds k = some d := dictGet_of_mem (hk ▸ hnd) hd
      refine ih k c hc ((WF_mk.mp hn).2 k c hc) ?_ fun p => ?_
      · have h1 := find_rmap () (fun _ => ()) (.mk t v cs) [k]
        have h2 := find_rmap () (fun _ => ()) (.mk t' v ds) [k]
        rw [show (Node.mk t v cs).rmap () (fun _ => ()) = (Node.mk t' v ds).rmap () (fun _ => ()) from h,
          h2] at h1
        simp only [find, children_mk, g1, g2, Option.map_some, Option.some.injEq] at h1
        exact h1.symm
      · have := hv (k :: p)
        simpa only [find, children_mk, g1, g2] using this
    clear hv ih hn h
    induction cs generalizing ds with
    | nil => cases ds with
      | nil => rfl
      | cons _ _ => cases hk
    | cons c cs ih =>
      cases ds with
      | nil => cases hk
      | cons d ds =>
        obtain ⟨k, c⟩ := c
        obtain ⟨k', d⟩ := d
        simp only [List.map_cons, List.cons.injEq] at hk
        obtain ⟨rfl, hk⟩ := hk
        rw [hch k c (by simp) d (by simp)]
        congr 1
        simp only [List.map_cons, List.nodup_cons] at hnd
        exact ih ds hk hnd.2 fun k2 c2 hc2 d2 hd2 =>
          hch k2 c2 (List.mem_cons_of_mem _ hc2) d2 (List.mem_cons_of_mem _ hd2)

/-- What is where after `add_child` at the top level. -/
theorem Node.find_top {n c n' : Node τ α} {key : Str} (hk : '/' ∉ key) (h : n.addChild key c = .ok n')
    (k : Str) (p : List Str) :
    key ∉ n.keys ∧ n'.value = n.value ∧
      n'.find (k :: p) = if k = key then c.find p else n.find (k :: p) := by
  obtain ⟨m, e1, e2, _⟩ := Node.addChild_ok h
  rw [(noslash_iff_dropLast key).mp hk] at e1
  have e3 : (splitAll key).getLastD [] = key := by rw [splitAll_noslash hk]; rfl
  rw [e3] at e2
  cases e1
  rw [Layout.addChild_top _ _ hk e2] at h
  cases h
  refine ⟨e2, rfl, ?_⟩
  have : ∀ d : List (Str × Node τ α), key ∉ d.map (·.1) → 
      dictGet (d ++ [(key, c)]) k = if k = key then some c else dictGet d k := by
    intro d hd
    induction d with
    | nil => by_cases hkk : k = key <;> simp [dictGet, hkk]; exact fun h => hkk h.symm
    | cons a d ih =>
      obtain ⟨a, x⟩ := a
      simp only [List.map_cons, List.mem_cons, not_or] at hd
      simp only [List.cons_append, dictGet]
      rw [ih hd.2]
      by_cases h1 : a = k
      · subst h1
        rw [if_pos rfl, if_neg fun h => hd.1 h.symm, if_pos rfl]
      · simp only [h1, if_false]
  simp only [find, children_mk]
  rw [this _ e2]
  by_cases hkk : k = key <;> simp only [hkk, if_true, if_false]

end trees

variable {axs : List (Str × MplAxes Flt)}

/-- The parameters `pt'` of a constraint that had the parameters `pt` before the update. -/
def Upd (axs : List (Str × MplAxes Flt)) (c : Cons Flt) (ks : List Str) (pt pt' : ParamsNode Flt) : Prop :=
  (c.ty.axisKind = none ∧ pt' = pt) ∨
  ∃ kind v, c.ty.axisKind = some kind ∧ thicknessEntry axs kind ks v ∧ Cons.rootParams c v = .ok pt'

/-- The layout of the calls and the layout of the calls with the current axes. -/
structure Sim (axs : List (Str × MplAxes Flt)) (l r : Layout Flt) : Prop where
  prim : r.prim = l.prim
  cons : r.cons = l.cons
  keys : r.keys = l.keys
  counter : r.counter = l.counter
  root : r.params.value = l.params.value
  skel : r.params.skel = l.params.skel
  child : ∀ k c ks pt pt', l.cons.find [k] = some c → l.keys.find [k] = some ks →
    l.params.find [k] = some pt → r.params.find [k] = some pt' → Upd axs c ks.value pt pt'

theorem Sim.refl_empty (id : Nat) : Sim axs (Layout.empty id) (Layout.empty id) :=
  ⟨rfl, rfl, rfl, rfl, rfl, rfl, by intro k c ks pt pt' h; cases h⟩

theorem check_len (l : Layout Flt) (c : Cons Flt) (ks : List Str) {ps ps' : List (Param Flt)}
    (h : ps.length = ps'.length) : l.check c ks ps = l.check c ks ps' := by
  simp only [Layout.check, Cons.validateParams, h]

theorem Sim.autoKey {l r : Layout Flt} (h : Sim axs l r) (c : Cons Flt) : r.autoKey c = l.autoKey c := by
  simp only [Layout.autoKey, Layout.counterFuel, h.cons, h.keys, h.counter, contains_skel h.skel,
    len_skel h.skel]

theorem Sim.store {l r : Layout Flt} (h : Sim axs l r) (hl : l.Inv) (hr : r.Inv) {c : Cons Flt}
    {ks : List Str} {ps ps' : List (Param Flt)} (hlen : ps.length = ps'.length)
    (hf : ks.length = c.value.sig.primTypes.length → ps.length = c.value.sig.paramTypes.length →
      c.Fits ks ps)
    (hf' : ks.length = c.value.sig.primTypes.length → ps'.length = c.value.sig.paramTypes.length →
      c.Fits ks ps')
    (hu : ∀ pt pt', Cons.rootParams c ps = .ok pt → Cons.rootParams c ps' = .ok pt' → Upd axs c ks pt pt')
    {key : Str} (hk : '/' ∉ key) :
    Sim axs (l.checkAndStore c ks ps key).1 (r.checkAndStore c ks ps' key).1 := by
  have hck : r.check c ks ps' = l.check c ks ps := by
    rw [check_len l c ks hlen]
    simp only [Layout.check, h.prim]
  unfold Layout.checkAndStore
  rw [hck]
  cases hc : l.check c ks ps with
  | error e => exact h
  | ok u =>
    simp only
    obtain ⟨e1, e2⟩ := Layout.accepts_lengths hc
    rcases Layout.store_cases hl (hf e1 e2) key with ⟨e, a1, a2⟩ | ⟨cons, keys, params, kt, pt, a1, a2, a3, a4, a5, a6, a7⟩
    · rcases Layout.store_cases hr (hf' e1 (hlen ▸ e2)) key with ⟨e', b1, b2⟩ | ⟨cons', keys', params', kt', pt', b1, b2, b3, b4, b5, b6, b7⟩
      · rw [a2, b2]; exact h
      · rw [h.cons, a1] at b1; cases b1
    · rcases Layout.store_cases hr (hf' e1 (hlen ▸ e2)) key with ⟨e', b1, b2⟩ | ⟨cons', keys', params', kt', pt', b1, b2, b3, b4, b5, b6, b7⟩
      · rw [h.cons, a1] at b1; cases b1
      · rw [a6, b6]
        rw [h.cons, a1] at b1; cases b1
        rw [a2] at b2; cases b2
        rw [h.keys, a4] at b4; cases b4
        refine ⟨h.prim, rfl, rfl, h.counter, ?_, b7.params.symm.trans a7.params, ?_⟩
        · show params'.value = params.value
          rw [(find_top hk a5 [] []).2.1, (find_top hk b5 [] []).2.1, h.root]
        · intro k c2 ks2 q q' g1 g2 g3 g4
          simp only at g1 g2 g3 g4
          rw [(find_top hk a1 k []).2.2] at g1
          rw [(find_top hk a4 k []).2.2] at g2
          rw [(find_top hk a5 k []).2.2] at g3
          rw [(find_top hk b5 k []).2.2] at g4
          by_cases hkk : k = key
          · rw [if_pos hkk] at g1 g2 g3 g4
            simp only [find, Option.some.injEq] at g1 g2 g3 g4
            subst g1 g2 g3 g4
            have : kt.value = ks := by
              cases c
              simp only [rootPrimKeys, py_bind_ok] at a2
              obtain ⟨_, _, _, _, e⟩ := a2
              cases e; rfl
            rw [this]
            exact hu _ _ a3 b3
          · rw [if_neg hkk] at g1 g2 g3 g4
            exact h.child k c2 ks2 q q' g1 g2 g3 g4

theorem Sim.addConstraint {l r : Layout Flt} (h : Sim axs l r) (hl : l.Inv) (hr : r.Inv) {c : Cons Flt}
    (hn : '/' ∉ c.ty.name) {ks : List Str} {ps ps' : List (Param Flt)} (hlen : ps.length = ps'.length)
    (hf : ks.length = c.value.sig.primTypes.length → ps.length = c.value.sig.paramTypes.length →
      c.Fits ks ps)
    (hf' : ks.length = c.value.sig.primTypes.length → ps'.length = c.value.sig.paramTypes.length →
      c.Fits ks ps')
    (hu : ∀ pt pt', Cons.rootParams c ps = .ok pt → Cons.rootParams c ps' = .ok pt' → Upd axs c ks pt pt')
    {key : Str} (hk : '/' ∉ key) :
    Sim axs (l.addConstraint c ks ps key).1 (r.addConstraint c ks ps' key).1 := by
  by_cases h0 : key = []
  · obtain ⟨ctr, k, h1, _⟩ := l.autoKey_eq c hn
    simp only [Layout.addConstraint, h0, if_true, h.autoKey, h1]
    have h' : Sim axs { l with counter := ctr } { r with counter := ctr } :=
      ⟨h.prim, h.cons, h.keys, rfl, h.root, h.skel, h.child⟩
    exact h'.store (hl.counter ctr) (hr.counter ctr) hlen hf hf' hu (by simp [hn, slash_notMem_natStr])
  · simp only [Layout.addConstraint, h0, if_false]
    exact Sim.store h hl hr hlen hf hf' hu hk

theorem Sim.addPrim {l r : Layout Flt} (h : Sim axs l r) (p : Prim Flt) (key : Str) :
    Sim axs (l.addPrim p key).1 (r.addPrim p key).1 ∧ (l.addPrim p key).2 = (r.addPrim p key).2 := by
  unfold Layout.addPrim
  rw [h.prim]
  cases l.prim.addChild key p with
  | error e => exact ⟨h, rfl⟩
  | ok root => exact ⟨⟨rfl, h.cons, h.keys, h.counter, h.root, h.skel, h.child⟩, rfl⟩

theorem Sim.addPrims {l r : Layout Flt} (h : Sim axs l r) (ps : List (Str × Prim Flt)) :
    Sim axs (l.addPrims ps).1 (r.addPrims ps).1 := by
  induction ps generalizing l r with
  | nil => exact h
  | cons kp ps ih =>
    obtain ⟨key, p⟩ := kp
    obtain ⟨h1, h2⟩ := h.addPrim p key
    simp only [Layout.addPrims]
    rcases e : l.addPrim p key with ⟨l', o⟩
    rcases e' : r.addPrim p key with ⟨r', o'⟩
    rw [e, e'] at h1 h2
    simp only at h1 h2
    subst h2
    cases o with
    | error e => exact h1
    | ok u => exact ih h1

theorem withAxes_sensible {op op' : LayoutOp Flt} (h : op.WithAxes axs op') (hs : op.Sensible) :
    op'.Sensible := by
  cases h with
  | same _ => exact hs
  | @thickness kind c axisKey name rest ax t p key hc hn hax ht =>
    refine ⟨.axisThickness kind, hc, trivial, ?_⟩
    intro q hq
    rw [List.mem_singleton] at hq
    exact .inr ⟨_, t, hq, ht⟩

theorem entry_of {kind : AxisKind} {axisKey name : Str} {rest : List Str} {ax : MplAxes Flt}
    (hn : splitAll axisKey = name :: rest) (hax : dictGet axs name = some ax) :
    thicknessEntry axs kind [axisKey] [.axis (ax.axis kind)] := by
  obtain ⟨rest', e⟩ := Props.split1_head axisKey
  rw [hn] at e
  simp only [List.cons.injEq] at e
  refine ⟨axisKey, ax, rfl, ?_, ?_⟩
  · rw [← e.1]; exact hax
  · cases kind <;> rfl

theorem Sim.step {l r : Layout Flt} (h : Sim axs l r) (hl : l.Inv) (hr : r.Inv)
    {op op' : LayoutOp Flt} (hop : op.WithAxes axs op') (hs : op.Sensible) (ht : op.TopLevel) :
    Sim axs (l.step op).1 (r.step op').1 := by
  have hs' := withAxes_sensible hop hs
  cases hop with
  | @thickness kind c axisKey name rest ax t p key hc hn hax hm =>
    have g := Props.Sensible.regular hs
    have g' := Props.Sensible.regular hs'
    refine h.addConstraint (ps := [p]) (ps' := [.axis (ax.axis kind)]) hl hr g.1 rfl g.2 g'.2 ?_ ht
    intro pt pt' _ e2
    have : c = thicknessT kind := by rw [thickness_eq] at hc; cases hc; rfl
    subst this
    exact .inr ⟨kind, _, thickness_kind kind, entry_of hn hax, e2⟩
  | same hno =>
    cases op with
    | addPrim p key => exact (h.addPrim p key).1
    | addPrims ps => exact h.addPrims ps
    | addConstraint c ks ps key =>
      have g := Props.Sensible.regular hs
      refine h.addConstraint hl hr g.1 rfl g.2 g.2 ?_ ht
      intro pt pt' e1 e2
      rw [e1] at e2
      cases e2
      obtain ⟨s, e, _⟩ := hs
      rcases shipped_NN s e with hN | ⟨kind, rfl⟩
      · exact .inl ⟨(hN [] c (.here c)).1, rfl⟩
      · exact absurd (thickness_eq kind) (hno kind _ ks ps key rfl)

theorem Sim.run {ops ops' : List (LayoutOp Flt)} (hop : List.Forall₂ (LayoutOp.WithAxes axs) ops ops')
    (hs : ∀ op ∈ ops, op.Sensible) (ht : ∀ op ∈ ops, op.TopLevel) {l r : Layout Flt} (h : Sim axs l r)
    (hl : l.Inv) (hr : r.Inv) : Sim axs (l.run ops) (r.run ops') ∧ (l.run ops).Inv ∧ (r.run ops').Inv := by
  induction hop generalizing l r with
  | nil => exact ⟨h, hl, hr⟩
  | @cons op op' ops ops' h1 _ ih =>
    have hs1 := hs op (by simp)
    exact ih (fun o ho => hs o (List.mem_cons_of_mem _ ho)) (fun o ho => ht o (List.mem_cons_of_mem _ ho))
      (h.step hl hr h1 hs1 (ht op (by simp))) (hl.step (Props.Sensible.regular hs1))
      (hr.step (Props.Sensible.regular (withAxes_sensible h1 hs1)))

/-- The updated layout has the trees of the simulating one. -/
theorem Sim.update {l r : Layout Flt} (h : Sim axs l r) (htop : TopOK l) (hl : l.Inv) (hr : r.Inv) :
    ∃ l', updateLayoutConstraints l axs = .ok l' ∧ l'.SameTrees r := by
  have hthick := htop.thick hl
  have hat : ∀ {k : Str} {c : Cons Flt}, l.cons.At [k] c → ∃ ks pt pt', l.keys.find [k] = some ks ∧
      l.params.find [k] = some pt ∧ r.params.find [k] = some pt' ∧ Upd axs c ks.value pt pt' := by
    intro k c hc
    obtain ⟨ks, pt, e1, e2⟩ := hl.find hc
    obtain ⟨_, pt', _, e3⟩ := hr.find (h.cons ▸ hc)
    exact ⟨ks, pt, pt', e1, e2, e3, h.child k c ks pt pt' ((find_iff_At hl.cons).mpr hc) e1 e2 e3⟩
  -- thickness constraints are at the top level
  have hlevel : ∀ p (c : Cons Flt) kind, p ≠ [] → l.cons.At p c → c.ty.axisKind = some kind →
      ∃ k, p = [k] := by
    intro p c kind hp hc hk
    cases hc with
    | here => exact absurd rfl hp
    | @down _ d _ k p hd hm =>
      rcases (htop.child k d hd).2 with hN | ⟨kind', rfl⟩
      · rw [(hN p c hm).1] at hk; cases hk
      · cases hm with
        | here => exact ⟨k, rfl⟩
        | down hd' hm' => rw [((NN_thickness kind' _ _ hd').2 _ _ hm').1] at hk; cases hk
  obtain ⟨l', hu⟩ := hthick.update_total (axs := axs) fun p c kind ks hp hc hk hks => by
    obtain ⟨k, rfl⟩ := hlevel p c kind hp hc hk
    obtain ⟨ks', pt, pt', e1, e2, e3, e4⟩ := hat hc
    rw [← find_iff_At hl.keysWF, e1] at hks
    cases hks
    rcases e4 with ⟨e, _⟩ | ⟨kind', v, g1, g2, g3⟩
    · rw [e] at hk; cases hk
    · rw [g1] at hk; cases hk
      exact ⟨v, pt', g2, g3⟩
  refine ⟨l', hu, ?_⟩
  obtain ⟨h1, h2, h3, _, h5, h6, h7⟩ := hthick.update hu
  refine ⟨h1.trans h.prim.symm, h2.trans h.cons.symm, h3.trans h.keys.symm, ?_⟩
  have hsk : l'.params.skel = l.params.skel := by
    have a : Node.skel l'.cons = l'.params.skel := h5.params
    rw [h2] at a
    exact a.symm.trans hl.params
  refine ext_find h5.paramsWF (hsk.trans h.skel.symm) fun p => ?_
  -- compare the values at a path
  have hfr := find_rmap () (fun _ => ()) l'.params p
  have hfl := find_rmap () (fun _ => ()) l.params p
  have hfr2 := find_rmap () (fun _ => ()) r.params p
  rw [show l'.params.rmap () (fun _ => ()) = l.params.rmap () (fun _ => ()) from hsk, hfl] at hfr
  rw [show r.params.rmap () (fun _ => ()) = l.params.rmap () (fun _ => ()) from h.skel, hfl] at hfr2
  cases hm : l.params.find p with
  | none =>
    rw [hm] at hfr hfr2
    have a : l'.params.find p = none := by
      cases hx : l'.params.find p with
      | none => rfl
      | some _ => rw [hx] at hfr; cases hfr
    have b : r.params.find p = none := by
      cases hx : r.params.find p with
      | none => rfl
      | some _ => rw [hx] at hfr2; cases hfr2
    rw [a, b]
  | some m =>
    have hmAt := (find_iff_At hl.paramsWF).mp hm
    cases p with
    | nil =>
      obtain ⟨m', e1, e2⟩ := h7 [] m hmAt (fun q c hq hpre _ => absurd (List.prefix_nil.mp hpre) hq)
      rw [(find_iff_At h5.paramsWF).mpr e1]
      simp only [find, Option.some.injEq] at hm ⊢
      simp only [Option.map_some, e2, h.root, ← hm]
    | cons k p =>
      obtain ⟨c, hc⟩ : ∃ c, l.cons.At [k] c := by
        have : ∃ x, l.params.find [k] = some x := by
          rw [show k :: p = [k] ++ p by rfl, find_append] at hm
          cases hx : l.params.find [k] with
          | none => rw [hx] at hm; cases hm
          | some x => exact ⟨x, rfl⟩
        obtain ⟨x, hx⟩ := this
        have a := find_rmap () (fun _ => ()) l.cons [k]
        have b := find_rmap () (fun _ => ()) l.params [k]
        rw [show l.cons.rmap () (fun _ => ()) = l.params.rmap () (fun _ => ()) from hl.params, b, hx] at a
        cases hy : l.cons.find [k] with
        | none => rw [hy] at a; cases a
        | some c => exact ⟨c, At_of_find hy⟩
      obtain ⟨ks, pt, pt', e1, e2, e3, e4⟩ := hat hc
      rcases e4 with ⟨e, rfl⟩ | ⟨kind, v, g1, g2, g3⟩
      · obtain ⟨m', e5, e6⟩ := h7 (k :: p) m hmAt (by
          intro q d hq hpre hd
          cases hdk : d.ty.axisKind with
          | none => rfl
          | some kind =>
            obtain ⟨k', rfl⟩ := hlevel q d kind hq hd hdk
            obtain ⟨_, hpre⟩ := hpre
            simp only [List.singleton_append, List.cons.injEq] at hpre
            obtain ⟨rfl, -⟩ := hpre
            have : c = d := by
              rw [← find_iff_At hl.cons] at hc hd
              rw [hc] at hd; cases hd; rfl
            subst this
            rw [e] at hdk; cases hdk)
        rw [(find_iff_At h5.paramsWF).mpr e5, show k :: p = [k] ++ p by rfl, find_append, e3]
        rw [show k :: p = [k] ++ p by rfl, find_append, e2] at hm
        simp only [Option.bind_some] at hm ⊢
        rw [hm]
        simp only [Option.map_some, e6]
      · obtain ⟨ks', v', pt2, f1, f2, f3, f4⟩ := h6 [k] c kind (by simp) hc g1
        rw [← find_iff_At hl.keysWF, e1] at f1
        cases f1
        have hv : v' = v := by
          obtain ⟨ak, ax, x1, x2, x3⟩ := g2
          obtain ⟨ak', ax', y1, y2, y3⟩ := f2
          rw [x1] at y1; cases y1
          rw [x2] at y2; cases y2
          rw [x3, y3]
        subst hv
        rw [g3] at f3; cases f3
        rw [show k :: p = [k] ++ p by rfl, find_append, find_append, e3,
          (find_iff_At h5.paramsWF).mpr f4]

end MplLayout
