import Verif.Lemmas.Layout
import Verif.Lemmas.Transforms

/-! The residual of a layout in terms of calls of its constraints. -/

namespace MplLayout

variable {K : Type}

open Cons

theorem rootPrimKeysL_append {cs : List (Str × Cons K)} {kss : List (List Str)}
    {ns : List (Str × KeysNode)} (h : rootPrimKeysL cs kss = .ok ns) (hl : kss.length = cs.length)
    {k : Str} {c : Cons K} {ks : List Str} {n : KeysNode} (hc : rootPrimKeys c ks = .ok n) :
    rootPrimKeysL (cs ++ [(k, c)]) (kss ++ [ks]) = .ok (ns ++ [(k, n)]) := by
  induction cs generalizing kss ns with
  | nil =>
    obtain rfl : kss = [] := List.length_eq_zero_iff.mp hl
    simp only [rootPrimKeysL] at h
    cases h
    simp only [List.nil_append, rootPrimKeysL, hc]; rfl
  | cons kc cs ih =>
    cases kss with
    | nil => simp at hl
    | cons a kss =>
      obtain ⟨k', c'⟩ := kc
      simp only [rootPrimKeysL, py_bind_ok] at h
      obtain ⟨m, h1, ms, h2, h3⟩ := h
      cases h3
      simp only [List.cons_append, rootPrimKeysL, h1, ih h2 (by simpa using hl)]; rfl

theorem rootParamsL_append {cs : List (Str × Cons K)} {kss : List (List (Param K))}
    {ns : List (Str × ParamsNode K)} (h : rootParamsL cs kss = .ok ns) (hl : kss.length = cs.length)
    {k : Str} {c : Cons K} {ks : List (Param K)} {n : ParamsNode K} (hc : rootParams c ks = .ok n) :
    rootParamsL (cs ++ [(k, c)]) (kss ++ [ks]) = .ok (ns ++ [(k, n)]) := by
  induction cs generalizing kss ns with
  | nil =>
    obtain rfl : kss = [] := List.length_eq_zero_iff.mp hl
    simp only [rootParamsL] at h
    cases h
    simp only [List.nil_append, rootParamsL, hc]; rfl
  | cons kc cs ih =>
    cases kss with
    | nil => simp at hl
    | cons a kss =>
      obtain ⟨k', c'⟩ := kc
      simp only [rootParamsL, py_bind_ok] at h
      obtain ⟨m, h1, ms, h2, h3⟩ := h
      cases h3
      simp only [List.cons_append, rootParamsL, h1, ih h2 (by simpa using hl)]; rfl

namespace Layout

/-- The layout is exactly the constraints `as`, one after the other. -/
structure Top (l : Layout K) (as : List (Added K)) : Prop where
  inv : l.Inv
  cons : l.cons.children.map (·.2) = as.map (·.c)
  keys : rootPrimKeysL l.cons.children (as.map (·.primKeys)) = .ok l.keys.children
  params : rootParamsL l.cons.children (as.map (·.param)) = .ok l.params.children
  fits : ∀ a ∈ as, a.c.Fits a.primKeys a.param
  accepts : ∀ a ∈ as, ∃ prims,
    List.Forall₂ (fun k p => l.prim.getChild k = .ok p) a.primKeys prims ∧ a.c.Accepts prims a.param

theorem Top.empty (id : Nat) : (Layout.empty id : Layout K).Top [] :=
  ⟨Inv.empty id, rfl, rfl, rfl, by simp, by simp⟩

theorem getChild_extends {l l' : Prim K} (hl : l.WF) (hl' : l'.WF) (he : l'.Extends l) {k : Str}
    {p : Prim K} (h : l.getChild k = .ok p) : ∃ p', l'.getChild k = .ok p' ∧ p'.ty = p.ty ∧
      p'.value = p.value := by
  rw [Node.getChild_ok_iff, Node.find_iff_At hl] at h
  obtain ⟨p', h1, h2, h3⟩ := he _ _ h
  exact ⟨p', Node.getChild_ok_iff.mpr ((Node.find_iff_At hl').mpr h1), h2, h3⟩

theorem accepts_mono {l l' : Prim K} (he : ∀ k p, l.getChild k = .ok p →
      ∃ p', l'.getChild k = .ok p' ∧ p'.ty = p.ty) {c : Cons K} {ks : List Str}
    {param : List (Param K)}
    (h : ∃ prims, List.Forall₂ (fun k p => l.getChild k = .ok p) ks prims ∧ c.Accepts prims param) :
    ∃ prims, List.Forall₂ (fun k p => l'.getChild k = .ok p) ks prims ∧ c.Accepts prims param := by
  obtain ⟨prims, h1, h2, h3⟩ := h
  suffices ∀ ts : List PrimType, List.Forall₂ (fun (p : Prim K) t => p.ty.IsA t) prims ts →
      ∃ prims', List.Forall₂ (fun k p => l'.getChild k = .ok p) ks prims' ∧
        List.Forall₂ (fun (p : Prim K) t => p.ty.IsA t) prims' ts by
    obtain ⟨ps, e1, e2⟩ := this _ h2
    exact ⟨ps, e1, e2, h3⟩
  clear h2 h3
  induction h1 with
  | nil => intro ts h; exact ⟨[], .nil, by cases h; exact .nil⟩
  | cons h _ ih =>
    intro ts ht
    cases ht with
    | cons ha ht =>
      obtain ⟨ps, e1, e2⟩ := ih _ ht
      obtain ⟨p', e3, e4⟩ := he _ _ h
      exact ⟨p' :: ps, .cons e3 e1, .cons (e4 ▸ ha) e2⟩

theorem Top.prim {l l' : Layout K} {as : List (Added K)} (h : l.Top as) (hi : l'.Inv)
    (he : l'.prim.Extends l.prim) (hc : l'.cons = l.cons) (hk : l'.keys = l.keys)
    (hp : l'.params = l.params) : l'.Top as := by
  refine ⟨hi, by rw [hc]; exact h.cons, by rw [hc, hk]; exact h.keys,
    by rw [hc, hp]; exact h.params, h.fits, fun a ha => ?_⟩
  refine accepts_mono ?_ (h.accepts a ha)
  intro k p hg
  obtain ⟨p', h1, h2, _⟩ := getChild_extends h.inv.prim hi.prim he hg
  exact ⟨p', h1, h2⟩

theorem addPrim_rest (l : Layout K) (prim : Prim K) (key : Str) :
    (l.addPrim prim key).1.cons = l.cons ∧ (l.addPrim prim key).1.keys = l.keys ∧
      (l.addPrim prim key).1.params = l.params := by
  unfold Layout.addPrim
  cases l.prim.addChild key prim <;> exact ⟨rfl, rfl, rfl⟩

theorem addPrims_rest (l : Layout K) (prims : List (Str × Prim K)) :
    (l.addPrims prims).1.cons = l.cons ∧ (l.addPrims prims).1.keys = l.keys ∧
      (l.addPrims prims).1.params = l.params := by
  induction prims generalizing l with
  | nil => exact ⟨rfl, rfl, rfl⟩
  | cons kp ps ih =>
    obtain ⟨key, prim⟩ := kp
    have h := addPrim_rest l prim key
    simp only [Layout.addPrims]
    split
    · next h1 =>
      rw [h1] at h
      obtain ⟨e1, e2, e3⟩ := ih _
      exact ⟨e1.trans h.1, e2.trans h.2.1, e3.trans h.2.2⟩
    · next h1 =>
      rw [h1] at h
      exact h

theorem addChild_top_ok {τ α : Type} {n n' c : Node τ α} {k : Str} (hk : '/' ∉ k)
    (h : n.addChild k c = .ok n') : n'.children = n.children ++ [(k, c)] := by
  obtain ⟨m, h1, h2, _⟩ := Node.addChild_ok h
  have e1 : (splitAll k).dropLast = [] := (noslash_iff_dropLast k).mp hk
  have e2 : (splitAll k).getLastD [] = k := by rw [splitAll_noslash hk]; rfl
  rw [e1] at h1
  rw [e2] at h2
  simp only [Node.find] at h1
  cases h1
  rw [addChild_top n c hk h2] at h
  cases h; rfl

theorem Top.addConstraint {l : Layout K} {as : List (Added K)} (h : l.Top as) {c : Cons K}
    {primKeys : List Str} {param : List (Param K)} {key : Str}
    (hr : (LayoutOp.addConstraint c primKeys param key).Regular) (ht : '/' ∉ key) :
    (l.addConstraint c primKeys param key).1.Top
      (as ++ match (l.addConstraint c primKeys param key).2 with
        | .ok () => [⟨c, primKeys, param⟩]
        | .error _ => []) := by
  obtain ⟨ctr, key', hk1, hk2, e⟩ := l.addConstraint_cases hr.1 primKeys param key
  have hk : '/' ∉ key' := by
    by_cases hk : key = []
    · exact (hk2 hk).1
    · rw [(hk1 hk).1]; exact ht
  rw [e]
  have hl' := h.inv.counter ctr
  have hT : ({ l with counter := ctr } : Layout K).Top as := h.prim hl' (.refl _) rfl rfl rfl
  unfold checkAndStore
  cases hck : check { l with counter := ctr } c primKeys param with
  | error e => simpa using hT
  | ok u =>
    obtain ⟨e1, e2⟩ := accepts_lengths hck
    have hf := hr.2 e1 e2
    rcases store_cases hl' hf key' with ⟨e, _, h'⟩ | ⟨cs, ks, ps, kt, pt, a1, a2, a3, a4, a5, h', hi⟩
    · simp only [h']; simpa using hT
    · simp only [h']
      have b1 := addChild_top_ok hk a1
      have b2 := addChild_top_ok hk a4
      have b3 := addChild_top_ok hk a5
      have hlen : as.length = l.cons.children.length := by
        have := congrArg List.length h.cons; simpa using this.symm
      refine ⟨hi, ?_, ?_, ?_, ?_, ?_⟩
      · simp only [b1, List.map_append, h.cons]; rfl
      · simp only [b1, b2, List.map_append]
        exact rootPrimKeysL_append h.keys (by simpa using hlen) a2
      · simp only [b1, b3, List.map_append]
        exact rootParamsL_append h.params (by simpa using hlen) a3
      · intro a ha
        rcases List.mem_append.mp ha with ha | ha
        · exact h.fits a ha
        · rw [List.mem_singleton] at ha; subst ha; exact hf
      · intro a ha
        rcases List.mem_append.mp ha with ha | ha
        · exact h.accepts a ha
        · rw [List.mem_singleton] at ha; subst ha; exact check_ok.mp hck

theorem Top.run {l : Layout K} {as : List (Added K)} (h : l.Top as) {ops : List (LayoutOp K)}
    (hr : ∀ op ∈ ops, op.Regular) (ht : ∀ op ∈ ops, op.TopLevel) :
    (l.run ops).Top (as ++ l.added ops) := by
  induction ops generalizing l as with
  | nil => simpa [added, Layout.run] using h
  | cons op ops ih =>
    have h1 := hr op (by simp)
    have h2 := ht op (by simp)
    have hs : (l.step op).1.Top (as ++ op.addedBy (l.step op).2) := by
      cases op with
      | addPrim prim key =>
        have := addPrim_rest l prim key
        simpa [LayoutOp.addedBy] using h.prim (h.inv.step h1) (h.inv.wf.addPrim h1 key).2.prim this.1 this.2.1 this.2.2
      | addPrims prims =>
        have := addPrims_rest l prims
        simpa [LayoutOp.addedBy] using h.prim (h.inv.step h1) (h.inv.wf.addPrims h1).2.prim this.1 this.2.1 this.2.2
      | addConstraint c primKeys param key =>
        have := h.addConstraint h1 h2
        cases e : (l.addConstraint c primKeys param key).2 with
        | ok u => rw [e] at this; simpa [Layout.step, e, LayoutOp.addedBy] using this
        | error x => rw [e] at this; simpa [Layout.step, e, LayoutOp.addedBy] using this
    have := ih hs (fun o ho => hr o (List.mem_cons_of_mem _ ho)) fun o ho => ht o (List.mem_cons_of_mem _ ho)
    simp only [added, ← List.append_assoc]
    exact this

end Layout

theorem flatOKL_values (cs : List (Str × Cons K)) (as : List (Added K)) (root : Prim K)
    (hc : cs.map (·.2) = as.map (·.c)) (hf : ∀ a ∈ as, a.c.Fits a.primKeys a.param)
    (ha : ∀ a ∈ as, ∃ prims, List.Forall₂ (fun k p => root.getChild k = .ok p) a.primKeys prims ∧
      a.c.Accepts prims a.param) (v : List K) :
    (∃ rs, FlatOKL cs root (as.map (·.primKeys)) (as.map (·.param)) rs ∧ v = rs.flatten) ↔
      ∃ vs, List.Forall₂ (fun a w => a.Value root w) as vs ∧ v = vs.flatten := by
  induction as generalizing cs v with
  | nil =>
    obtain rfl : cs = [] := by simpa using hc
    constructor
    · rintro ⟨rs, ⟨kt, pt, fp, h1, h2, h3, h4, h5, h6⟩, rfl⟩
      simp only [List.flatMap_nil, residuals] at h6
      cases h6
      exact ⟨[], .nil, rfl⟩
    · rintro ⟨vs, h, rfl⟩
      cases h
      exact ⟨[], ⟨[], [], [], rfl, rfl, rfl, rfl, rfl, rfl⟩, rfl⟩
  | cons a as ih =>
    cases cs with
    | nil => simp at hc
    | cons kc cs =>
      obtain ⟨k, c⟩ := kc
      simp only [List.map_cons, List.cons.injEq] at hc
      obtain ⟨rfl, hc⟩ := hc
      have hfa := hf a (by simp)
      obtain ⟨prims, hp, hacc⟩ := ha a (by simp)
      have ih' := ih cs hc (fun b hb => hf b (List.mem_cons_of_mem _ hb))
        (fun b hb => ha b (List.mem_cons_of_mem _ hb))
      have hval : ∀ w, a.Value root w ↔ ∃ r, FlatOK a.c root a.primKeys a.param r ∧ w = r.flatten := by
        intro w
        rw [flat_eval a.c hfa.wf root a.primKeys prims a.param hp hfa.aligned]
        constructor
        · rintro ⟨prims', hp', hcall⟩
          obtain rfl : prims' = prims := by
            have e1 := pyMap_ok.mpr hp'
            have e2 := pyMap_ok.mpr hp
            rw [e1] at e2; cases e2; rfl
          exact ((call_ok_iff _ hfa.wf _ _ hfa.aligned _).mp hcall).2
        · intro he
          exact ⟨prims, hp, (call_ok_iff _ hfa.wf _ _ hfa.aligned _).mpr ⟨hacc, he⟩⟩
      have hcons := fun rs => FlatOKL_cons (k := k) (c := a.c) (cs := cs) (root := root)
        (ks := a.primKeys) (kss := as.map (·.primKeys)) (ps := a.param) (pss := as.map (·.param))
        (rs := rs) (fun kt pt h1 h2 => lengths a.c hfa.wf _ _ hfa.aligned kt pt h1 h2)
      simp only [List.map_cons]
      constructor
      · rintro ⟨rs, h, rfl⟩
        obtain ⟨r, r', h1, h2, rfl⟩ := (hcons rs).mp h
        obtain ⟨vs, h3, h4⟩ := (ih' _).mp ⟨r', h2, rfl⟩
        exact ⟨r.flatten :: vs, .cons ((hval _).mpr ⟨r, h1, rfl⟩) h3, by simp [h4]⟩
      · rintro ⟨vs, h, rfl⟩
        cases h with
        | cons h1 h2 =>
          obtain ⟨r, h3, rfl⟩ := (hval _).mp h1
          obtain ⟨r', h4, h5⟩ := (ih' _).mpr ⟨_, h2, rfl⟩
          exact ⟨r ++ r', (hcons _).mpr ⟨r, r', h3, h4, rfl⟩, by simp [h5]⟩

theorem npConcat_ok' {K : Type} {rs : List (List K)} {v : List K} :
    npConcat rs = .ok v ↔ rs ≠ [] ∧ v = rs.flatten := by
  unfold npConcat
  cases rs with
  | nil => simp
  | cons a b => simp [eq_comm]

theorem residuals_length {cs : List (Cons K)} {ps : List (List (Prim K))} {qs : List (List (Param K))}
    {rs : List (List K)} (h : residuals cs ps qs = .ok rs) :
    rs.length = min cs.length (min ps.length qs.length) := by
  induction cs generalizing ps qs rs with
  | nil => simp only [residuals] at h; cases h; simp
  | cons c cs ih =>
    cases ps with
    | nil => simp only [residuals] at h; cases h; simp
    | cons p ps =>
      cases qs with
      | nil => simp only [residuals] at h; cases h; simp
      | cons q qs =>
        simp only [residuals, py_bind_ok] at h
        obtain ⟨r, _, rs', h2, h3⟩ := h
        cases h3
        simp [ih h2]

theorem Layout.Top.residualList {l : Layout K} {as : List (Added K)} (h : l.Top as) (root : Prim K)
    (rs : List (List K)) :
    l.residualList root = .ok rs ↔
      FlatOKL l.cons.children root (as.map (·.primKeys)) (as.map (·.param)) rs := by
  have hfl : ∀ {τ α : Type} (n : Node τ α), ((n.iterFlat []).map (·.2)).drop 1
      = n.children.flatMap (·.2.flat) := by
    intro τ α n
    cases n
    rw [show ((Node.mk _ _ _ : Node τ α).iterFlat []).map (·.2) = Node.flat _ from rfl, flat_mk]
    rfl
  have hfv : ∀ {τ α : Type} (n : Node τ α), ((n.iterFlat []).map (·.2.value)).drop 1
      = n.children.flatMap (·.2.flatVals) := by
    intro τ α n
    cases n
    rw [show ((Node.mk _ _ _ : Node τ α).iterFlat []).map (·.2.value) = Node.flatVals _ from rfl,
      flatVals_mk]
    rfl
  have hlen : ∀ {τ σ α β : Type} (n : Node τ α) (m : Node σ β), n.skel = m.skel →
      (n.children.flatMap (·.2.flat)).length = (m.children.flatMap (·.2.flatVals)).length := by
    intro τ σ α β n m e
    rw [← hfl, ← hfv]
    simp only [List.length_drop, List.length_map]
    rw [← (Node.iterFlat_paths₂ n []).length_eq, ← (Node.iterFlat_paths₂ m []).length_eq,
      Node.paths_of_skel e]
  have e1 := hlen _ _ h.inv.keys
  have e2 := hlen _ _ h.inv.params
  unfold Layout.residualList Layout.flatConstraints
  simp only [hfl, hfv, py_bind_ok]
  rw [e1.symm, e2.symm, Nat.min_self, Nat.min_self, e1, List.take_length]
  constructor
  · rintro ⟨fp, h1, h2⟩
    exact ⟨_, _, fp, h.keys, h.params, h1, e1.symm, e2.symm, h2⟩
  · rintro ⟨kt, pt, fp, h1, h2, h3, h4, h5, h6⟩
    rw [h.keys] at h1
    rw [h.params] at h2
    cases h1; cases h2
    exact ⟨fp, h3, h6⟩

theorem Layout.Top.residual {l : Layout K} {as : List (Added K)} (h : l.Top as) {root : Prim K}
    (hroot : ∀ k p, l.prim.getChild k = .ok p → ∃ p', root.getChild k = .ok p' ∧ p'.ty = p.ty)
    (v : List K) :
    l.residual root = .ok v ↔ as ≠ [] ∧
      ∃ vs, List.Forall₂ (fun a w => a.Value root w) as vs ∧ v = vs.flatten := by
  have hv := flatOKL_values l.cons.children as root h.cons h.fits
    (fun a ha => Layout.accepts_mono hroot (h.accepts a ha)) v
  unfold Layout.residual
  simp only [py_bind_ok, npConcat_ok', h.residualList root]
  rw [← hv]
  have hne : ∀ rs, FlatOKL l.cons.children root (as.map (·.primKeys)) (as.map (·.param)) rs →
      (rs ≠ [] ↔ as ≠ []) := by
    rintro rs ⟨kt, pt, fp, h1, h2, h3, h4, h5, h6⟩
    have hl := residuals_length h6
    rw [pyMap_length h3, h4, h5, Nat.min_self, Nat.min_self] at hl
    have hcs : as = [] ↔ l.cons.children = [] := by
      have := congrArg List.length h.cons
      simp only [List.length_map] at this
      rw [← List.length_eq_zero_iff, ← List.length_eq_zero_iff, this]
    rw [not_iff_not, hcs, ← List.length_eq_zero_iff, hl]
    cases l.cons.children with
    | nil => simp
    | cons kc cs =>
      obtain ⟨k, c⟩ := kc
      cases c
      simp [flat_mk]
  constructor
  · rintro ⟨rs, h1, h2, h3⟩
    exact ⟨(hne rs h1).mp h2, rs, h1, h3⟩
  · rintro ⟨h2, rs, h1, h3⟩
    exact ⟨rs, h1, (hne rs h1).mpr h2, h3⟩

end MplLayout
