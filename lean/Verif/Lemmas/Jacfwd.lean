import Verif.Lemmas.DualRel
import Verif.Lemmas.SmoothSolve

/-!
# `jax.jacfwd` computes Jacobian matrices
-/

namespace MplLayout

open Flt Fn Solver

/-! ## The same program with two kinds of numbers -/

section prog
variable {K0 K : Type} [PyNum K0] [PyNum K] {R RC : K0 → K → Prop} {G : Prim K0 → Prop} {up0 : Flt → K0}
  {up : Flt → K}

omit [PyNum K0] [PyNum K] in
theorem bbox_up (hup : ∀ c, RC (up0 c) (up c)) (b : Bbox Flt) : BRel RC (b.mapK up0) (b.mapK up) :=
  ⟨hup _, hup _, hup _, hup _⟩

omit [PyNum K0] [PyNum K] in
theorem axis_up (hup : ∀ c, RC (up0 c) (up c)) (a : MplAxis Flt) : AxRel RC (a.mapK up0) (a.mapK up) where
  vis := rfl
  box b := by
    simp only [MplAxis.mapK]
    cases a.tightbbox b with
    | none => trivial
    | some b => exact bbox_up hup b
  ticks := rfl
  width := hup _
  height := hup _
  axes := bbox_up hup _

omit [PyNum K0] [PyNum K] in
mutual
theorem param_up (hup : ∀ c, RC (up0 c) (up c)) : (p : Param Flt) → PaRel RC (p.mapK up0) (p.mapK up)
  | .num x => by simp only [Param.mapK, PaRel]; exact hup x
  | .arr xs => by simp only [Param.mapK, PaRel]; exact LRel.same xs fun c _ => hup c
  | .bool b => by simp only [Param.mapK, PaRel]
  | .none => by simp only [Param.mapK, PaRel]
  | .seq ps => by simp only [Param.mapK, PaRel]; exact params_up hup ps
  | .axis a => by simp only [Param.mapK, PaRel]; exact axis_up hup a
theorem params_up (hup : ∀ c, RC (up0 c) (up c)) : (ps : List (Param Flt)) →
    PaRelL RC (Param.mapKL up0 ps) (Param.mapKL up ps)
  | [] => by simp only [Param.mapKL, PaRelL]
  | p :: ps => by simp only [Param.mapKL, PaRelL]; exact ⟨param_up hup p, params_up hup ps⟩
end

omit [PyNum K0] [PyNum K] in
theorem prim_up (hup : ∀ c, R (up0 c) (up c)) (p : Prim Flt) : PrRel R (p.mapK up0) (p.mapK up) := by
  induction p using Node.induct with
  | _ t v cs ih =>
    simp only [Prim.mapK, Node.mapV]
    refine NRel_mk.mpr ⟨rfl, ⟨rfl, LRel.same _ fun c _ => hup c⟩, ?_⟩
    induction cs with
    | nil => exact .nil
    | cons kc cs ihc =>
      obtain ⟨k, c⟩ := kc
      simp only [Node.mapVL]
      exact .cons ⟨rfl, ih k c (List.mem_cons_self ..)⟩ (ihc fun k c hc => ih k c (List.mem_cons_of_mem _ hc))

theorem call_rel (N : NumRel R RC) (hup : ∀ c, RC (up0 c) (up c)) (st : BuildCall)
    (hs : ∀ s ks ps key, st = .addConstraint s ks ps key → (s.MeasuresLength → ZeroOK R G) ∧
      (s = .angle → AngOK R G) ∧ (s = .aspectRatio → ChildOK G)) :
    ORel (OpRel' R RC G) (st.call K0 up0) (st.call K up) := by
  cases st with
  | addPrim p key => exact .addPrim (prim_up (fun c => N.ofC (hup c)) p) key
  | addPrims ps =>
    exact .addPrims (LRel.same ps fun c _ => ⟨rfl, prim_up (fun c => N.ofC (hup c)) c.2⟩)
  | addConstraint s ks ps key =>
    obtain ⟨h1, h2, h3⟩ := hs s ks ps key rfl
    have := shipped_rel N s h1 h2 h3
    simp only [BuildCall.call]
    revert this
    cases s.make K0 <;> cases s.make K <;> intro this
    · trivial
    · exact this.elim
    · exact this.elim
    · exact .addConstraint this ks (LRel.same ps fun p _ => param_up hup p) key

theorem filterMap_rel {α β γ : Type} {Q : β → γ → Prop} {f : α → Option β} {g : α → Option γ} (xs : List α)
    (h : ∀ a ∈ xs, ORel Q (f a) (g a)) : LRel Q (xs.filterMap f) (xs.filterMap g) := by
  induction xs with
  | nil => exact .nil
  | cons a xs ih =>
    have ih := ih fun b hb => h b (List.mem_cons_of_mem _ hb)
    have ha := h a (List.mem_cons_self ..)
    simp only [List.filterMap_cons]
    revert ha
    cases f a <;> cases g a <;> intro ha
    · exact ih
    · exact ha.elim
    · exact ha.elim
    · exact .cons ha ih

theorem layout_rel (N : NumRel R RC) (hup : ∀ c, RC (up0 c) (up c)) (id : Nat) (prog : List BuildCall)
    (hs : Uses prog fun s => (s.MeasuresLength → ZeroOK R G) ∧ (s = .angle → AngOK R G) ∧
      (s = .aspectRatio → ChildOK G)) :
    LyRel R RC G (layoutWith K0 up0 id prog) (layoutWith K up id prog) :=
  run_rel (filterMap_rel prog fun st hst => call_rel N hup st fun s ks ps key e =>
    hs s ks ps key (e ▸ hst)) (empty_rel id)

end prog

/-- The numbers of a program are numbers of the layout (`mapK` with the identity changes nothing). -/
theorem bbox_mapK_id {K : Type} (b : Bbox K) : b.mapK (fun x => x) = b := rfl

theorem axis_mapK_id {K : Type} (a : MplAxis K) : a.mapK (fun x => x) = a := by
  obtain ⟨v, f, t, w, h, b⟩ := a
  simp only [MplAxis.mapK, MplAxis.mk.injEq, true_and]
  refine ⟨?_, rfl⟩
  funext r
  cases f r <;> rfl

mutual
theorem param_mapK_id {K : Type} : (p : Param K) → p.mapK (fun x => x) = p
  | .num x => by simp only [Param.mapK]
  | .arr xs => by simp only [Param.mapK, List.map_id']
  | .bool b => by simp only [Param.mapK]
  | .none => by simp only [Param.mapK]
  | .seq ps => by simp only [Param.mapK, params_mapK_id ps]
  | .axis a => by simp only [Param.mapK, axis_mapK_id]
theorem params_mapK_id {K : Type} : (ps : List (Param K)) → Param.mapKL (fun x => x) ps = ps
  | [] => by simp only [Param.mapKL]
  | p :: ps => by simp only [Param.mapKL, param_mapK_id p, params_mapK_id ps]
end

theorem prim_mapK_id {K : Type} (p : Prim K) : Prim.mapK (fun x => x) p = p := by
  induction p using Node.induct with
  | _ t v cs ih =>
    simp only [Prim.mapK, Node.mapV, List.map_id', Node.mk.injEq, true_and] at ih ⊢
    induction cs with
    | nil => rfl
    | cons kc cs ihc =>
      obtain ⟨k, c⟩ := kc
      simp only [Node.mapVL]
      rw [ihc fun k c hc => ih k c (List.mem_cons_of_mem _ hc), ih k c (List.mem_cons_self ..)]

/-! ## Parameter vectors -/

theorem ofFn_rel {α β : Type} {Q : α → β → Prop} {n : Nat} {f : Fin n → α} {g : Fin n → β} (h : ∀ i, Q (f i) (g i)) :
    LRel Q (List.ofFn f) (List.ofFn g) := by
  rw [List.ofFn_eq_map, List.ofFn_eq_map]
  exact LRel.same _ fun i _ => h i

theorem coords_at_rel {n : Nat} (y : Fin n → ℝ) : LRel (At y) (coords n : List (Fn n)) (vec y) :=
  ofFn_rel fun _ => rfl

theorem seed_eq {n : Nat} (x : Fin n → ℝ) (j : Nat) : Dual.seed (vec x) j =
    List.ofFn fun i : Fin n => ⟨fin (x i), some (if i.1 = j then fin 1 else fin 0)⟩ := by
  apply List.ext_getElem
  · simp [Dual.seed, vec]
  · intro i h1 h2
    simp [Dual.seed, vec]

theorem seed_rel {n : Nat} (x : Fin n → ℝ) (all : Prop) (j : Fin n) :
    LRel (DRel x (Pi.single j 1) all) (coords n : List (Fn n)) (Dual.seed (vec x) j) := by
  rw [seed_eq]
  refine ofFn_rel fun i => ⟨rfl, nofun, fun a s ha hs => ?_, fun _ a t ha ht => ?_⟩
  · refine ⟨fun y => y i, ContinuousLinearMap.proj i, .of_forall fun _ => rfl, hasFDerivAt_apply i x, ?_⟩
    simp only [Option.some.injEq] at hs
    simp only [ContinuousLinearMap.proj_apply, Pi.single_apply, Fin.ext_iff]
    split at hs <;> rename_i hij <;> simp [hij] at hs ⊢ <;> exact hs
  · simp only [Option.some.injEq] at ht
    split at ht
    · exact ⟨1, ht.symm⟩
    · exact ⟨0, ht.symm⟩

/-! ## The residual as a function of the parameters -/

theorem LyRel.withPrim {K0 K : Type} [PyNum K0] [PyNum K] {R RC : K0 → K → Prop} {G : Prim K0 → Prop}
    {l : Layout K0} {l' : Layout K} {p : Prim K0} {p' : Prim K} (hp : PrRel R p p') (h : LyRel R RC G l l') :
    LyRel R RC G { l with prim := p } { l' with prim := p' } :=
  ⟨hp, h.cons, h.keys, h.params, h.counter⟩

/-- The layout with functions of the coordinates as numbers. -/
noncomputable def fnFrom (n : Nat) (id : Nat) (prog : List BuildCall) (r0 : Prim Flt) : Layout (Fn n) :=
  { layoutWith (Fn n) Fn.const id prog with prim := r0.mapK Fn.const }

theorem at_prim {n : Nat} (y : Fin n → ℝ) (p : Prim Flt) : PrRel (At y) (p.mapK (Fn.const (n := n))) p := by
  have h := prim_up (R := At y) (up0 := Fn.const (n := n)) (up := fun x => x) (fun _ => rfl) p
  rwa [prim_mapK_id] at h

theorem fn_rel {n : Nat} (id : Nat) (prog : List BuildCall) (r0 : Prim Flt) (y : Fin n → ℝ) :
    LyRel (At y) AtC (fun _ => True) (fnFrom n id prog r0) (builtFrom id prog r0) :=
  LyRel.withPrim (at_prim y r0) <| layout_rel (at_num y) (fun _ => rfl) id prog fun _ _ _ _ _ =>
      ⟨fun _ => at_zero, fun _ => at_ang, fun _ _ _ _ _ _ => trivial⟩

/-- What the residual does near `x`. -/
theorem jac_core (id : Nat) (prog : List BuildCall) (r0 : Prim Flt) (base : Nat) {n : Nat} (x : Fin n → ℝ) (all zero left : Prop)
    (hs : Uses prog fun s => (s.MeasuresLength → all → zero) ∧ (s = .angle → left))
    (hg : ∀ root, rebuild (builtFrom id prog r0) base (vec x) = .ok root → ∀ k q, root.getChild k = .ok q →
      (zero → Prim.NoZeroLines q) ∧ (left → Prim.NoLeftLines q)) :
    ∃ r : Py (List (Fn n)),
      (∀ y, PyRel (LRel (At y)) r (globalRes (builtFrom id prog r0) base (vec y))) ∧
      (∀ j : Fin n, PyRel (LRel (DRel x (Pi.single j 1) all)) r
        (globalRes (tracedFrom id prog r0) base (Dual.seed (vec x) j))) ∧
      PyRel (LRel fun _ _ => True) r (globalRes (tracedFrom id prog r0) base ((vec x).map Dual.const)) := by
  have hAt : ∀ y, LyRel (At y) AtC (fun _ => True) (fnFrom n id prog r0) (builtFrom id prog r0) := fn_rel id prog r0
  refine ⟨globalRes (fnFrom n id prog r0) base (coords n), fun y => ?_, fun j => ?_, ?_⟩
  · exact globalRes_rel (hAt y) base (coords_at_rel y) fun _ _ _ _ _ => trivial
  · have hD : LyRel (DRel x (Pi.single j 1) all) DRelC (GoodFn x zero left)
        (fnFrom n id prog r0) (tracedFrom id prog r0) := LyRel.withPrim (prim_up (fun c => dual_num.ofC ⟨c, rfl, rfl⟩) r0) <|
      layout_rel dual_num (fun c => ⟨c, rfl, rfl⟩) id prog fun s ks ps key h =>
        ⟨fun hm => dual_zero ((hs s ks ps key h).1 hm), fun ha => by
          subst ha
          exact dual_ang ((hs _ ks ps key h).1 trivial) ((hs _ ks ps key h).2 rfl), fun _ => good_child⟩
    refine globalRes_rel hD base (seed_rel x all j) fun root e k q hq => ?_
    obtain ⟨root', e', hr⟩ := (rebuild_rel (hAt x) base (coords_at_rel x)).ok_left e
    obtain ⟨q', eq', hq'⟩ := (hr.getChild k).ok_left hq
    exact ⟨q', hq', (hg root' e' k q' eq').1, (hg root' e' k q' eq').2⟩
  · have hT : LyRel (fun _ _ => True) DRelC (fun _ => True) (fnFrom n id prog r0)
        (tracedFrom id prog r0) := LyRel.withPrim (prim_up (fun _ => trivial) r0) <|
      layout_rel triv_num (fun c => ⟨c, rfl, rfl⟩) id prog fun s ks ps key h =>
        ⟨fun _ _ _ _ _ _ _ _ _ => trivial, fun _ _ _ _ _ _ _ _ _ _ _ _ _ _ _ _ _ => trivial,
          fun _ _ _ _ _ _ => trivial⟩
    refine globalRes_rel hT base ?_ fun _ _ _ _ _ => trivial
    rw [vec, List.map_ofFn]
    exact ofFn_rel fun _ => trivial

theorem DRel.hasD {n : Nat} {x v : Fin n → ℝ} {all : Prop} {f : Fn n} {d : Dual} (h : DRel x v all f d) {a s : ℝ}
    (ha : d.val = fin a) (hs : d.slope = fin s) : HasD x v f s := by
  cases e : d.tan with
  | none =>
    obtain ⟨c, rfl⟩ := h.none e
    have hc : c = d.val := h.val
    rw [ha] at hc
    subst hc
    simp only [Dual.slope, e, Option.getD_none, fin_inj] at hs
    subst hs
    exact .const a
  | some t =>
    simp only [Dual.slope, e, Option.getD_some] at hs
    exact h.some a s ha (by rw [e, hs])

theorem HasD.unique {n : Nat} {x v : Fin n → ℝ} {f : Fn n} {s : ℝ} (h : HasD x v f s) {F : (Fin n → ℝ) → ℝ}
    {L : (Fin n → ℝ) →L[ℝ] ℝ} (hF : ∀ᶠ y in nhds x, f y = fin (F y)) (hL : HasFDerivAt F L x) : L v = s := by
  obtain ⟨F', L', h1, h2, h3⟩ := h
  have : F' =ᶠ[nhds x] F := by
    filter_upwards [h1, hF] with y e1 e2
    rw [e1, fin_inj] at e2
    exact e2
  rw [← h3, (h2.congr_of_eventuallyEq this.symm).unique hL]

theorem HasD.all {n : Nat} {x : Fin n → ℝ} {f : Fn n} {a : ℝ} (ha : f x = fin a) {M : Fin n → ℝ}
    (h : ∀ j, HasD x (Pi.single j 1) f (M j)) : ∃ (F : (Fin n → ℝ) → ℝ) (L : (Fin n → ℝ) →L[ℝ] ℝ),
      (∀ᶠ y in nhds x, f y = fin (F y)) ∧ HasFDerivAt F L x ∧ ∀ j, L (Pi.single j 1) = M j := by
  by_cases hn : Nonempty (Fin n)
  · obtain ⟨j0⟩ := hn
    obtain ⟨F, L, h1, h2, -⟩ := h j0
    exact ⟨F, L, h1, h2, fun j => (h j).unique h1 h2⟩
  · have : IsEmpty (Fin n) := not_nonempty_iff.mp hn
    exact ⟨fun _ => a, 0, .of_forall fun y => by rw [Subsingleton.elim y x, ha], hasFDerivAt_const a x,
      fun j => this.elim j⟩

theorem pyMap_all_ok {α β : Type} {f : α → Py β} {g : α → β} {xs : List α} (h : ∀ a ∈ xs, f a = .ok (g a)) :
    pyMap f xs = .ok (xs.map g) := by
  induction xs with
  | nil => rfl
  | cons a xs ih =>
    simp only [pyMap, h a (List.mem_cons_self ..), ih fun b hb => h b (List.mem_cons_of_mem _ hb), bind,
      Except.bind, List.map_cons]

/-- The entries of the result. -/
theorem jacfwd_ok {f : List Dual → Py (List Dual)} {n : Nat} {x : Fin n → ℝ} {y : List Dual}
    (hy : f ((vec x).map Dual.const) = .ok y) {c : Fin n → List Dual} (hc : ∀ j : Fin n, f (Dual.seed (vec x) j) = .ok (c j))
    {m : Nat} (hm : y.length = m) :
    jacfwd f (vec x) = .ok (List.ofFn fun i : Fin m => List.ofFn fun j => (((c j)[i.1]?).map Dual.slope).getD bad) := by
  have h1 : pyMap (fun j => f (Dual.seed (vec x) j)) (List.range (vec x).length)
      = .ok (List.ofFn c) := by
    have : List.range (vec x).length = List.ofFn fun j : Fin n => j.1 := by
      apply List.ext_getElem <;> simp [vec]
    rw [this, List.ofFn_eq_map, List.ofFn_eq_map]
    have hg : ∀ l : List (Fin n), pyMap (fun j => f (Dual.seed (vec x) j)) (l.map fun j => j.1) = .ok (l.map c) := by
      intro l
      induction l with
      | nil => rfl
      | cons a l ih => simp only [List.map_cons, pyMap, hc, ih, bind, Except.bind]
    exact hg _
  have h2 : List.range y.length = List.ofFn fun i : Fin m => i.1 := by
    apply List.ext_getElem <;> simp [hm]
  simp only [jacfwd, hy, h1, bind, Except.bind, h2, List.map_ofFn]
  rfl

/-- The residuals as functions of the parameters, and the columns of tangents. -/
theorem jac_cols (id : Nat) (prog : List BuildCall) (r0 : Prim Flt) (base : Nat) {n m : Nat} (x : Fin n → ℝ) (all zero left : Prop)
    (hs : Uses prog fun s => (s.MeasuresLength → all → zero) ∧ (s = .angle → left))
    (hg : ∀ root, rebuild (builtFrom id prog r0) base (vec x) = .ok root → ∀ k q, root.getChild k = .ok q →
      (zero → Prim.NoZeroLines q) ∧ (left → Prim.NoLeftLines q))
    {b : Fin m → ℝ} (hb : globalRes (builtFrom id prog r0) base (vec x) = .ok (vec b)) :
    ∃ (f : Fin m → Fn n) (D : Fin m → Fin n → Dual),
      (∀ y, globalRes (builtFrom id prog r0) base (vec y) = .ok (List.ofFn fun i => f i y)) ∧
      (∀ i, f i x = fin (b i)) ∧ (∀ i j, DRel x (Pi.single j 1) all (f i) (D i j)) ∧
      jacfwd (globalRes (tracedFrom id prog r0) base) (vec x)
        = .ok (List.ofFn fun i => List.ofFn fun j => (D i j).slope) := by
  obtain ⟨r, h1, h2, h3⟩ := jac_core id prog r0 base x all zero left hs hg
  obtain ⟨gs, rfl, hgs⟩ := (h1 x).ok_right hb
  have hlen : gs.length = m := by simpa [vec] using LRel.length hgs
  subst hlen
  choose c hc hcr using fun j => (h2 j).ok_left (a := gs) rfl
  obtain ⟨y, hy, hyl⟩ := h3.ok_left rfl
  have hcl : ∀ j, (c j).length = gs.length := fun j => (LRel.length (hcr j)).symm
  refine ⟨fun i => gs[i], fun i j => (c j)[i.1]'(by rw [hcl]; exact i.2), fun z => ?_, fun i => ?_, fun i j => ?_, ?_⟩
  · obtain ⟨w, hw, hwr⟩ := (h1 z).ok_left rfl
    rw [hw]
    congr 1
    apply List.ext_getElem
    · simpa using (LRel.length hwr).symm
    · intro i a1 a2
      have := List.Forall₂.get hwr (i := i) (by simpa using a2) a1
      rw [List.getElem_ofFn]
      exact (show _ = _ from this).symm
  · have := List.Forall₂.get hgs (i := i.1) i.2 (by simp [vec])
    have : gs[i.1] x = _ := this
    simpa [vec] using this
  · exact List.Forall₂.get (hcr j) (i := i.1) i.2 (by rw [hcl]; exact i.2)
  · rw [jacfwd_ok hy hc (LRel.length hyl).symm]
    congr 1
    congr 1
    funext i
    congr 1
    funext j
    rw [List.getElem?_eq_getElem (by rw [hcl]; exact i.2)]
    rfl

theorem ofFn_vec_inj {m : Nat} {f : Fin m → Flt} {b : Fin m → ℝ} (h : List.ofFn f = vec b) (i : Fin m) :
    f i = fin (b i) := congrFun (List.ofFn_injective h) i

theorem clm_eq {m n : Nat} (M : Matrix (Fin m) (Fin n) ℝ) (L : (Fin n → ℝ) →L[ℝ] Fin m → ℝ)
    (h : ∀ i j, L (Pi.single j 1) i = M i j) : LinearMap.toContinuousLinearMap M.mulVecLin = L := by
  apply ContinuousLinearMap.ext
  intro v
  have : (LinearMap.toMatrix' L.toLinearMap) = M := by
    ext i j
    rw [LinearMap.toMatrix'_apply]
    simpa [Pi.single_apply] using h i j
  show M.mulVec v = L v
  rw [← this, LinearMap.toMatrix'_mulVec]
  rfl

/-- A finite result of `jax.jacfwd` is a Jacobian matrix. -/
theorem jacfwd_sound (id : Nat) (prog : List BuildCall) (r0 : Prim Flt) (base : Nat) {n m : Nat} {x : Fin n → ℝ} (left : Prop)
    (hs : Uses prog fun s => s = .angle → left)
    (hg : ∀ root, rebuild (builtFrom id prog r0) base (vec x) = .ok root → ∀ k q, root.getChild k = .ok q →
      left → Prim.NoLeftLines q)
    {b : Fin m → ℝ} (hb : globalRes (builtFrom id prog r0) base (vec x) = .ok (vec b))
    {M : Matrix (Fin m) (Fin n) ℝ} (hM : jacfwd (globalRes (tracedFrom id prog r0) base) (vec x) = .ok (mat M)) :
    IsJacobian (globalRes (builtFrom id prog r0) base) x M := by
  obtain ⟨f, D, h1, h2, h3, h4⟩ := jac_cols id prog r0 base x False False left
    (fun s ks ps key h => ⟨fun _ h => h, hs s ks ps key h⟩)
    (fun root e k q hq => ⟨False.elim, hg root e k q hq⟩) hb
  rw [h4] at hM
  have hD : ∀ i j, (D i j).slope = fin (M i j) := fun i j =>
    ofFn_vec_inj (congrFun (List.ofFn_injective (Except.ok.inj hM)) i) j
  choose F L hF hL hLM using fun i => HasD.all (h2 i) (M := M i) fun j =>
    (h3 i j).hasD (by rw [← (h3 i j).val, h2 i]) (hD i j)
  refine ⟨fun y i => F i y, ?_, ?_⟩
  · filter_upwards [Filter.eventually_all.mpr hF] with y hy
    rw [h1 y, vec]
    congr 2
    funext i
    exact hy i
  · rw [clm_eq M (ContinuousLinearMap.pi L) fun i j => hLM i j]
    exact hasFDerivAt_pi.mpr hL

/-- At a smooth geometry `jax.jacfwd` returns a finite matrix. -/
theorem jacfwd_finite (id : Nat) (prog : List BuildCall) (r0 : Prim Flt) (base : Nat) {n m : Nat} {x : Fin n → ℝ} (zero left : Prop)
    (hs : Uses prog fun s => (s.MeasuresLength → zero) ∧ (s = .angle → left))
    (hg : ∀ root, rebuild (builtFrom id prog r0) base (vec x) = .ok root → ∀ k q, root.getChild k = .ok q →
      (zero → Prim.NoZeroLines q) ∧ (left → Prim.NoLeftLines q))
    {b : Fin m → ℝ} (hb : globalRes (builtFrom id prog r0) base (vec x) = .ok (vec b)) :
    ∃ M : Matrix (Fin m) (Fin n) ℝ, jacfwd (globalRes (tracedFrom id prog r0) base) (vec x) = .ok (mat M) := by
  obtain ⟨f, D, h1, h2, h3, h4⟩ := jac_cols id prog r0 base x True zero left
    (fun s ks ps key h => ⟨fun h' _ => (hs s ks ps key h).1 h', (hs s ks ps key h).2⟩) hg hb
  have : ∀ i j, ∃ s, (D i j).slope = fin s := by
    intro i j
    cases e : (D i j).tan with
    | none => exact ⟨0, by simp [Dual.slope, e]⟩
    | some t =>
      obtain ⟨s, rfl⟩ := (h3 i j).all trivial (b i) t (by rw [← (h3 i j).val, h2 i]) e
      exact ⟨s, by simp [Dual.slope, e]⟩
  choose M hM using this
  refine ⟨M, ?_⟩
  rw [h4]
  simp only [hM]
  rfl

/-- There is only one Jacobian matrix. -/
theorem IsJacobian.unique {m m' n : Nat} {res : List Flt → Py (List Flt)} {x : Fin n → ℝ}
    {M : Matrix (Fin m) (Fin n) ℝ} {M' : Matrix (Fin m') (Fin n) ℝ} (h : IsJacobian res x M) (h' : IsJacobian res x M') :
    mat M = mat M' := by
  obtain ⟨F, h1, h2⟩ := h
  obtain ⟨F', h3, h4⟩ := h'
  have hl : m = m' := by
    have e1 := h1.self_of_nhds
    rw [h3.self_of_nhds] at e1
    have := congrArg List.length (Except.ok.inj e1)
    simpa [vec] using this.symm
  subst hl
  have : F =ᶠ[nhds x] F' := by
    filter_upwards [h1, h3] with y e1 e2
    rw [e1] at e2
    funext i
    have := ofFn_vec_inj (f := fun i => fin (F y i)) (Except.ok.inj e2) i
    exact fin_inj.mp this
  have e := (h2.congr_of_eventuallyEq this.symm).unique h4
  have : M = M' := by
    ext i j
    have := congrFun (congrArg (fun L => L (Pi.single j 1)) e) i
    simpa using this
  rw [this]

/-! ## Values -/

/-- The traced number carries the value. -/
def ValR (c : Flt) (d : Dual) : Prop := d.val = c

/-- A constant. -/
def ValC (c : Flt) (d : Dual) : Prop := d = Dual.const c

theorem val_num : NumRel ValR ValC where
  ofC := by rintro b _ rfl; rfl
  truthy := by rintro b _ rfl; rfl
  c_zero := rfl
  c_one := rfl
  c_mul := by rintro b _ d _ rfl rfl; rfl
  c_sub := by rintro b _ d _ rfl rfl; rfl
  c_neg := by rintro b _ rfl; rfl
  add := by rintro _ a _ c rfl rfl; rfl
  sub := by rintro _ a _ c rfl rfl; rfl
  mul := by rintro _ a _ c rfl rfl; rfl
  div := by rintro _ a _ c rfl rfl; rfl
  neg := by rintro _ a rfl; rfl
  natCast _ := rfl

theorem val_zero : ZeroOK ValR fun _ => True := by
  intro p p' h _ v v' e e'
  have := lineVec1_rel val_num h
  rw [e, e'] at this
  have hv : LRel ValR v v' := this
  have : ValR _ _ := sumList_rel val_num (LRel.map hv fun _ _ h => val_num.mul h h)
  simp only [ValR] at this ⊢
  rw [← this]
  rfl

theorem val_ang : AngOK ValR fun _ => True := by
  intro p p' h hG d d' e e' a b a' b' e1 e2 e3 e4
  have := unit1_rel val_num val_zero h hG
  rw [e, e'] at this
  have hx := get_rel (R := ValR) this 0
  have hy := get_rel (R := ValR) this 1
  rw [e1, e3] at hx
  rw [e2, e4] at hy
  have hx : a'.val = a := hx
  have hy : b'.val = b := hy
  subst hx hy
  rfl

/-- The traced residuals carry the values of the residuals. -/
theorem val_res (id : Nat) (prog : List BuildCall) (base : Nat) {x : List Flt} {d : List Dual}
    (h : LRel ValR x d) : PyRel (LRel ValR) (globalRes (builtLayout id prog) base x)
      (globalRes (tracedLayout id prog) base d) := by
  have hl : LyRel ValR ValC (fun _ => True) (builtLayout id prog) (tracedLayout id prog) :=
    layout_rel val_num (fun _ => rfl) id prog fun _ _ _ _ _ =>
      ⟨fun _ => val_zero, fun _ => val_ang, fun _ _ _ _ _ _ => trivial⟩
  exact globalRes_rel hl base h fun _ _ _ _ _ => trivial

theorem valR_map {x : List Flt} {d : List Dual} (h : LRel ValR x d) : d.map Dual.val = x := by
  induction h with
  | nil => rfl
  | cons h _ ih =>
    simp only [List.map_cons, ih]
    exact congrArg (· :: _) h

theorem valR_of {x : List Flt} {d : List Dual} (h : d.map Dual.val = x) : LRel ValR x d := by
  subst h
  induction d with
  | nil => exact .nil
  | cons a d ih => exact .cons rfl ih

theorem seed_val (x : List Flt) (j : Nat) : (Dual.seed x j).map Dual.val = x := by
  apply List.ext_getElem <;> simp [Dual.seed]

/-! ## Constants -/

theorem const_num : NumRel ValC ValC where
  ofC h := h
  truthy := by rintro b _ rfl; rfl
  c_zero := rfl
  c_one := rfl
  c_mul := by rintro b _ d _ rfl rfl; rfl
  c_sub := by rintro b _ d _ rfl rfl; rfl
  c_neg := by rintro b _ rfl; rfl
  add := by rintro b _ d _ rfl rfl; rfl
  sub := by rintro b _ d _ rfl rfl; rfl
  mul := by rintro b _ d _ rfl rfl; rfl
  div := by rintro b _ d _ rfl rfl; rfl
  neg := by rintro b _ rfl; rfl
  natCast _ := rfl

theorem const_zero : ZeroOK ValC fun _ => True := by
  intro p p' h _ v v' e e'
  have := lineVec1_rel const_num h
  rw [e, e'] at this
  have hv : LRel ValC v v' := this
  have : ValC _ _ := sumList_rel const_num (LRel.map hv fun _ _ h => const_num.mul h h)
  simp only [ValC] at this ⊢
  rw [this]
  rfl

theorem const_ang : AngOK ValC fun _ => True := by
  intro p p' h hG d d' e e' a b a' b' e1 e2 e3 e4
  have := unit1_rel const_num const_zero h hG
  rw [e, e'] at this
  have hx := get_rel (R := ValC) this 0
  have hy := get_rel (R := ValC) this 1
  rw [e1, e3] at hx
  rw [e2, e4] at hy
  have hx : a' = Dual.const a := hx
  have hy : b' = Dual.const b := hy
  subst hx hy
  rfl

theorem valC_map {x : List Flt} {d : List Dual} (h : LRel ValC x d) : d = x.map Dual.const := by
  induction h with
  | nil => rfl
  | cons h _ ih => rw [List.map_cons, ← ih, show _ = _ from h]

theorem const_prim {p : Prim Flt} {p' : Prim Dual} (h : PrRel ValC p p') : p' = p.mapK Dual.const := by
  induction p using Node.induct generalizing p' with
  | _ t v cs ih =>
    obtain ⟨t', v', cs'⟩ := p'
    obtain ⟨h1, h2, h3⟩ := NRel_mk.mp h
    subst h1
    have hv : v' = ⟨v.id, v.arr.map Dual.const⟩ := by
      obtain ⟨i, a⟩ := v
      obtain ⟨i', a'⟩ := v'
      obtain ⟨rfl, h2⟩ := h2
      have h2 : a' = a.map Dual.const := valC_map h2
      rw [h2]
    simp only [Prim.mapK, Node.mapV, Node.mk.injEq, true_and]
    refine ⟨hv, ?_⟩
    clear h hv h2
    induction h3 with
    | nil => rfl
    | @cons a b as bs h _ ihc =>
      obtain ⟨k, c⟩ := a
      obtain ⟨k', c'⟩ := b
      obtain ⟨h1, h2⟩ := h
      simp only [Node.mapVL]
      have h1 : k = k' := h1
      subst h1
      have h2 : c' = Prim.mapK Dual.const c := ih k c (List.mem_cons_self ..) (p' := c') h2
      rw [← ihc fun k c hc => ih k c (List.mem_cons_of_mem _ hc), h2]
      rfl

theorem builtFrom_self (id : Nat) (prog : List BuildCall) :
    builtFrom id prog (builtLayout id prog).prim = builtLayout id prog := rfl

theorem tracedFrom_self (id : Nat) (prog : List BuildCall) :
    tracedFrom id prog (builtLayout id prog).prim = tracedLayout id prog := by
  have hl : LyRel ValC ValC (fun _ => True) (builtLayout id prog) (tracedLayout id prog) :=
    layout_rel const_num (fun _ => rfl) id prog fun _ _ _ _ _ =>
      ⟨fun _ => const_zero, fun _ => const_ang, fun _ _ _ _ _ _ => trivial⟩
  unfold tracedFrom
  rw [← const_prim hl.prim]

/-! ## Programs are sequences of calls -/

/-- The call with the constructed constraint. -/
noncomputable def BuildCall.plain : BuildCall → Option (LayoutOp Flt)
  | .addPrim p key => some (.addPrim p key)
  | .addPrims ps => some (.addPrims ps)
  | .addConstraint s ks ps key => match s.build with
    | .ok c => some (.addConstraint c ks ps key)
    | .error _ => none

/-- The layout of a program is the result of the calls with the constructed constraints. -/
theorem builtLayout_eq (id : Nat) (prog : List BuildCall) : builtLayout id prog =
    (Layout.empty id).run (prog.filterMap BuildCall.plain) := by
  unfold builtLayout layoutWith
  congr 2
  funext st
  cases st with
  | addPrim p key => simp only [BuildCall.plain, BuildCall.call, prim_mapK_id]
  | addPrims ps => simp only [BuildCall.plain, BuildCall.call, prim_mapK_id, Prod.mk.eta, List.map_id']
  | addConstraint s ks ps key =>
    have : Param.mapK (fun x : Flt => x) = fun p => p := funext param_mapK_id
    simp only [BuildCall.plain, BuildCall.call, make_flt, this, List.map_id']
    cases s.build <;> rfl

theorem plain_uses {prog : List BuildCall} {kind : Shipped → Prop} (h : ∀ c ∈ prog, c.OK kind) :
    ∀ op ∈ prog.filterMap BuildCall.plain, op.Uses kind := by
  intro op ho
  obtain ⟨c, hc, e⟩ := List.mem_filterMap.mp ho
  have := h c hc
  cases c with
  | addPrim p key => cases e; exact this
  | addPrims ps => cases e; exact this
  | addConstraint s ks ps key =>
    simp only [BuildCall.plain] at e
    split at e
    · rename_i c' hb
      cases e
      exact ⟨s, hb, this.1, this.2⟩
    · cases e

theorem ok_uses {prog : List BuildCall} {kind : Shipped → Prop} (h : ∀ c ∈ prog, c.OK kind) : Uses prog kind :=
  fun _ _ _ _ hm => (h _ hm).2

end MplLayout
