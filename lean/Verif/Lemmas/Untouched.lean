import Verif.Lemmas.SmoothSolve
import Verif.Lemmas.SolverRuns
import Verif.Props.Layout
import Verif.Spec.Locality
import Mathlib.Analysis.Calculus.LineDeriv.Basic

/-!
# Arrays that no constraint sees do not move
-/

namespace MplLayout

open Flt Node

/-! ## Columns of zeros -/

/-- If a function does not depend on a coordinate then its Jacobian matrix has a column of zeros. -/
theorem zero_column {m n : Nat} {res : List Flt → Py (List Flt)} {x : Fin n → ℝ}
    {M : Matrix (Fin m) (Fin n) ℝ} (h : IsJacobian res x M) (c : Fin n)
    (hc : ∀ (t : ℝ) v, res (vec x) = .ok v → res (vec (x + t • Pi.single c 1)) = .ok v) : ∀ i, M i c = 0 := by
  obtain ⟨F, hF, hD⟩ := h
  have h0 : res (vec x) = .ok (vec (F x)) := hF.self_of_nhds
  have hl := hD.hasLineDerivAt (Pi.single c 1)
  have hcont : Filter.Tendsto (fun t : ℝ => x + t • (Pi.single c 1 : Fin n → ℝ)) (nhds 0) (nhds x) := by
    have : Continuous fun t : ℝ => x + t • (Pi.single c 1 : Fin n → ℝ) := by fun_prop
    have := this.tendsto 0
    simpa using this
  have he : (fun t : ℝ => F (x + t • Pi.single c 1)) =ᶠ[nhds 0] fun _ => F x := by
    filter_upwards [hcont.eventually hF] with t ht
    have := hc t _ h0
    rw [ht] at this
    exact vec_inj (Except.ok.inj this)
  have h1 : HasDerivAt (fun t : ℝ => F (x + t • Pi.single c 1)) 0 0 :=
    (hasDerivAt_const (0 : ℝ) (F x)).congr_of_eventuallyEq he
  have h2 := HasDerivAt.unique hl h1
  intro i
  have := congrFun h2 i
  simpa using this

/-- The shortest least squares solution is zero where the matrix has a column of zeros. -/
theorem lstsq_zero_col {m n : Nat} {M : Matrix (Fin m) (Fin n) ℝ} {b : Fin m → ℝ} {d : Fin n → ℝ}
    (h : IsLstsq M b d) {c : Fin n} (hc : ∀ i, M i c = 0) : d c = 0 := by
  have hM : M.mulVec (Function.update d c 0) = M.mulVec d := by
    funext i
    simp only [Matrix.mulVec, dotProduct]
    apply Finset.sum_congr rfl
    intro j _
    by_cases hj : j = c
    · subst hj; simp [hc]
    · rw [Function.update_of_ne hj]
  have h1 := h.shortest (Function.update d c 0) (by rw [hM])
  simp only [sq] at h1
  rw [← Finset.add_sum_erase _ _ (Finset.mem_univ c), ← Finset.add_sum_erase _ (fun i => Function.update d c 0 i ^ 2) (Finset.mem_univ c)] at h1
  have : ∑ i ∈ Finset.univ.erase c, Function.update d c 0 i ^ 2 = ∑ i ∈ Finset.univ.erase c, d i ^ 2 := by
    apply Finset.sum_congr rfl
    intro j hj
    rw [Function.update_of_ne (Finset.ne_of_mem_erase hj)]
  rw [this] at h1
  simp only [Function.update_self] at h1
  have : d c ^ 2 ≤ 0 := by linarith
  exact pow_eq_zero_iff (two_ne_zero) |>.mp (le_antisymm this (sq_nonneg _))

namespace Solver

/-! ## The iterates of a run -/

/-- The states that the loop goes through. -/
inductive Visits {K : Type} [PyNum K] (num : Numerics K) (res : List K → Py (List K)) (absTol relTol : K) :
    NewtonState K → NewtonState K → Prop
  | refl (s) : Visits num res absTol relTol s s
  | step {s s' t} (h1 : gtTol s.absErr absTol = true) (h2 : gtTol s.relErr relTol = true)
      (h3 : newtonStep num res s = .ok s') (h : Visits num res absTol relTol s' t) :
      Visits num res absTol relTol s t

theorem newtonStep_n {K : Type} [PyNum K] {num : Numerics K} {res : List K → Py (List K)}
    {s s' : NewtonState K} (h : newtonStep num res s = .ok s') : s'.n = s.n + 1 := by
  simp only [newtonStep, py_bind_ok] at h
  obtain ⟨_, _, _, _, _, _, _, _, h⟩ := h
  cases h
  rfl

theorem Visits.le {K : Type} [PyNum K] {num : Numerics K} {res : List K → Py (List K)} {absTol relTol : K}
    {s t : NewtonState K} (h : Visits num res absTol relTol s t) : s.n ≤ t.n := by
  induction h with
  | refl => exact Nat.le_refl _
  | step _ _ h3 _ ih => have := newtonStep_n h3; omega

theorem Visits.trans {K : Type} [PyNum K] {num : Numerics K} {res : List K → Py (List K)}
    {absTol relTol : K} {s t u : NewtonState K} (h : Visits num res absTol relTol s t)
    (h' : Visits num res absTol relTol t u) : Visits num res absTol relTol s u := by
  induction h with
  | refl => exact h'
  | step h1 h2 h3 _ ih => exact .step h1 h2 h3 (ih h')

/-- A state that is visited is the result of the loop with that number of iterations. -/
theorem Visits.loop {K : Type} [PyNum K] {num : Numerics K} {res : List K → Py (List K)}
    {absTol relTol : K} {s t : NewtonState K} (h : Visits num res absTol relTol s t) (fuel : Nat)
    (hf : t.n - s.n < fuel) : newtonLoop num res absTol relTol (t.n : Int) fuel s = some (.ok t) := by
  induction h generalizing fuel with
  | refl s =>
    obtain ⟨f, rfl⟩ := Nat.exists_eq_add_of_lt hf
    simp [newtonLoop, continues]
  | @step s s' t h1 h2 h3 h ih =>
    have hn := newtonStep_n h3
    have hle := h.le
    obtain ⟨f, rfl⟩ : ∃ f, fuel = f + 1 := ⟨fuel - 1, by omega⟩
    have hc : continues absTol relTol (t.n : Int) s = true := by
      simp only [continues, h1, h2, Bool.and_true, Bool.true_and, decide_eq_true_eq]
      omega
    rw [newtonLoop, if_pos hc, h3]
    exact ih f (by omega)

/-- An invariant of all iterates that the loop visits. -/
theorem loop_invariant {K : Type} [PyNum K] {num : Numerics K} {res : List K → Py (List K)}
    {absTol relTol : K} {maxIter : Int} {s0 : NewtonState K} (P : NewtonState K → Prop)
    (hstep : ∀ s s', Visits num res absTol relTol s0 s → (s.n : Int) < maxIter → P s →
      newtonStep num res s = .ok s' → P s') :
    ∀ fuel s t, Visits num res absTol relTol s0 s → P s →
      newtonLoop num res absTol relTol maxIter fuel s = some (.ok t) → P t := by
  intro fuel
  induction fuel with
  | zero => intro s t _ _ h; cases h
  | succ fuel ih =>
    intro s t hv hp h
    rw [newtonLoop] at h
    split at h
    · rename_i hc
      simp only [continues, Bool.and_eq_true, decide_eq_true_eq] at hc
      cases h3 : newtonStep num res s with
      | error e => rw [h3] at h; cases h
      | ok s' =>
        rw [h3] at h
        exact ih s' t (hv.trans (.step hc.1.1 hc.1.2 h3 (.refl _))) (hstep s s' hv hc.2 hp h3) h
    · cases h; exact hp

/-! ## Blocks of coordinates -/

/-- The coordinates of the `i`-th array. -/
def block (l : Layout Flt) (i : Nat) : List (Fin (dim l)) :=
  ((unpack (idxBounds (primValues l)) (List.ofFn id))[i]?).getD []

theorem vec_ofFn {n : Nat} (x : Fin n → ℝ) : vec x = (List.ofFn id).map fun c : Fin n => fin (x c) := by
  simp [vec, List.map_ofFn, Function.comp_def]

theorem unpack_block (l : Layout Flt) (x : Fin (dim l) → ℝ) (i : Nat) :
    ((unpack (idxBounds (primValues l)) (vec x))[i]?).getD [] = (block l i).map fun c => fin (x c) := by
  rw [vec_ofFn, unpack_map, List.getElem?_map, block]
  cases (unpack (idxBounds (primValues l)) (List.ofFn id : List (Fin (dim l))))[i]? <;> rfl

theorem block_disjoint (l : Layout Flt) (hok : PrimOK l.prim) {i j : Nat} (hij : i ≠ j) {c : Fin (dim l)}
    (hi : c ∈ block l i) : c ∉ block l j := by
  intro hj
  let x : Fin (dim l) → ℝ := fun c => (c.val : ℝ)
  have h := (Props.C20_pack_unpack (primValues l) (primValues_ne l hok) (vec x) (vec_length x)).2
  have hnd : (unpack (idxBounds (primValues l)) (vec x)).flatten.Nodup := by
    simp only [npConcat] at h
    split at h
    · cases h
    · rw [Except.ok.inj h]
      refine List.nodup_ofFn.mpr fun a b hab => ?_
      have : (a.val : ℝ) = b.val := by simpa [x] using hab
      exact Fin.ext (by exact_mod_cast this)
  have mem : ∀ {k : Nat}, c ∈ block l k → ∃ b, (unpack (idxBounds (primValues l)) (vec x))[k]? = some b ∧
      fin (x c) ∈ b := by
    intro k hk
    have hu := unpack_block l x k
    have hm : fin (x c) ∈ (block l k).map fun c => fin (x c) := List.mem_map.mpr ⟨c, hk, rfl⟩
    rw [← hu] at hm
    cases e : (unpack (idxBounds (primValues l)) (vec x))[k]? with
    | none => rw [e] at hm; cases hm
    | some b => rw [e] at hm; exact ⟨b, rfl, hm⟩
  obtain ⟨a, e1, hi⟩ := mem hi
  obtain ⟨b, e2, hj⟩ := mem hj
  have hp := (List.nodup_flatten.mp hnd).2
  obtain ⟨hi1, rfl⟩ := List.getElem?_eq_some_iff.mp e1
  obtain ⟨hj1, rfl⟩ := List.getElem?_eq_some_iff.mp e2
  rw [List.pairwise_iff_getElem] at hp
  rcases Nat.lt_or_gt_of_ne hij with hlt | hlt
  · exact hp i j hi1 hj1 hlt hi hj
  · exact hp j i hj1 hi1 hlt hj hi

/-- The array at a path of the tree with the coordinates `x`. -/
theorem rebuild_arr (l : Layout Flt) (hok : PrimOK l.prim) (base : Nat) {x : Fin (dim l) → ℝ}
    {r : Prim Flt} (hr : rebuild l base (vec x) = .ok r) {p : List Str} {m : Prim Flt} (hm : r.At p m) :
    ∃ i, IdxAt l p i ∧ m.value = ⟨base + i, (block l i).map fun c => fin (x c)⟩ := by
  obtain ⟨r', e1, e2, e3, e4⟩ := rebuild_at l hok base (vec x) (vec_length x)
  rw [hr] at e1; cases e1
  obtain ⟨m0, hm0⟩ := e3 p m hm
  obtain ⟨m', i, v, a1, _, _, a4, _, a6, a7, _⟩ := e4 p m0 hm0
  obtain rfl := At_unique e2 a1 hm
  refine ⟨i, a4, ?_⟩
  rw [a7, ← unpack_block, a6]; rfl

theorem At_below {τ α : Type} {n a b : Node τ α} (hn : n.WF) {p q : List Str} (ha : n.At p a)
    (hb : n.At (p ++ q) b) : a.At q b := by
  rw [← find_iff_At hn, find_append, (find_iff_At hn).mpr ha] at hb
  exact At_of_find hb

/-- Changing the coordinates of an array that no constraint refers to does not change the residual. -/
theorem residual_unseen {ops : List (LayoutOp Flt)} (id : Nat) (base : Nat) {l : Layout Flt}
    (hl : l = (Layout.empty id).run ops) (hs : ∀ op ∈ ops, op.Sensible) (ht : ∀ op ∈ ops, op.TopLevel)
    (hok : PrimOK l.prim) {p : List Str} {m : Prim Flt} (hm : l.prim.At p m)
    (hu : Unseen ((Layout.empty id).added ops) l.prim p) {i : Nat} (hi : IdxAt l p i)
    {x y : Fin (dim l) → ℝ} (hxy : ∀ c, c ∉ block l i → x c = y c) {v : List Flt}
    (hv : globalRes l base (vec x) = .ok v) : globalRes l base (vec y) = .ok v := by
  obtain ⟨_, _, hids, _⟩ := Props.C17_unique_values PVal.id l.prim hok.wf hok.slashFree hok.ident
  obtain ⟨rx, ex⟩ := rebuild_structure l hok base (vec x) (vec_length x)
  obtain ⟨ry, ey⟩ := rebuild_structure l hok base (vec y) (vec_length y)
  obtain ⟨_, ex1, ex2, _⟩ := rebuild_at l hok base (vec x) (vec_length x)
  rw [ex.1] at ex1; cases ex1
  obtain ⟨_, ey1, ey2, _⟩ := rebuild_at l hok base (vec y) (vec_length y)
  rw [ey.1] at ey1; cases ey1
  have hroot : ∀ r : Prim Flt, r.WF → SameStructure l.prim r → ∀ k q, l.prim.getChild k = .ok q →
      ∃ q', r.getChild k = .ok q' ∧ q'.ty = q.ty := by
    intro r hr hst k q hq
    rw [Node.getChild_ok_iff, Node.find_iff_At hok.wf] at hq
    obtain ⟨q', hq'⟩ := (hst.paths _).mp ⟨q, hq⟩
    refine ⟨q', ?_, (hst.nodes _ _ _ hq hq').1.symm⟩
    rw [Node.getChild_ok_iff, Node.find_iff_At hr]
    exact hq'
  have hres : ∀ r : Prim Flt, r.WF → SameStructure l.prim r → ∀ v, l.residual r = .ok v ↔
      (Layout.empty id).added ops ≠ [] ∧
      ∃ vs, List.Forall₂ (fun a w => a.Value r w) ((Layout.empty id).added ops) vs ∧ v = vs.flatten := by
    intro r hr hst v
    have := hroot r hr hst
    rw [hl] at this ⊢
    exact Props.C50_residual_partial id ops (fun op h => Props.Sensible.regular (hs op h)) ht r this v
  simp only [globalRes, ex.1, bind, Except.bind] at hv
  simp only [globalRes, ey.1, bind, Except.bind]
  rw [hres rx ex2 ex.2] at hv
  rw [hres ry ey2 ey.2]
  refine ⟨hv.1, ?_⟩
  obtain ⟨vs, h1, h2⟩ := hv.2
  refine ⟨vs, ?_, h2⟩
  have hchild : ∀ c ∈ (Layout.empty id).added ops, ∀ k ∈ c.primKeys, ∀ q, rx.getChild k = .ok q →
      ry.getChild k = .ok q := by
    intro c hc k hk q hq
    rw [Node.getChild_ok_iff, Node.find_iff_At ex2] at hq
    obtain ⟨q', hq'⟩ := (ey.2.paths _).mp ((ex.2.paths _).mpr ⟨q, hq⟩)
    obtain ⟨q0, hq0⟩ := (ex.2.paths _).mpr ⟨q, hq⟩
    have hgx : ∀ {path n}, q.At path n → rx.At (splitAll k ++ path) n := fun h => hq.trans h
    have hgy : ∀ {path n}, q'.At path n → ry.At (splitAll k ++ path) n := fun h => hq'.trans h
    have h0 : l.prim.getChild k = .ok q0 := by
      rw [Node.getChild_ok_iff, Node.find_iff_At hok.wf]; exact hq0
    suffices q' = q by
      rw [Node.getChild_ok_iff, Node.find_iff_At ey2]; exact this ▸ hq'
    refine ext_At (WF.at ey2 hq') (WF.at ex2 hq) (fun path => ⟨?_, ?_⟩) fun path n' n hn' hn => ?_
    · rintro ⟨n', hn'⟩
      obtain ⟨n, hn⟩ := (ex.2.paths _).mp ((ey.2.paths _).mpr ⟨n', hgy hn'⟩)
      exact ⟨n, At_below ex2 hq hn⟩
    · rintro ⟨n, hn⟩
      obtain ⟨n', hn'⟩ := (ey.2.paths _).mp ((ex.2.paths _).mpr ⟨n, hgx hn⟩)
      exact ⟨n', At_below ey2 hq' hn'⟩
    · obtain ⟨n0, hn0⟩ := (ex.2.paths _).mpr ⟨n, hgx hn⟩
      obtain ⟨a1, a2, _⟩ := ex.2.nodes _ _ _ hn0 (hgx hn)
      obtain ⟨b1, b2, _⟩ := ey.2.nodes _ _ _ hn0 (hgy hn')
      refine ⟨b1.symm.trans a1, b2.symm.trans a2, ?_⟩
      obtain ⟨j, c1, c2⟩ := rebuild_arr l hok base ex.1 (hgx hn)
      obtain ⟨j', d1, d2⟩ := rebuild_arr l hok base ey.1 (hgy hn')
      obtain rfl : j = j' := Option.some.inj (c1.symm.trans d1)
      have hne : i ≠ j := by
        intro e
        have hid := (hids p m _ n0 i j hm hn0 hi c1).mp e
        exact hu c hc k hk q0 h0 path n0 m (At_below hok.wf hq0 hn0) hm hid.symm
      rw [c2, d2]
      congr 1
      exact List.map_congr_left fun c hcj => by rw [hxy c (block_disjoint l hok hne.symm hcj)]
  have hval : ∀ c ∈ (Layout.empty id).added ops, ∀ w, c.Value rx w → c.Value ry w := by
    rintro c hc w ⟨prims, hp, hw⟩
    refine ⟨prims, ?_, hw⟩
    have := hchild c hc
    revert this
    generalize c.primKeys = ks at hp
    intro this
    clear hw
    induction hp with
    | nil => exact .nil
    | cons h _ ih =>
      exact .cons (this _ (by simp) _ h) (ih fun k hk => this k (List.mem_cons_of_mem _ hk))
  clear h2 hres hchild hv hu
  generalize (Layout.empty id).added ops = cs at h1 hval
  induction h1 with
  | nil => exact .nil
  | cons h _ ih => exact .cons (hval _ (by simp) _ h) (ih fun c hc => hval c (List.mem_cons_of_mem _ hc))

/-- One step does not change the coordinates of the array. -/
theorem step_unseen {num : Numerics Flt} (hnum : Exact num) {l : Layout Flt} {base : Nat} {i : Nat}
    (hres : ∀ x y : Fin (dim l) → ℝ, (∀ c, c ∉ block l i → x c = y c) → ∀ v,
      globalRes l base (vec x) = .ok v → globalRes l base (vec y) = .ok v)
    {x : Fin (dim l) → ℝ} (hj : ∃ (m : Nat) (M : Matrix (Fin m) (Fin (dim l)) ℝ), IsJacobian (globalRes l base) x M)
    {s s' : NewtonState Flt} (hs : s.param = vec x) (h : newtonStep num (globalRes l base) s = .ok s') :
    ∃ x', s'.param = vec x' ∧ ∀ c ∈ block l i, x' c = x c := by
  obtain ⟨m, M, hM⟩ := hj
  have hM' := hM
  obtain ⟨F, hF, hD⟩ := hM'
  obtain ⟨d, hd, e⟩ := hnum.lstsq M (-(F x))
  have := newtonStep_vec hF.self_of_nhds (hnum.jacobian _ x M hM) e s hs
  rw [this] at h
  cases h
  refine ⟨x + d, rfl, fun c hc => ?_⟩
  have hz := lstsq_zero_col hd (c := c) (zero_column hM c fun t v hv => hres x _ (by
    intro c' hc'
    have : c' ≠ c := fun e => hc' (e ▸ hc)
    simp [this]) v hv)
  simp [hz]

/-- The residual is differentiable at every geometry that is smooth for the constraints. -/
theorem smooth_jacobian_at {ops : List (LayoutOp Flt)} (id : Nat) (base : Nat) {l : Layout Flt}
    (hl : l = (Layout.empty id).run ops) (hok : PrimOK l.prim) {x : Fin (dim l) → ℝ} {r : Prim Flt}
    (e1 : rebuild l base (vec x) = .ok r) (h : ∀ op ∈ ops, op.Uses (Shipped.SmoothAt r))
    {v : List Flt} (hv : l.residual r = .ok v) (hz : ∀ a ∈ v, ∃ y, a = fin y) :
    ∃ (m : Nat) (M : Matrix (Fin m) (Fin (dim l)) ℝ), IsJacobian (globalRes l base) x M := by
  obtain ⟨T, hT⟩ := rebuild_mapV l hok base
  have hTr : T.mapV (paramVal l base (dim l) x) = r := by
    have := hT x
    rw [e1] at this
    exact (Except.ok.inj this).symm
  let zero : Prop := ∀ k q, r.getChild k = .ok q → Prim.NoZeroLines q
  let left : Prop := ∀ k q, r.getChild k = .ok q → Prim.NoLeftLines q
  have htame : AllN (TameP (DiffC x) (paramVal l base (dim l))
      (GoodAt x (paramVal l base (dim l)) zero left)) l.cons := by
    have := run_all (P := TameP (DiffC x) (paramVal l base (dim l))
        (GoodAt x (paramVal l base (dim l)) zero left)) (fun _ _ _ => Tame.error _)
      (fun op ho => uses_trees (h op ho))
      (fun c ks ps k hm => by
        obtain ⟨s, e, _, ha⟩ := h _ hm
        exact smooth_tame (paramVal_diff l base (dim l) x) ha.1 ha.2 e) id
    rwa [← hl] at this
  obtain ⟨R, h1, h2⟩ := residual_tame htame T (by
    intro k p hp
    have hp' : r.getChild k = .ok (p.mapV (paramVal l base (dim l) x)) := by
      rw [← hTr, Node.getChild_mapV, hp]; rfl
    exact ⟨fun hz => hz k _ hp', fun hl => hl k _ hp'⟩)
  have hg : ∀ y : Fin (dim l) → ℝ, globalRes l base (vec y) = R.map (List.map (· y)) := by
    intro y
    simp only [globalRes, hT, bind, Except.bind, h1]
  have hgx : globalRes l base (vec x) = .ok v := by
    simp only [globalRes, e1, bind, Except.bind, hv]
  cases R with
  | error e => rw [hg] at hgx; cases hgx
  | ok gs =>
    rw [hg] at hgx
    have hv' : gs.map (· x) = v := Except.ok.inj hgx
    refine jacobian_of_diff hg (h2 gs rfl) fun g hg' => hz _ ?_
    rw [← hv']
    exact List.mem_map.mpr ⟨g, hg', rfl⟩

end Solver

end MplLayout
