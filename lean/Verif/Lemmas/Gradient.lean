import Verif.Lemmas.Tape

/-!
# `jax.value_and_grad` computes gradients
-/

namespace MplLayout

open Flt Fn Solver

/-- The value of `f` and its slopes in the directions of all coordinates: what `jax.value_and_grad` would
return in forward mode. -/
noncomputable def fwdGrad (f : List Dual → Py Dual) (x : List Flt) : Py (Flt × List Flt) := do
  let y ← f (x.map Dual.const)
  let cols ← pyMap (fun j => f (Dual.seed x j)) (List.range x.length)
  .ok (y.val, cols.map Dual.slope)

theorem objective_ok {K : Type} [PyNum K] {l : Layout K} {base : Nat} {g r : List K} (h : globalRes l base g = .ok r) :
    objective l base g = .ok (Arr.sumList (r.map fun x => x * x)) := by
  simp only [objective, h, bind, Except.bind]

theorem objective_rel {K0 K : Type} [PyNum K0] [PyNum K] {R RC : K0 → K → Prop} (N : NumRel R RC)
    {r : Py (List K0)} {r' : Py (List K)} (h : PyRel (LRel R) r r') :
    PyRel R (r >>= fun v => .ok (Arr.sumList (v.map fun x => x * x)))
      (r' >>= fun v => .ok (Arr.sumList (v.map fun x => x * x))) := by
  revert h
  cases r <;> cases r' <;> intro h
  · exact h
  · exact h.elim
  · exact h.elim
  · exact sumList_rel N (LRel.map h fun _ _ h => N.mul h h)

/-- The traced objective carries the value of the objective. -/
theorem val_obj (id : Nat) (prog : List BuildCall) (base : Nat) {x : List Flt} {d : List Dual} (h : LRel ValR x d) :
    PyRel ValR (objective (builtLayout id prog) base x) (objective (tracedLayout id prog) base d) :=
  objective_rel val_num (val_res id prog base h)

/-- The entries of the result. -/
theorem fwdGrad_ok {f : List Dual → Py Dual} {n : Nat} {x : Fin n → ℝ} {y : Dual}
    (hy : f ((vec x).map Dual.const) = .ok y) {c : Fin n → Dual} (hc : ∀ j : Fin n, f (Dual.seed (vec x) j) = .ok (c j)) :
    fwdGrad f (vec x) = .ok (y.val, List.ofFn fun j => (c j).slope) := by
  have h1 : pyMap (fun j => f (Dual.seed (vec x) j)) (List.range (vec x).length)
      = .ok (List.ofFn c) := by
    have : List.range (vec x).length = List.ofFn fun j : Fin n => j.1 := by
      apply List.ext_getElem <;> simp [vec]
    rw [this, List.ofFn_eq_map, List.ofFn_eq_map]
    have hg : ∀ l : List (Fin n), pyMap (fun j => f (Dual.seed (vec x) j)) (l.map fun j => j.1) = .ok (l.map c) := by
      intro l
      induction l with
      | nil => rfl
      | cons a l ih => simp only [List.map_cons, pyMap, hc, ih, bind, Except.bind]
    exact hg _
  simp only [fwdGrad, hy, h1, bind, Except.bind, List.map_ofFn]
  rfl

/-- The objective as a function of the parameters, and its tangents. -/
theorem grad_core (id : Nat) (prog : List BuildCall) (base : Nat) {n : Nat} (x : Fin n → ℝ) (all zero left : Prop)
    (hs : Uses prog fun s => (s.MeasuresLength → all → zero) ∧ (s = .angle → left))
    (hg : ∀ root, rebuild (builtLayout id prog) base (vec x) = .ok root → ∀ k q, root.getChild k = .ok q →
      (zero → Prim.NoZeroLines q) ∧ (left → Prim.NoLeftLines q))
    {a : Flt} (ha : objective (builtLayout id prog) base (vec x) = .ok a) :
    ∃ (f : Fn n) (D : Fin n → Dual), f x = a ∧
      (∀ y, objective (builtLayout id prog) base (vec y) = .ok (f y)) ∧
      (∀ j, DRel x (Pi.single j 1) all f (D j)) ∧
      fwdGrad (objective (tracedLayout id prog) base) (vec x) = .ok (a, List.ofFn fun j => (D j).slope) := by
  obtain ⟨r, h1, h2, -⟩ := jac_core id prog (builtLayout id prog).prim base x all zero left hs hg
  rw [tracedFrom_self] at h2
  rw [builtFrom_self] at h1
  have g1 := fun y => objective_rel (at_num y) (h1 y)
  have g2 := fun j => objective_rel (dual_num (x0 := x) (v := Pi.single j 1) (all := all)) (h2 j)
  obtain ⟨f, hf, hfa⟩ := (g1 x).ok_right ha
  choose D hD hDr using fun j => (g2 j).ok_left hf
  obtain ⟨d0, hd0, hd0a⟩ := (val_obj id prog base (valR_of (d := (vec x).map Dual.const) (x := vec x)
    (by rw [List.map_map]; exact List.map_id' _))).ok_left ha
  refine ⟨f, D, hfa, fun y => ?_, hDr, ?_⟩
  · obtain ⟨w, hw, hwr⟩ := (g1 y).ok_left hf
    have hwr : f y = w := hwr
    rw [hwr]
    exact hw
  · have hd0a : d0.val = a := hd0a
    rw [← hd0a]
    exact fwdGrad_ok hd0 hD

/-- The linear map with given values at the unit vectors. -/
theorem clm_sum {n : Nat} (G : Fin n → ℝ) (L : (Fin n → ℝ) →L[ℝ] ℝ) (h : ∀ j, L (Pi.single j 1) = G j) :
    (∑ j, G j • ContinuousLinearMap.proj (R := ℝ) (φ := fun _ : Fin n => ℝ) j) = L := by
  apply ContinuousLinearMap.coe_injective
  apply LinearMap.pi_ext'
  intro j
  apply LinearMap.ext_ring
  simp only [ContinuousLinearMap.coe_comp, LinearMap.comp_apply, LinearMap.single_apply]
  show (∑ j, G j • ContinuousLinearMap.proj (R := ℝ) (φ := fun _ : Fin n => ℝ) j) (Pi.single j 1) = L (Pi.single j 1)
  simp [h, Pi.single_apply]

/-- A finite result of `jax.value_and_grad` (in forward mode) is a gradient. -/
theorem grad_sound (id : Nat) (prog : List BuildCall) (base : Nat) {n : Nat} {x : Fin n → ℝ} (left : Prop)
    (hs : Uses prog fun s => s = .angle → left)
    (hg : ∀ root, rebuild (builtLayout id prog) base (vec x) = .ok root → ∀ k q, root.getChild k = .ok q →
      left → Prim.NoLeftLines q)
    {a : ℝ} {G : Fin n → ℝ}
    (hG : fwdGrad (objective (tracedLayout id prog) base) (vec x) = .ok (fin a, vec G)) :
    IsGradient (objective (builtLayout id prog) base) x G := by
  have ha : objective (builtLayout id prog) base (vec x) = .ok (fin a) := by
    have h := val_obj id prog base (valR_of (d := (vec x).map Dual.const) (x := vec x)
      (by rw [List.map_map]; exact List.map_id' _))
    simp only [fwdGrad, py_bind_ok] at hG
    obtain ⟨y, hy, cols, -, e⟩ := hG
    obtain ⟨w, hw, hwr⟩ := h.ok_right hy
    have hwr : y.val = w := hwr
    rw [hw, ← hwr]
    exact congrArg _ (Prod.ext_iff.mp (Except.ok.inj e)).1
  obtain ⟨f, D, h1, h2, h3, h4⟩ := grad_core id prog base x False False left
    (fun s ks ps key h => ⟨fun _ h => h, hs s ks ps key h⟩)
    (fun root e k q hq => ⟨False.elim, hg root e k q hq⟩) ha
  rw [h4] at hG
  have hD : ∀ j, (D j).slope = fin (G j) := ofFn_vec_inj (Prod.ext_iff.mp (Except.ok.inj hG)).2
  obtain ⟨F, L, hF, hL, hLG⟩ := HasD.all h1 (M := G) fun j => (h3 j).hasD (by rw [← (h3 j).val, h1]) (hD j)
  refine ⟨F, ?_, by rw [clm_sum G L hLG]; exact hL⟩
  filter_upwards [hF] with y hy
  rw [h2, hy]

/-- At a smooth geometry `jax.value_and_grad` (in forward mode) returns finite numbers. -/
theorem grad_finite (id : Nat) (prog : List BuildCall) (base : Nat) {n : Nat} {x : Fin n → ℝ} (zero left : Prop)
    (hs : Uses prog fun s => (s.MeasuresLength → zero) ∧ (s = .angle → left))
    (hg : ∀ root, rebuild (builtLayout id prog) base (vec x) = .ok root → ∀ k q, root.getChild k = .ok q →
      (zero → Prim.NoZeroLines q) ∧ (left → Prim.NoLeftLines q))
    {a : ℝ} (ha : objective (builtLayout id prog) base (vec x) = .ok (fin a)) :
    ∃ G : Fin n → ℝ, fwdGrad (objective (tracedLayout id prog) base) (vec x) = .ok (fin a, vec G) := by
  obtain ⟨f, D, h1, h2, h3, h4⟩ := grad_core id prog base x True zero left
    (fun s ks ps key h => ⟨fun h' _ => (hs s ks ps key h).1 h', (hs s ks ps key h).2⟩) hg ha
  have : ∀ j, ∃ s, (D j).slope = fin s := by
    intro j
    cases e : (D j).tan with
    | none => exact ⟨0, by simp [Dual.slope, e]⟩
    | some t =>
      obtain ⟨s, rfl⟩ := (h3 j).all trivial a t (by rw [← (h3 j).val, h1]) e
      exact ⟨s, by simp [Dual.slope, e]⟩
  choose G hG using this
  refine ⟨G, ?_⟩
  rw [h4]
  simp only [hG]
  rfl

/-- There is only one gradient. -/
theorem IsGradient.unique {n : Nat} {obj : List Flt → Py Flt} {x G G' : Fin n → ℝ} (h : IsGradient obj x G)
    (h' : IsGradient obj x G') : G = G' := by
  obtain ⟨F, h1, h2⟩ := h
  obtain ⟨F', h3, h4⟩ := h'
  have : F =ᶠ[nhds x] F' := by
    filter_upwards [h1, h3] with y e1 e2
    rw [e1] at e2
    exact fin_inj.mp (Except.ok.inj e2)
  have e := (h2.congr_of_eventuallyEq this.symm).unique h4
  funext j
  simpa [Pi.single_apply] using congrArg (fun L => L (Pi.single j 1)) e

/-- The sum of squares of finite residuals. -/
theorem objective_vec {l : Layout Flt} {base : Nat} {g : List Flt} {m : Nat} {b : Fin m → ℝ}
    (h : globalRes l base g = .ok (vec b)) : objective l base g = .ok (fin (sq b)) := by
  rw [objective_ok h]
  congr 1
  have : ∀ (xs : List ℝ) (a : ℝ), ((xs.map fin).map fun x => x * x).foldl (· + ·) (fin a) = fin (a + (xs.map (· ^ 2)).sum) := by
    intro xs
    induction xs with
    | nil => intro a; simp
    | cons x xs ih =>
      intro a
      simp only [List.map_cons, List.foldl_cons, List.sum_cons]
      rw [fin_mul, fin_add, ih]
      congr 1
      ring
  have h2 : vec b = (List.ofFn b).map fin := by rw [vec, List.map_ofFn]; rfl
  rw [h2]
  refine (this _ 0).trans ?_
  rw [zero_add, List.map_ofFn, List.sum_ofFn]
  rfl

/-- The gradient of the sum of squares is twice the residual times the Jacobian matrix. -/
theorem jacobian_gradient {l : Layout Flt} {base m n : Nat} {x : Fin n → ℝ} {M : Matrix (Fin m) (Fin n) ℝ}
    (hM : IsJacobian (globalRes l base) x M) {b : Fin m → ℝ} (hb : globalRes l base (vec x) = .ok (vec b)) :
    IsGradient (objective l base) x fun j => 2 * ∑ i, b i * M i j := by
  obtain ⟨F, h1, h2⟩ := hM
  have hFx : F x = b := by
    have e := h1.self_of_nhds
    rw [hb] at e
    funext i
    exact (fin_inj.mp (ofFn_vec_inj (f := fun i => fin (b i)) (Except.ok.inj e) i)).symm
  have g1 : ∀ i, HasFDerivAt (fun y => F y i) ((ContinuousLinearMap.proj i).comp
      (LinearMap.toContinuousLinearMap M.mulVecLin)) x := fun i =>
    (ContinuousLinearMap.proj (R := ℝ) (φ := fun _ : Fin m => ℝ) i).hasFDerivAt.comp x h2
  have g2 : HasFDerivAt (fun y => sq (F y)) (∑ i, (2 * F x i) • (ContinuousLinearMap.proj i).comp
      (LinearMap.toContinuousLinearMap M.mulVecLin)) x := by
    simp only [sq]
    refine HasFDerivAt.fun_sum fun i _ => ?_
    simpa using (g1 i).pow 2
  refine ⟨fun y => sq (F y), ?_, ?_⟩
  · filter_upwards [h1] with y hy
    exact objective_vec hy
  · rw [clm_sum _ _ fun j => ?_]
    · exact g2
    · simp [hFx, Finset.mul_sum, mul_assoc]

/-! ## Reverse mode -/

/-- The recorded number has the value. -/
def TValR (x : Flt) (p : Tape) : Prop := p.val = x

/-- Constants. -/
def TValC (c : Flt) (p : Tape) : Prop := p = Tape.const c

theorem tval_num : NumRel TValR TValC where
  ofC := by rintro b _ rfl; rfl
  truthy := by rintro b _ rfl; rfl
  c_zero := rfl
  c_one := rfl
  c_mul := by rintro b _ d _ rfl rfl; rfl
  c_sub := by rintro b _ d _ rfl rfl; rfl
  c_neg := by rintro b _ rfl; rfl
  add := by rintro _ a _ c rfl rfl; rfl
  sub := by rintro _ a _ c rfl rfl; rfl
  mul := by rintro _ a _ c rfl rfl; rfl
  div := by rintro _ a _ c rfl rfl; rfl
  neg := by rintro _ a rfl; rfl
  natCast _ := rfl

theorem tval_zero : ZeroOK TValR fun _ => True := by
  intro p p' h _ v v' e e'
  have := lineVec1_rel tval_num h
  rw [e, e'] at this
  have hv : LRel TValR v v' := this
  have : TValR _ _ := sumList_rel tval_num (LRel.map hv fun _ _ h => tval_num.mul h h)
  simp only [TValR] at this ⊢
  rw [← this]
  rfl

theorem tval_ang : AngOK TValR fun _ => True := by
  intro p p' h hG d d' e e' a b a' b' e1 e2 e3 e4
  have := unit1_rel tval_num tval_zero h hG
  rw [e, e'] at this
  have hx := get_rel (R := TValR) this 0
  have hy := get_rel (R := TValR) this 1
  rw [e1, e3] at hx
  rw [e2, e4] at hy
  have hx : a'.val = a := hx
  have hy : b'.val = b := hy
  subst hx hy
  rfl

theorem inputs_tval (x : List Flt) : LRel TValR x (Tape.inputs x) := by
  rw [LRel, List.forall₂_iff_get]
  refine ⟨by simp [Tape.inputs], fun i h1 h2 => ?_⟩
  simp [Tape.inputs, TValR]

/-- The recorded objective carries the value of the objective. -/
theorem tape_val_obj (id : Nat) (prog : List BuildCall) (base : Nat) (x : List Flt) :
    PyRel TValR (objective (builtLayout id prog) base x) (objective (tapedLayout id prog) base (Tape.inputs x)) := by
  have hl : LyRel TValR TValC (fun _ => True) (builtLayout id prog) (tapedLayout id prog) :=
    layout_rel tval_num (fun _ => rfl) id prog fun _ _ _ _ _ =>
      ⟨fun _ => tval_zero, fun _ => tval_ang, fun _ _ _ _ _ _ => trivial⟩
  exact objective_rel tval_num (globalRes_rel hl base (inputs_tval x) fun _ _ _ _ _ => trivial)

theorem inputs_tape (x : List Flt) (j : Nat) : LRel (TapeR x.length (Lin.unit j)) (Dual.seed x j) (Tape.inputs x) := by
  rw [LRel, List.forall₂_iff_get]
  refine ⟨by simp [Tape.inputs, Dual.seed], fun i h1 h2 => ?_⟩
  simp only [Tape.inputs, Dual.seed, List.get_eq_getElem, List.getElem_mapIdx]
  refine ⟨rfl, rfl, ?_⟩
  rintro _ ⟨⟩
  simpa [Tape.inputs, Lin.Below] using h2

/-- Forward mode in terms of the record. -/
theorem fwd_eq (id : Nat) (prog : List BuildCall) (base : Nat) {n : Nat} (x : Fin n → ℝ) {y : Tape}
    (hy : objective (tapedLayout id prog) base (Tape.inputs (vec x)) = .ok y) :
    (∀ l, y.lin = some l → l.Below n) ∧
    fwdGrad (objective (tracedLayout id prog) base) (vec x)
      = .ok (y.val, List.ofFn fun j : Fin n => (y.lin.map (Lin.run (Lin.unit j))).getD (fin 0)) := by
  have hn : (vec x).length = n := by simp [vec]
  have h0 := val_obj id prog base (valR_of (d := (vec x).map Dual.const) (x := vec x)
    (by rw [List.map_map]; exact List.map_id' _))
  obtain ⟨a, ha, hay⟩ := (tape_val_obj id prog base (vec x)).ok_right hy
  have hay : y.val = a := hay
  obtain ⟨d0, hd0, hd0a⟩ := h0.ok_left ha
  have hd0a : d0.val = a := hd0a
  have hj := fun j : Nat => objective_rel tape_num (tape_res id prog base (inputs_tape (vec x) j))
  have hb : ∀ l, y.lin = some l → l.Below n := by
    obtain ⟨d, -, hd⟩ := (hj 0).ok_right hy
    rw [← hn]
    exact hd.below
  choose c hc hcr using fun j : Fin n => (hj j).ok_right hy
  refine ⟨hb, ?_⟩
  rw [fwdGrad_ok hd0 hc, hd0a, hay]
  congr 3
  funext j
  rw [Dual.slope, (hcr j).tan]

/-- Reverse mode returns finite numbers exactly if forward mode does, and then the same. -/
theorem rev_iff (id : Nat) (prog : List BuildCall) (base : Nat) {n : Nat} (x : Fin n → ℝ) (v : Flt) (G : Fin n → ℝ) :
    valueAndGrad (objective (tapedLayout id prog) base) (vec x) = .ok (v, vec G) ↔
    fwdGrad (objective (tracedLayout id prog) base) (vec x) = .ok (v, vec G) := by
  have hn : (vec x).length = n := by simp [vec]
  have hz : ((vec x).map fun _ => fin 0) = vec fun _ : Fin n => (0 : ℝ) := by
    rw [vec, List.map_ofFn]; rfl
  cases hy : objective (tapedLayout id prog) base (Tape.inputs (vec x)) with
  | error e =>
    have h1 := tape_val_obj id prog base (vec x)
    have h0 := val_obj id prog base (valR_of (d := (vec x).map Dual.const) (x := vec x)
      (by rw [List.map_map]; exact List.map_id' _))
    simp only [valueAndGrad, fwdGrad, hy, bind, Except.bind]
    cases hb : objective (builtLayout id prog) base (vec x) with
    | ok a => rw [hb, hy] at h1; exact h1.elim
    | error e' =>
      rw [hb] at h0
      cases hd : objective (tracedLayout id prog) base ((vec x).map Dual.const) with
      | ok d => rw [hd] at h0; exact h0.elim
      | error e'' => simp
  | ok y =>
    obtain ⟨hb, hf⟩ := fwd_eq id prog base x hy
    rw [hf]
    simp only [valueAndGrad, hy, bind, Except.bind, hz, Except.ok.injEq, Prod.mk.injEq]
    refine and_congr_right fun _ => ?_
    cases hl : y.lin with
    | none =>
      simp only [Option.map_none, Option.getD_none]
      rfl
    | some l =>
      simp only [Option.map_some, Option.getD_some]
      constructor
      · intro h
        have hg : l.Good := by
          by_contra hng
          obtain ⟨i, hi⟩ := Lin.pull_notGood l (hb l hl) hng (fin 1) (vec fun _ : Fin n => (0 : ℝ)) (by simp [vec])
          rw [h] at hi
          obtain ⟨h1, h2⟩ := List.getElem?_eq_some_iff.mp hi
          simp [vec] at h2
        choose s hs using fun j : Fin n => (Lin.good_iff j l).mp hg
        rw [Lin.pull_vec l s hg hs] at h
        have : ∀ j, s j = G j := fun j => by
          have := ofFn_vec_inj (f := fun j => fin (0 + 1 * s j)) h j
          simpa using this
        simp only [hs, this]
        rfl
      · intro h
        have hs : ∀ j : Fin n, l.run (Lin.unit j) = fin (G j) := ofFn_vec_inj h
        by_cases h0 : n = 0
        · subst h0
          apply List.eq_nil_of_length_eq_zero
          simp [vec]
        · have hg : l.Good := (Lin.good_iff 0 l).mpr ⟨_, hs ⟨0, Nat.pos_of_ne_zero h0⟩⟩
          rw [Lin.pull_vec l G hg hs]
          congr 1
          funext j
          ring

end MplLayout
