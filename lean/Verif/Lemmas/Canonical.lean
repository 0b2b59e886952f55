import Verif.Props.LeastSquares
import Verif.Lemmas.SolveKeeps

/-!
# The result of the solver is determined by the best geometries and by distances
-/

namespace MplLayout.Solver

open Flt

/-- A finite geometry of the layout's structure. -/
structure GoodGeo (l : Layout Flt) (r : Prim Flt) : Prop where
  ok : PrimOK r
  str : SameStructure l.prim r
  fin : r.Finite

/-- No geometry has a smaller misfit. -/
def Least (l : Layout Flt) (r : Prim Flt) : Prop :=
  ∃ s, l.Misfit r s ∧ ∀ r', GoodGeo l r' → ∃ s', l.Misfit r' s' ∧ s ≤ s'

/-- The nearest of the best geometries. -/
def Best (l : Layout Flt) (r : Prim Flt) : Prop :=
  GoodGeo l r ∧ Least l r ∧ ∀ r', GoodGeo l r' → Least l r' → ∀ ps, Represents l.prim ps →
    ∃ t t', Moved ps l.prim r t ∧ Moved ps l.prim r' t' ∧ t ≤ t' ∧ (t' = t → SameGeometry r r')

theorem misfit_unique {l : Layout Flt} {r : Prim Flt} {s s' : ℝ} (h : l.Misfit r s)
    (h' : l.Misfit r s') : s = s' := by
  obtain ⟨v, h1, rfl⟩ := h
  obtain ⟨w, h2, rfl⟩ := h'
  rw [h1] at h2
  rw [map_fin_inj (Except.ok.inj h2)]

theorem coords_unique {a : Prim Flt} (ha : a.WF) {ps : List (List Str)} {xs ys : List ℝ}
    (h1 : CoordsAt a ps xs) (h2 : CoordsAt a ps ys) : xs = ys := by
  obtain ⟨xss, h1, rfl⟩ := h1
  obtain ⟨yss, h2, rfl⟩ := h2
  congr 1
  induction h1 generalizing yss with
  | nil => cases h2; rfl
  | cons h hs ih =>
    cases h2 with
    | cons h' hs' =>
      obtain ⟨n, e1, e2⟩ := h
      obtain ⟨m, e3, e4⟩ := h'
      cases At_unique ha e1 e3
      rw [ih _ hs', map_fin_inj (e2.symm.trans e4)]

theorem moved_unique {a b : Prim Flt} (ha : a.WF) (hb : b.WF) {ps : List (List Str)} {s s' : ℝ}
    (h1 : Moved ps a b s) (h2 : Moved ps a b s') : s = s' := by
  obtain ⟨x, y, h3, h4, rfl⟩ := h1
  obtain ⟨x', y', h5, h6, rfl⟩ := h2
  rw [coords_unique ha h3 h5, coords_unique hb h4 h6]

/-- With exact numerics the Newton method returns the nearest of the best geometries. -/
theorem newton_best {num : Numerics Flt} (hnum : Exact num) {id : Nat}
    {ops : List (LayoutOp Flt)} (hops : ∀ op ∈ ops, op.Uses Shipped.IsAffine) {l : Layout Flt}
    (hcons : l.cons = ((Layout.empty id).run ops).cons) (hok : PrimOK l.prim) (hfin : l.prim.Finite)
    {r0 : Prim Flt} (hr0 : GoodGeo l r0) {s0 : ℝ} (h0 : l.Misfit r0 s0) (base : Nat) (a b : ℝ)
    (maxIter : Int) (hmax : 1 ≤ maxIter) :
    ∃ r info, solveNewton num l base (Flt.fin a) (Flt.fin b) maxIter = .ok (r, info) ∧ Best l r := by
  obtain ⟨r, info, s, h1, h2, h3, h4, h5⟩ := Props.least_squares_of num hnum id ops hops l hcons hok hfin r0
    hr0.ok hr0.str hr0.fin s0 h0 base a b maxIter hmax
  have hg : GoodGeo l r := ⟨newton_primOK num l hok base _ _ maxIter r info h1, h2, h3⟩
  refine ⟨r, info, h1, hg, ⟨s, h4, fun r' hr' => ?_⟩, fun r' hr' hm ps hps => ?_⟩
  · obtain ⟨s', k1, k2, _⟩ := h5 r' hr'.ok hr'.str hr'.fin
    exact ⟨s', k1, k2⟩
  · obtain ⟨s', k1, k2, k3⟩ := h5 r' hr'.ok hr'.str hr'.fin
    obtain ⟨s1, m1, m2⟩ := hm
    obtain ⟨s2, m3, m4⟩ := m2 r hg
    rw [misfit_unique m1 k1, misfit_unique m3 h4] at m4
    exact k3 (le_antisymm m4 k2) ps hps

/-- Maps between the geometries of two layouts that keep the best ones and distances take the result of
one to that of the other. -/
theorem Best.transfer {l l' : Layout Flt} {φ ψ : Prim Flt → Prim Flt} (hok : PrimOK l.prim)
    (hok' : PrimOK l'.prim) (hφ : ∀ r, GoodGeo l r → GoodGeo l' (φ r)) (hψ : ∀ r, GoodGeo l' r → GoodGeo l (ψ r))
    (mφ : ∀ r, GoodGeo l r → Least l r → Least l' (φ r)) (mψ : ∀ r, GoodGeo l' r → Least l' r → Least l (ψ r))
    {ps : List (List Str)} (hps : Represents l.prim ps) (hps' : Represents l'.prim ps)
    (dφ : ∀ r t, GoodGeo l r → Moved ps l.prim r t → Moved ps l'.prim (φ r) t)
    (dψ : ∀ r t, GoodGeo l' r → Moved ps l'.prim r t → Moved ps l.prim (ψ r) t) {r r' : Prim Flt}
    (h : Best l r) (h' : Best l' r') : SameGeometry r' (φ r) := by
  obtain ⟨g, m, b⟩ := h
  obtain ⟨g', m', b'⟩ := h'
  obtain ⟨t1, t2, a1, a2, a3, a4⟩ := b' (φ r) (hφ r g) (mφ r g m) ps hps'
  obtain ⟨t3, t4, c1, c2, c3, _⟩ := b (ψ r') (hψ r' g') (mψ r' g' m') ps hps
  have e1 := moved_unique hok'.wf (hφ r g).ok.wf (dφ r t3 g c1) a2
  have e2 := moved_unique hok.wf (hψ r' g').ok.wf (dψ r' t1 g' a1) c2
  exact a4 (le_antisymm (by linarith) a3)

theorem SameStructure.symm' {K : Type} {a b : Prim K} (h : SameStructure a b) : SameStructure b a :=
  ⟨fun p => (h.paths p).symm, fun p m m' h1 h2 => by
    obtain ⟨x, y, z⟩ := h.nodes p m' m h2 h1
    exact ⟨x.symm, y.symm, z.symm⟩,
   fun p q m n m' n' h1 h2 h3 h4 => (h.sharing p q m' n' m n h3 h4 h1 h2).symm⟩

theorem SameStructure.trans' {K : Type} {a b c : Prim K} (h : SameStructure a b) (h' : SameStructure b c) :
    SameStructure a c := by
  refine ⟨fun p => (h.paths p).trans (h'.paths p), fun p m m' h1 h2 => ?_,
    fun p q m n m' n' h1 h2 h3 h4 => ?_⟩
  · obtain ⟨m2, h3⟩ := (h.paths p).mp ⟨m, h1⟩
    obtain ⟨x, y, z⟩ := h.nodes p m m2 h1 h3
    obtain ⟨x', y', z'⟩ := h'.nodes p m2 m' h3 h2
    exact ⟨x.trans x', y.trans y', z.trans z'⟩
  · obtain ⟨m2, e1⟩ := (h.paths p).mp ⟨m, h1⟩
    obtain ⟨n2, e2⟩ := (h.paths q).mp ⟨n, h2⟩
    exact (h.sharing p q m n m2 n2 h1 h2 e1 e2).trans (h'.sharing p q m2 n2 m' n' e1 e2 h3 h4)

theorem represents_str {K : Type} {a b : Prim K} (h : SameStructure a b)
    {ps : List (List Str)} (hps : Represents a ps) : Represents b ps := by
  refine ⟨fun p hp => (h.paths p).mp (hps.paths p hp), fun q m hm => ?_, ?_⟩
  · obtain ⟨m0, h0⟩ := (h.paths q).mpr ⟨m, hm⟩
    obtain ⟨p, n0, h1, h2, h3⟩ := hps.all q m0 h0
    obtain ⟨n, h4⟩ := (h.paths p).mp ⟨n0, h2⟩
    exact ⟨p, n, h1, h4, (h.sharing p q n0 m0 n m h2 h0 h4 hm).mp h3⟩
  · refine hps.once.imp fun {p q} hne m n hm hn e => ?_
    obtain ⟨m0, h0⟩ := (h.paths p).mpr ⟨m, hm⟩
    obtain ⟨n0, h1⟩ := (h.paths q).mpr ⟨n, hn⟩
    exact hne m0 n0 h0 h1 ((h.sharing p q m0 n0 m n h0 h1 hm hn).mpr e)

theorem coords_geometry {a b : Prim Flt} (h : SameGeometry a b) {ps : List (List Str)} {xs : List ℝ}
    (hx : CoordsAt a ps xs) : CoordsAt b ps xs := by
  obtain ⟨xss, hf, rfl⟩ := hx
  refine ⟨xss, hf.imp fun p x ⟨n, h1, h2⟩ => ?_, rfl⟩
  obtain ⟨m, hm⟩ := (h.1 p).mp ⟨n, h1⟩
  exact ⟨m, hm, ((h.2 p n m h1 hm).2.2).symm.trans h2⟩

theorem moved_geometry {a b r : Prim Flt} (h : SameGeometry a b) {ps : List (List Str)} {t : ℝ}
    (hx : Moved ps a r t) : Moved ps b r t := by
  obtain ⟨xs, ys, h1, h2, h3⟩ := hx
  exact ⟨xs, ys, coords_geometry h h1, h2, h3⟩

/-- Two layouts with the same geometry and the same best geometries have the same result. -/
theorem best_same {l l' : Layout Flt} (hok : PrimOK l.prim) (hok' : PrimOK l'.prim)
    (hs : SameStructure l.prim l'.prim) (hg : SameGeometry l.prim l'.prim)
    (hm : ∀ r, GoodGeo l r → (Least l r ↔ Least l' r)) {r r' : Prim Flt} (h : Best l r) (h' : Best l' r') :
    SameGeometry r r' := by
  obtain ⟨ps, hps⟩ := represents_exists hok
  have g1 : ∀ r, GoodGeo l r → GoodGeo l' r := fun r h => ⟨h.ok, SameStructure.trans' (SameStructure.symm' hs) h.str, h.fin⟩
  have g2 : ∀ r, GoodGeo l' r → GoodGeo l r := fun r h => ⟨h.ok, SameStructure.trans' hs h.str, h.fin⟩
  exact SameGeometry.symm (Best.transfer (φ := id) (ψ := id) hok hok' g1 g2 (fun r h => (hm r h).mp) (fun r h => (hm r (g2 r h)).mpr)
    hps (represents_str hs hps) (fun r t _ h => moved_geometry hg h)
    (fun r t _ h => moved_geometry (SameGeometry.symm hg) h) h h')

/-- If a misfit of zero is possible then the best geometries are those that have it. -/
theorem least_zero {l : Layout Flt} {r0 : Prim Flt} (h0 : GoodGeo l r0) (hz : l.Misfit r0 0) {r : Prim Flt}
    (hall : ∀ r', GoodGeo l r' → ∃ s, l.Misfit r' s) : Least l r ↔ l.Misfit r 0 := by
  have nonneg : ∀ {r s}, l.Misfit r s → 0 ≤ s := by
    rintro r s ⟨v, _, rfl⟩
    apply List.sum_nonneg
    simp only [List.mem_map, forall_exists_index, and_imp, forall_apply_eq_imp_iff₂]
    exact fun x _ => sq_nonneg x
  constructor
  · rintro ⟨s, h1, h2⟩
    obtain ⟨s', h3, h4⟩ := h2 r0 h0
    rw [misfit_unique h3 hz] at h4
    rwa [le_antisymm h4 (nonneg h1)] at h1
  · intro h
    refine ⟨0, h, fun r' hr' => ?_⟩
    obtain ⟨s, hs⟩ := hall r' hr'
    exact ⟨s, hs, nonneg hs⟩

/-- A misfit does not depend on the order of the constraints. -/
theorem misfit_perm {id id' : Nat} {ops ops' : List (LayoutOp Flt)} (hr : ∀ op ∈ ops, op.Regular)
    (hr' : ∀ op ∈ ops', op.Regular) (ht : ∀ op ∈ ops, op.TopLevel) (ht' : ∀ op ∈ ops', op.TopLevel)
    (hp : ((Layout.empty id).added ops).Perm ((Layout.empty id').added ops')) {r : Prim Flt}
    (h1 : ∀ k p, ((Layout.empty id).run ops).prim.getChild k = .ok p →
      ∃ p', r.getChild k = .ok p' ∧ p'.ty = p.ty)
    (h2 : ∀ k p, ((Layout.empty id').run ops').prim.getChild k = .ok p →
      ∃ p', r.getChild k = .ok p' ∧ p'.ty = p.ty) {s : ℝ}
    (h : ((Layout.empty id).run ops).Misfit r s) : ((Layout.empty id').run ops').Misfit r s := by
  obtain ⟨v, e1, rfl⟩ := h
  obtain ⟨hne, vs, e2, e3⟩ := (Props.C50_residual_partial id ops hr ht r h1 _).mp e1
  obtain ⟨vs', e4, e5⟩ := List.perm_comp_forall₂ hp.symm e2
  have hfl := (List.Perm.flatten e5)
  rw [← e3] at hfl
  obtain ⟨v', hv'⟩ : ∃ v' : List ℝ, vs'.flatten = v'.map fin := by
    have : ∀ w : List Flt, (∀ x ∈ w, ∃ y, x = Flt.fin y) → ∃ v' : List ℝ, w = v'.map Flt.fin := by
      intro w
      induction w with
      | nil => exact fun _ => ⟨[], rfl⟩
      | cons x w ih =>
        intro hw
        obtain ⟨v', rfl⟩ := ih fun y hy => hw y (by simp [hy])
        obtain ⟨y, rfl⟩ := hw x (by simp)
        exact ⟨y :: v', rfl⟩
    refine this _ fun x hx => ?_
    obtain ⟨y, _, rfl⟩ := List.mem_map.mp (hfl.subset hx)
    exact ⟨y, rfl⟩
  refine ⟨v', (Props.C50_residual_partial id' ops' hr' ht' r h2 _).mpr
    ⟨fun e => hne ?_, vs', e4, hv'.symm⟩, ?_⟩
  · rw [e] at hp; exact hp.eq_nil
  · rw [hv'] at hfl
    have : v'.Perm v := (List.map_perm_map_iff (fun _ _ e => Flt.fin.inj e)).mp hfl
    exact (this.map _).sum_eq.symm

/-- A misfit of zero: every constraint is satisfied. -/
theorem misfit_zero_iff {id : Nat} {ops : List (LayoutOp Flt)} (hr : ∀ op ∈ ops, op.Regular)
    (ht : ∀ op ∈ ops, op.TopLevel) {r : Prim Flt}
    (h1 : ∀ k p, ((Layout.empty id).run ops).prim.getChild k = .ok p →
      ∃ p', r.getChild k = .ok p' ∧ p'.ty = p.ty) :
    ((Layout.empty id).run ops).Misfit r 0 ↔ (Layout.empty id).added ops ≠ [] ∧
      ∀ a ∈ (Layout.empty id).added ops, ∃ w, a.Value r w ∧ Zeros w := by
  have zero : ∀ v : List ℝ, (0 = (v.map (· ^ 2)).sum ↔ ∀ x ∈ v, x = 0) := by
    intro v
    induction v with
    | nil => simp
    | cons x v ih =>
      have hn : 0 ≤ (v.map (· ^ 2)).sum := by
        apply List.sum_nonneg
        simp only [List.mem_map, forall_exists_index, and_imp, forall_apply_eq_imp_iff₂]
        exact fun x _ => sq_nonneg x
      simp only [List.map_cons, List.sum_cons, List.mem_cons, forall_eq_or_imp, ← ih]
      constructor
      · intro h
        have := sq_nonneg x
        exact ⟨pow_eq_zero_iff (two_ne_zero) |>.mp (by linarith), by linarith⟩
      · rintro ⟨rfl, h⟩
        rw [← h]; ring
  constructor
  · rintro ⟨v, e1, e2⟩
    obtain ⟨hne, vs, e3, e4⟩ := (Props.C50_residual_partial id ops hr ht r h1 _).mp e1
    refine ⟨hne, fun a ha => ?_⟩
    rw [zero] at e2
    have hz : ∀ w ∈ vs, Zeros w := by
      intro w hw x hx
      have : x ∈ v.map fin := by rw [e4]; exact List.mem_flatten.mpr ⟨w, hw, hx⟩
      obtain ⟨y, hy, rfl⟩ := List.mem_map.mp this
      rw [e2 y hy]
    clear hne e1 e4
    revert hz
    generalize (Layout.empty id).added ops = as at ha e3
    induction e3 with
    | nil => cases ha
    | cons h hs ih =>
      intro hz
      rcases List.mem_cons.mp ha with rfl | ha
      · exact ⟨_, h, hz _ (by simp)⟩
      · exact ih ha fun w hw => hz w (by simp [hw])
  · rintro ⟨hne, h⟩
    have : ∃ vs : List (List Flt), List.Forall₂ (fun a w => Added.Value a r w)
        ((Layout.empty id).added ops) vs ∧ ∀ w ∈ vs, Zeros w := by
      clear hne
      generalize (Layout.empty id).added ops = as at h
      induction as with
      | nil => exact ⟨[], .nil, by simp⟩
      | cons a as ih =>
        obtain ⟨w, h1, h2⟩ := h a (by simp)
        obtain ⟨vs, h3, h4⟩ := ih fun b hb => h b (by simp [hb])
        exact ⟨w :: vs, .cons h1 h3, by simpa using ⟨h2, h4⟩⟩
    obtain ⟨vs, h2, h3⟩ := this
    have hv : vs.flatten = (List.replicate vs.flatten.length (0 : ℝ)).map fin := by
      rw [List.map_replicate, List.eq_replicate_iff]
      refine ⟨rfl, fun x hx => ?_⟩
      obtain ⟨w, hw, hx⟩ := List.mem_flatten.mp hx
      exact h3 w hw x hx
    refine ⟨_, (Props.C50_residual_partial id ops hr ht r h1 _).mpr ⟨hne, vs, h2, hv.symm⟩, ?_⟩
    rw [zero]
    exact fun x hx => List.eq_of_mem_replicate hx

/-- A tree of the same structure has what the layout's tree has. -/
theorem structure_getChild {K : Type} {a b : Prim K} (hb : b.WF) (h : SameStructure a b) (k : Str)
    (p : Prim K) (hp : a.getChild k = .ok p) : ∃ p', b.getChild k = .ok p' ∧ p'.ty = p.ty := by
  have h1 := Node.At_of_find (Node.getChild_ok_iff.mp hp)
  obtain ⟨p', h2⟩ := (h.paths _).mp ⟨p, h1⟩
  exact ⟨p', Node.getChild_ok_iff.mpr ((Node.find_iff_At hb).mpr h2), (h.nodes _ p p' h1 h2).1.symm⟩

/-- Every geometry of an affine layout has a misfit if one has. -/
theorem misfit_all {id : Nat} {ops : List (LayoutOp Flt)} (hops : ∀ op ∈ ops, op.Uses Shipped.IsAffine)
    {l : Layout Flt} (hcons : l.cons = ((Layout.empty id).run ops).cons) (hok : PrimOK l.prim)
    {r0 : Prim Flt} (hr0 : GoodGeo l r0) {s0 : ℝ} (h0 : l.Misfit r0 s0) {r : Prim Flt} (hr : GoodGeo l r) :
    ∃ s, l.Misfit r s := by
  obtain ⟨v0, hv0, _⟩ := h0
  obtain ⟨m, M, c, _, h1, _⟩ := affine_residual_finite hops id 0 hcons hok hr0.ok hr0.str hr0.fin hv0 (by
    intro a ha
    obtain ⟨x, _, rfl⟩ := List.mem_map.mp ha
    exact ⟨x, rfl⟩)
  obtain ⟨y, r1, k1, k2, k3⟩ := exists_param l hok 0 hr.ok hr.str hr.fin
  have hres : l.residual r = .ok (vec (M.mulVec y + c)) := by
    rw [← residual_geometry (by rw [hcons]; exact run_nip hops id) k2 hr.ok.wf k3]
    have := h1 y
    simpa only [globalRes, k1, bind, Except.bind] using this
  exact ⟨_, (misfit_vec hres _).mpr rfl⟩

end MplLayout.Solver
