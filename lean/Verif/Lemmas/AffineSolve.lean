import Verif.Lemmas.Exact
import Mathlib.Analysis.Calculus.FDeriv.Linear
import Mathlib.Analysis.Calculus.FDeriv.Add
import Verif.Lemmas.LayoutSolve
import Verif.Lemmas.Rebuild

/-!
# Layouts of affine constraints
-/

namespace MplLayout

open Flt

section cls
variable {n : Nat}

/-- Affine functions, and the function without a finite value. -/
def AffF (g : (Fin n → ℝ) → Flt) : Prop :=
  (∀ x, g x = bad) ∨ ∃ (a : Fin n → ℝ) (c : ℝ), ∀ x, g x = fin (∑ i, a i * x i + c)

theorem affF_lin : LinClass (AffF (n := n)) where
  const c := by
    cases c with
    | bad => exact .inl fun _ => rfl
    | fin c => exact .inr ⟨0, c, fun x => by simp⟩
  add := by
    rintro f g (hf | ⟨a, c, hf⟩) (hg | ⟨b, d, hg⟩)
    · exact .inl fun x => by simp [hf]
    · exact .inl fun x => by simp [hf]
    · exact .inl fun x => by simp [hg]
    · refine .inr ⟨a + b, c + d, fun x => ?_⟩
      simp only [hf, hg, fin_add, Pi.add_apply, add_mul, Finset.sum_add_distrib]
      congr 1; ring
  sub := by
    rintro f g (hf | ⟨a, c, hf⟩) (hg | ⟨b, d, hg⟩)
    · exact .inl fun x => by simp [hf]
    · exact .inl fun x => by simp [hf]
    · exact .inl fun x => by simp [hg]
    · refine .inr ⟨a - b, c - d, fun x => ?_⟩
      simp only [hf, hg, fin_sub, Pi.sub_apply, sub_mul, Finset.sum_sub_distrib]
      congr 1; ring
  smul := by
    rintro (s | _) f (hf | ⟨a, c, hf⟩)
    · exact .inl fun x => by simp [hf]
    · refine .inr ⟨fun i => s * a i, s * c, fun x => ?_⟩
      simp only [hf, fin_mul, mul_add, Finset.mul_sum, mul_assoc]
    · exact .inl fun x => by simp
    · exact .inl fun x => by simp
  muls := by
    rintro (s | _) f (hf | ⟨a, c, hf⟩)
    · exact .inl fun x => by simp [hf]
    · refine .inr ⟨fun i => s * a i, s * c, fun x => ?_⟩
      simp only [hf, fin_mul]
      rw [mul_comm, mul_add, Finset.mul_sum]
      simp only [mul_assoc]
    · exact .inl fun x => by simp
    · exact .inl fun x => by simp

end cls

theorem unpack_map {K L : Type} (f : K → L) (bounds : List Nat) (g : List K) :
    unpack bounds (g.map f) = (unpack bounds g).map (List.map f) := by
  simp only [unpack, List.map_map]
  apply List.map_congr_left
  rintro ⟨a, b⟩ _
  simp only [Function.comp, pySlice_map]

/-- The coordinates as functions. -/
def coords (n : Nat) : List ((Fin n → ℝ) → Flt) := List.ofFn fun i x => fin (x i)

theorem coords_at {n : Nat} (x : Fin n → ℝ) : (coords n).map (· x) = vec x := by
  simp [coords, vec, List.map_ofFn, Function.comp_def]

theorem coords_aff {n : Nat} {g : (Fin n → ℝ) → Flt} (h : g ∈ coords n) : AffF g := by
  obtain ⟨i, rfl⟩ := (List.mem_ofFn' _ _).mp h
  exact .inr ⟨Pi.single i 1, 0, fun x => by simp [Pi.single_apply]⟩

namespace Solver

/-- The values of the nodes as functions of the global parameter. -/
def paramVal (l : Layout Flt) (base n : Nat) (x : Fin n → ℝ) (v : PVal Flt) : PVal Flt :=
  ⟨v.id, ((unpack (idxBounds (primValues l)) (vec x))[v.id - base]?).getD []⟩

theorem mem_pySlice {α : Type} {l : List α} {a b : Option Int} {x : α} (h : x ∈ pySlice l a b) : x ∈ l := by
  simp only [pySlice] at h
  exact List.mem_of_mem_drop (List.mem_of_mem_take h)

theorem paramVal_aff (l : Layout Flt) (base n : Nat) : ValA (AffF (n := n)) (paramVal l base n) := by
  intro v
  refine ⟨((unpack (idxBounds (primValues l)) (coords n))[v.id - base]?).getD [], ?_, ?_⟩
  · intro g hg
    cases e : (unpack (idxBounds (primValues l)) (coords n))[v.id - base]? with
    | none => rw [e] at hg; simp at hg
    | some gs =>
      rw [e] at hg
      have := List.mem_of_getElem? e
      simp only [unpack, List.mem_map] at this
      obtain ⟨ab, _, e'⟩ := this
      rw [Option.getD_some, ← e'] at hg
      exact coords_aff (mem_pySlice hg)
  · intro x
    simp only [paramVal]
    rw [← coords_at, unpack_map, List.getElem?_map]
    cases (unpack (idxBounds (primValues l)) (coords n))[v.id - base]? <;> rfl

theorem rebuild_mapV (l : Layout Flt) (hok : PrimOK l.prim) (base : Nat) : ∃ T : Prim Flt,
    ∀ x : Fin (dim l) → ℝ, rebuild l base (vec x) = .ok (T.mapV (paramVal l base (dim l) x)) := by
  obtain ⟨T, e1, e2, e3, e4⟩ := rebuild_at l hok base (vec (0 : Fin (dim l) → ℝ)) (vec_length _)
  refine ⟨T, fun x => ?_⟩
  obtain ⟨r, f1, f2, f3, f4⟩ := rebuild_at l hok base (vec x) (vec_length _)
  rw [f1]
  congr 1
  refine ext_At f2 (WF_mapV _ e2) (fun p => ?_) (fun p m m' hm hm' => ?_)
  · constructor
    · rintro ⟨m, hm⟩
      obtain ⟨m0, h0⟩ := f3 p m hm
      obtain ⟨m1, _, _, h1, _⟩ := e4 p m0 h0
      exact ⟨_, (At_mapV _).mpr ⟨m1, h1, rfl⟩⟩
    · rintro ⟨m, hm⟩
      obtain ⟨m1, h1, rfl⟩ := (At_mapV _).mp hm
      obtain ⟨m0, h0⟩ := e3 p m1 h1
      obtain ⟨m2, _, _, h2, _⟩ := f4 p m0 h0
      exact ⟨m2, h2⟩
  · obtain ⟨m1, h1, rfl⟩ := (At_mapV _).mp hm'
    obtain ⟨m0, h0⟩ := e3 p m1 h1
    obtain ⟨a, i, v, a1, a2, a3, a4, a5, a6, a7, a8⟩ := f4 p m0 h0
    obtain ⟨b, j, w, b1, b2, b3, b4, b5, b6, b7, b8⟩ := e4 p m0 h0
    obtain rfl := At_unique f2 a1 hm
    obtain rfl := At_unique e2 b1 h1
    have hij : i = j := by
      have h : some i = some j := a4.symm.trans b4
      exact Option.some.inj h
    subst hij
    simp only [Node.ty_mapV, Node.keys_mapV, Node.value_mapV]
    refine ⟨by rw [a2, b2], by rw [a3, b3], ?_⟩
    rw [a7, b7]
    simp [paramVal, a6]

/-- There is a parameter vector that gives any tree of the same structure. -/
theorem exists_param (l : Layout Flt) (hok : PrimOK l.prim) (base : Nat) {r' : Prim Flt}
    (hr : PrimOK r') (hs : SameStructure l.prim r') (hf : r'.Finite) :
    ∃ (y : Fin (dim l) → ℝ) (r : Prim Flt), rebuild l base (vec y) = .ok r ∧ r.WF ∧ SameGeometry r r' := by
  obtain ⟨c1, c2, c3, c4, c5⟩ := Props.C17_unique_values PVal.id l.prim hok.wf hok.slashFree hok.ident
  have hW : ∀ i, ∃ w : List ℝ, i < (primValues l).length → ∃ p m m', l.prim.At p m ∧ IdxAt l p i ∧
      r'.At p m' ∧ m'.value.arr = w.map fin ∧ (primValues l)[i]? = some m.value.arr := by
    intro i
    by_cases hi : i < (primValues l).length
    · obtain ⟨p, m, h1, h2⟩ := c4 i (by simpa [primValues] using hi)
      obtain ⟨m', h3⟩ := (hs.paths p).mp ⟨m, h1⟩
      have hfin := hf p m' h3
      obtain ⟨w, hw⟩ : ∃ w : List ℝ, m'.value.arr = w.map fin := by
        generalize m'.value.arr = a at hfin
        clear h3
        induction a with
        | nil => exact ⟨[], rfl⟩
        | cons v a ih =>
          obtain ⟨x, rfl⟩ := hfin v (by simp)
          obtain ⟨w, rfl⟩ := ih fun v hv => hfin v (by simp [hv])
          exact ⟨x :: w, rfl⟩
      obtain ⟨j, h4, h5⟩ := c1 p m h1
      have hij : i = j := Option.some.inj (h2.symm.trans h4)
      subst hij
      exact ⟨w, fun _ => ⟨p, m, m', h1, h2, h3, hw, by simp [primValues, h5]⟩⟩
    · exact ⟨[], fun h => absurd h hi⟩
  choose W hW using hW
  let vals : List (List Flt) := (List.range (primValues l).length).map fun i => (W i).map fin
  have hlen : vals.map List.length = (primValues l).map List.length := by
    apply List.ext_getElem?
    intro i
    simp only [vals, List.getElem?_map]
    by_cases hi : i < (primValues l).length
    · obtain ⟨p, m, m', h1, h2, h3, h4, h5⟩ := hW i hi
      rw [h5, List.getElem?_range hi]
      simp only [Option.map_some, Option.some.injEq]
      rw [← h4, (hs.nodes p m m' h1 h3).2.2]
    · rw [List.getElem?_eq_none (by simpa using hi), List.getElem?_eq_none (by simpa using hi)]
      rfl
  let Y : List ℝ := ((List.range (primValues l).length).map W).flatten
  have hY : Y.map fin = vals.flatten := by
    simp only [Y, vals, List.map_flatten, List.map_map, Function.comp_def]
  have hYlen : Y.length = dim l := by
    rw [dim, ← hlen, ← List.length_flatten, ← hY, List.length_map]
  let y : Fin (dim l) → ℝ := fun i => Y[i.1]'(by rw [hYlen]; exact i.2)
  have hy : vec y = vals.flatten := by
    rw [← hY]
    apply List.ext_getElem
    · simp [vec, hYlen]
    · intro i h1 h2
      simp [vec, y]
  have hne : vals ≠ [] := by
    intro e
    have := congrArg List.length hlen
    rw [e] at this
    simp only [List.map_nil, List.length_nil, List.length_map] at this
    exact primValues_ne l hok (List.eq_nil_of_length_eq_zero this.symm)
  have hun : unpack (idxBounds (primValues l)) (vec y) = vals := by
    rw [hy]
    have := Props.C20_unpack_pack vals vals.flatten (by simp [npConcat, hne])
    simp only [idxBounds, hlen] at this
    exact this
  obtain ⟨r, e1, e2, e3, e4⟩ := rebuild_at l hok base (vec y) (vec_length _)
  refine ⟨y, r, e1, e2, ?_, ?_⟩
  · intro p
    constructor
    · rintro ⟨m, hm⟩
      exact (hs.paths p).mp (e3 p m hm)
    · rintro ⟨m', hm'⟩
      obtain ⟨m, hm⟩ := (hs.paths p).mpr ⟨m', hm'⟩
      obtain ⟨a, _, _, h, _⟩ := e4 p m hm
      exact ⟨a, h⟩
  · intro p a m' ha hm'
    obtain ⟨m, hm⟩ := e3 p a ha
    obtain ⟨a', i, v, a1, a2, a3, a4, a5, a6, a7, a8⟩ := e4 p m hm
    obtain rfl := At_unique e2 a1 ha
    obtain ⟨n1, n2, _⟩ := hs.nodes p m m' hm hm'
    refine ⟨by rw [a2, n1], by rw [a3, n2], ?_⟩
    have hi : i < (primValues l).length := (List.getElem?_eq_some_iff.mp a5).1
    obtain ⟨q, mq, mq', h1, h2, h3, h4, h5⟩ := hW i hi
    have hv : v = mq'.value.arr := by
      rw [hun] at a6
      simp only [vals, List.getElem?_map, List.getElem?_range hi, Option.map_some,
        Option.some.injEq] at a6
      rw [← a6, h4]
    rw [a7, hv]
    have hid := (c3 p m q mq i i hm h1 a4 h2).mp rfl
    have hid' := (hs.sharing p q m mq m' mq' hm h1 hm' h3).mp hid
    rw [hr.ident q p mq' m' h3 hm' hid'.symm]

/-! ## The residual is affine -/

theorem affine_tame {X α : Type} {A : (X → Flt) → Prop} {f : X → α → PVal Flt} (L : LinClass A)
    (V : ValA A f) {s : Shipped} (hs : s.IsAffine) {c : Cons Flt} (e : s.build = .ok c) :
    AllN (TameP A f fun _ => True) c := by
  refine shipped_all (tame_closed L) s (fun c hc => ?_) e
  cases s <;> simp only [Shipped.IsAffine] at hs <;>
    simp only [Shipped.leaves, List.mem_cons, List.not_mem_nil, or_false] at hc <;>
    (try rcases hc with rfl | rfl) <;> (try subst hc) <;>
    first
    | exact tameP_assem0 (tame_coordinate V) _ _ _
    | exact tameP_assem1 (tame_withDirection (tame_directedDistance L.toLinSpace V)) _ _ _ _
    | exact tameP_assem0 (tame_directedDistance L.toLinSpace V _) _ _ _
    | exact tameP_assem0 (tame_coincident L.toLinSpace V) _ _ _
    | exact tameP_assem1 (tame_withDirection (tame_directedLength L.toLinSpace V)) _ _ _ _
    | exact tameP_assem0 (tame_directedLength L.toLinSpace V _) _ _ _
    | exact tameP_assem0 (tame_vertical L.toLinSpace V) _ _ _
    | exact tameP_assem0 (tame_horizontal L.toLinSpace V) _ _ _
    | exact tameP_assem0 (tame_midpointDistance L.toLinSpace V _) _ _ _
    | exact tameP_assem1 (tame_coincidentLines L.toLinSpace V) _ _ _ _

theorem uses_trees {kind : Shipped → Prop} {op : LayoutOp Flt} (h : op.Uses kind) : op.Trees := by
  cases op with
  | addPrim prim key => exact h
  | addPrims prims => exact h
  | addConstraint c ks ps k =>
    obtain ⟨s, e, hsz, _⟩ := h
    have g := shipped_good s hsz (shipped_parts_self s) e
    exact ⟨g.static.wf, g.static.name⟩

theorem run_nip {kind : Shipped → Prop} {ops : List (LayoutOp Flt)} (h : ∀ op ∈ ops, op.Uses kind)
    (id : Nat) : AllN NIP ((Layout.empty id).run ops).cons :=
  run_all (P := NIP) (fun _ _ => rfl) (fun op ho => uses_trees (h op ho))
    (fun c ks ps k hm => by obtain ⟨s, e, _⟩ := h _ hm; exact shipped_nip e) id

theorem run_tame {X α : Type} {A : (X → Flt) → Prop} {f : X → α → PVal Flt} (L : LinClass A)
    (V : ValA A f) {ops : List (LayoutOp Flt)} (h : ∀ op ∈ ops, op.Uses Shipped.IsAffine) (id : Nat) :
    AllN (TameP A f fun _ => True) ((Layout.empty id).run ops).cons :=
  run_all (P := TameP A f fun _ => True) (fun _ _ _ => Tame.error _) (fun op ho => uses_trees (h op ho))
    (fun c ks ps k hm => by obtain ⟨s, e, _, ha⟩ := h _ hm; exact affine_tame L V ha e) id

/-- The residual of an affine layout, as a function of the global parameter. -/
theorem affine_residual_finite {ops : List (LayoutOp Flt)} (h : ∀ op ∈ ops, op.Uses Shipped.IsAffine)
    (id : Nat) (base : Nat) {l : Layout Flt} (hcons : l.cons = ((Layout.empty id).run ops).cons)
    (hok : PrimOK l.prim) {r' : Prim Flt} (hr : PrimOK r') (hs : SameStructure l.prim r')
    (hf : r'.Finite) {v : List Flt} (hv : l.residual r' = .ok v) (hz : ∀ a ∈ v, ∃ x, a = fin x) :
    ∃ (m : Nat) (M : Matrix (Fin m) (Fin (dim l)) ℝ) (c : Fin m → ℝ) (y : Fin (dim l) → ℝ),
      (∀ x, globalRes l base (vec x) = .ok (vec (M.mulVec x + c))) ∧ v = vec (M.mulVec y + c) := by
  obtain ⟨T, hT⟩ := rebuild_mapV l hok base
  obtain ⟨y, r, e1, e2, e3⟩ := exists_param l hok base hr hs hf
  obtain ⟨R, h1, h2⟩ := residual_tame (A := AffF) (f := paramVal l base (dim l)) (G := fun _ => True) (l := l)
    (by
      have := run_tame affF_lin (paramVal_aff l base (dim l)) h id
      rwa [← hcons] at this) T fun _ _ _ => trivial
  have hg : ∀ x : Fin (dim l) → ℝ, globalRes l base (vec x) = R.map (List.map (· x)) := by
    intro x
    simp only [globalRes, hT, bind, Except.bind, h1]
  have hy : globalRes l base (vec y) = .ok v := by
    simp only [globalRes, e1, bind, Except.bind]
    rw [residual_geometry (by rw [hcons]; exact run_nip h id) e2 hr.wf e3, hv]
  cases R with
  | error e => rw [hg] at hy; cases hy
  | ok gs =>
    rw [hg] at hy
    have hy' : gs.map (· y) = v := Except.ok.inj hy
    have haff : ∀ i : Fin gs.length, ∃ (a : Fin (dim l) → ℝ) (c : ℝ),
        ∀ x, gs[i] x = fin (∑ j, a j * x j + c) := by
      intro i
      rcases h2 gs rfl gs[i] (List.getElem_mem _) with hb | ha
      · exfalso
        have : gs[i] y ∈ v := by rw [← hy']; exact List.mem_map.mpr ⟨_, List.getElem_mem _, rfl⟩
        obtain ⟨z, this⟩ := hz _ this
        rw [hb] at this
        cases this
      · exact ha
    choose M c hMc using haff
    have hx : ∀ x : Fin (dim l) → ℝ, gs.map (· x) = vec (Matrix.mulVec M x + c) := by
      intro x
      apply List.ext_getElem
      · simp [vec]
      · intro i i1 i2
        simp only [List.getElem_map, vec, List.getElem_ofFn]
        have := hMc ⟨i, by simpa using i1⟩ x
        simp only [Fin.getElem_fin] at this
        rw [this]
        simp [Matrix.mulVec, dotProduct]
    refine ⟨gs.length, M, c, y, fun x => ?_, ?_⟩
    · rw [hg]; simp only [Except.map, hx]
    · rw [← hx, hy']

theorem affine_residual {ops : List (LayoutOp Flt)} (h : ∀ op ∈ ops, op.Uses Shipped.IsAffine)
    (id : Nat) (base : Nat) {l : Layout Flt} (hcons : l.cons = ((Layout.empty id).run ops).cons)
    (hok : PrimOK l.prim) {r' : Prim Flt} (hr : PrimOK r') (hs : SameStructure l.prim r')
    (hf : r'.Finite) {v : List Flt} (hv : l.residual r' = .ok v) (hz : Zeros v) :
    ∃ (m : Nat) (M : Matrix (Fin m) (Fin (dim l)) ℝ) (c : Fin m → ℝ) (y : Fin (dim l) → ℝ),
      (∀ x, globalRes l base (vec x) = .ok (vec (M.mulVec x + c))) ∧ M.mulVec y + c = 0 := by
  obtain ⟨m, M, c, y, h1, h2⟩ := affine_residual_finite h id base hcons hok hr hs hf hv
    fun a ha => ⟨0, hz a ha⟩
  refine ⟨m, M, c, y, h1, ?_⟩
  funext i
  have : fin ((M.mulVec y + c) i) ∈ v := by
    rw [h2]
    exact (List.mem_ofFn' _ _).mpr ⟨i, rfl⟩
  simpa using hz _ this

/-! ## Newton steps on an affine residual -/

theorem vec_add {n : Nat} (x d : Fin n → ℝ) : List.zipWith (· + ·) (vec x) (vec d) = vec (x + d) := by
  apply List.ext_getElem
  · simp [vec]
  · intro i h1 h2
    simp [vec]

theorem vec_neg {n : Nat} (x : Fin n → ℝ) : (vec x).map (fun y => -y) = vec (-x) := by
  simp [vec, List.map_ofFn, Function.comp_def]

theorem newtonStep_vec {m n : Nat} {num : Numerics Flt} {res : List Flt → Py (List Flt)}
    {x d : Fin n → ℝ} {r : Fin m → ℝ} {M : Matrix (Fin m) (Fin n) ℝ} (hr : res (vec x) = .ok (vec r))
    (hj : num.jacobian res (vec x) = .ok (mat M)) (hd : num.lstsq n (mat M) (vec (-r)) = .ok (vec d))
    (s : NewtonState Flt) (hs : s.param = vec x) :
    newtonStep num res s = .ok ⟨vec (x + d), s.n + 1, some (npNorm (vec r)),
      some (npNorm (vec r) / (s.absErrs ++ [npNorm (vec r)]).headD (npNorm (vec r))),
      s.absErrs ++ [npNorm (vec r)],
      s.relErrs ++ [npNorm (vec r) / (s.absErrs ++ [npNorm (vec r)]).headD (npNorm (vec r))]⟩ := by
  simp only [newtonStep, hs, hr, bind, Except.bind, hj, vec_length, vec_neg, hd, vecAdd, if_true, vec_add]

theorem affine_jacobian {m n : Nat} {res : List Flt → Py (List Flt)} {M : Matrix (Fin m) (Fin n) ℝ}
    {c : Fin m → ℝ} (h : ∀ x, res (vec x) = .ok (vec (M.mulVec x + c))) (x : Fin n → ℝ) :
    IsJacobian res x M :=
  ⟨fun y => M.mulVec y + c, Filter.Eventually.of_forall h,
    (LinearMap.toContinuousLinearMap M.mulVecLin).hasFDerivAt.add_const c⟩

theorem affine_step {m n : Nat} {num : Numerics Flt} (hnum : Exact num)
    {res : List Flt → Py (List Flt)} {M : Matrix (Fin m) (Fin n) ℝ}
    {c : Fin m → ℝ} (h : ∀ x, res (vec x) = .ok (vec (M.mulVec x + c))) {y : Fin n → ℝ}
    (hy : M.mulVec y + c = 0) (s : NewtonState Flt) {x : Fin n → ℝ} (hs : s.param = vec x) :
    ∃ s' x', newtonStep num res s = .ok s' ∧ s'.param = vec x' ∧ M.mulVec x' + c = 0 := by
  obtain ⟨d, hd, e⟩ := hnum.lstsq M (-(M.mulVec x + c))
  refine ⟨_, x + d, newtonStep_vec (h x) (hnum.jacobian res x M (affine_jacobian h x)) e s hs, rfl, ?_⟩
  · have h0 := hd.least (y - x)
    have : M.mulVec (y - x) - -(M.mulVec x + c) = 0 := by
      rw [Matrix.mulVec_sub]
      rw [← hy]; abel
    rw [this, sq_zero.mpr rfl] at h0
    have h1 := sq_zero.mp (le_antisymm h0 (sq_nonneg' _))
    rw [Matrix.mulVec_add]
    rw [← h1]; abel

theorem affine_loop {m n : Nat} {num : Numerics Flt} (hnum : Exact num)
    {res : List Flt → Py (List Flt)} {M : Matrix (Fin m) (Fin n) ℝ}
    {c : Fin m → ℝ} (h : ∀ x, res (vec x) = .ok (vec (M.mulVec x + c))) {y : Fin n → ℝ}
    (hy : M.mulVec y + c = 0) (absTol relTol : Flt) (maxIter : Int) (fuel : Nat) :
    ∀ (s : NewtonState Flt) (x : Fin n → ℝ), s.param = vec x →
      (M.mulVec x + c = 0 ∨ continues absTol relTol maxIter s = true) → maxIter.toNat - s.n < fuel →
      ∃ s' x', newtonLoop num res absTol relTol maxIter fuel s = some (.ok s') ∧
        s'.param = vec x' ∧ M.mulVec x' + c = 0 := by
  induction fuel with
  | zero => intro s x _ _ h; omega
  | succ fuel ih =>
    intro s x hs hx hfuel
    by_cases hc : continues absTol relTol maxIter s = true
    · obtain ⟨s1, x1, e1, e2, e3⟩ := affine_step hnum h hy s hs
      have hn1 : s1.n = s.n + 1 := by
        simp only [newtonStep, py_bind_ok] at e1
        obtain ⟨r, _, J, _, d, _, p, _, e⟩ := e1
        cases e; rfl
      have hlt : (s.n : Int) < maxIter := by
        simp only [continues, Bool.and_eq_true, decide_eq_true_eq] at hc
        exact hc.2
      obtain ⟨s2, x2, f1, f2, f3⟩ := ih s1 x1 e2 (.inl e3) (by omega)
      refine ⟨s2, x2, ?_, f2, f3⟩
      simp only [newtonLoop, hc, if_true, e1, f1]
    · refine ⟨s, x, ?_, hs, hx.resolve_right hc⟩
      simp only [newtonLoop, hc, if_false, Bool.false_eq_true]

end Solver

end MplLayout
