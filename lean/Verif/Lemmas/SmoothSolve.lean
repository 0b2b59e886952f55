import Verif.Lemmas.SmoothLeaves
import Mathlib.Analysis.Calculus.FDeriv.Pi

/-!
# Layouts of shipped constraints have differentiable residuals
-/

namespace MplLayout

open Flt Cons

theorem smooth_tame {n : Nat} {x0 : Fin n → ℝ} {α : Type} {f : (Fin n → ℝ) → α → PVal Flt}
    (V : ValA (DiffC x0) f) {zero left : Prop} {s : Shipped} (hz : s.MeasuresLength → zero)
    (hl : s = .angle → left) {c : Cons Flt} (e : s.build = .ok c) :
    AllN (TameP (DiffC x0) f (GoodAt x0 f zero left)) c := by
  refine shipped_all (tame_closed diffC_lin) s (fun c hc => ?_) e
  cases s <;> simp only [Shipped.MeasuresLength, true_imp_iff, reduceCtorEq] at hz hl <;>
    simp only [Shipped.leaves, List.mem_cons, List.not_mem_nil, or_false] at hc <;>
    (try rcases hc with rfl | rfl | rfl | rfl) <;> (try rcases hc with rfl | rfl) <;> (try subst hc) <;>
    first
    | exact tameP_assem0 (tame_coordinate V) _ _ _
    | exact tameP_assem1 (tame_withDirection (tame_directedDistance diffC_lin.toLinSpace V)) _ _ _ _
    | exact tameP_assem0 (tame_directedDistance diffC_lin.toLinSpace V _) _ _ _
    | exact tameP_assem0 (tame_coincident diffC_lin.toLinSpace V) _ _ _
    | exact tameP_assem1 (tame_withDirection (tame_directedLength diffC_lin.toLinSpace V)) _ _ _ _
    | exact tameP_assem0 (tame_directedLength diffC_lin.toLinSpace V _) _ _ _
    | exact tameP_assem0 (tame_vertical diffC_lin.toLinSpace V) _ _ _
    | exact tameP_assem0 (tame_horizontal diffC_lin.toLinSpace V) _ _ _
    | exact tameP_assem0 (tame_midpointDistance diffC_lin.toLinSpace V _) _ _ _
    | exact tameP_assem1 (tame_coincidentLines diffC_lin.toLinSpace V) _ _ _ _
    | exact tameP_assem0 (tame_length V hz) _ _ _
    | exact tameP_assem0 (tame_orthogonal V) _ _ _
    | exact tameP_assem0 (tame_parallel V) _ _ _
    | exact tameP_assem0 (tame_collinear V) _ _ _
    | exact tameP_assem0 (tame_angle V hz (by simpa using hl)) _ _ _
    | exact tameP_assem0 (tame_aspect V hz) _ _ _
    | exact tameP_assem1 (tame_pointOn V hz) _ _ _ _
    | exact tameP_assem1 (tame_pointTo V hz) _ _ _ _
    | exact tameP_assem1 (tame_relPoint V hz) _ _ _ _

namespace Solver

theorem coords_diff {n : Nat} (x0 : Fin n → ℝ) {g : (Fin n → ℝ) → Flt} (h : g ∈ coords n) :
    DiffC x0 g := by
  obtain ⟨i, rfl⟩ := (List.mem_ofFn' _ _).mp h
  exact .inr ⟨fun x => x i, .of_forall fun _ => rfl, contDiffAt_apply ℝ ℝ i x0⟩

theorem paramVal_diff (l : Layout Flt) (base n : Nat) (x0 : Fin n → ℝ) :
    ValA (DiffC x0) (paramVal l base n) := by
  intro v
  refine ⟨((unpack (idxBounds (primValues l)) (coords n))[v.id - base]?).getD [], ?_, ?_⟩
  · intro g hg
    cases e : (unpack (idxBounds (primValues l)) (coords n))[v.id - base]? with
    | none => rw [e] at hg; simp at hg
    | some gs =>
      rw [e] at hg
      have := List.mem_of_getElem? e
      simp only [unpack, List.mem_map] at this
      obtain ⟨ab, _, e'⟩ := this
      rw [Option.getD_some, ← e'] at hg
      exact coords_diff x0 (mem_pySlice hg)
  · intro x
    simp only [paramVal]
    rw [← coords_at, unpack_map, List.getElem?_map]
    cases (unpack (idxBounds (primValues l)) (coords n))[v.id - base]? <;> rfl

/-- A list of functions that are differentiable where they are finite has a Jacobian matrix. -/
theorem jacobian_of_diff {n : Nat} {x0 : Fin n → ℝ} {res : List Flt → Py (List Flt)}
    {gs : List ((Fin n → ℝ) → Flt)} (h : ∀ x, res (vec x) = .ok (gs.map (· x)))
    (hd : ∀ g ∈ gs, DiffC x0 g) (hf : ∀ g ∈ gs, ∃ a, g x0 = fin a) :
    ∃ (m : Nat) (M : Matrix (Fin m) (Fin n) ℝ), IsJacobian res x0 M := by
  have key : ∀ i : Fin gs.length, ∃ F : (Fin n → ℝ) → ℝ,
      (∀ᶠ y in nhds x0, gs[i] y = fin (F y)) ∧ ContDiffAt ℝ 2 F x0 := by
    intro i
    rcases hd gs[i] (List.getElem_mem _) with hb | h
    · obtain ⟨a, ha⟩ := hf gs[i] (List.getElem_mem _)
      rw [hb] at ha; cases ha
    · exact h
  choose F hF hD using key
  have hder : HasFDerivAt (fun y i => F i y) (ContinuousLinearMap.pi fun i => fderiv ℝ (F i) x0) x0 :=
    hasFDerivAt_pi.mpr fun i => ((hD i).differentiableAt (by norm_num)).hasFDerivAt
  refine ⟨gs.length, LinearMap.toMatrix' (ContinuousLinearMap.pi fun i => fderiv ℝ (F i) x0 :
    (Fin n → ℝ) →L[ℝ] Fin gs.length → ℝ).toLinearMap, fun y i => F i y, ?_, ?_⟩
  · filter_upwards [Filter.eventually_all.mpr hF] with y hy
    rw [h]
    congr 1
    apply List.ext_getElem
    · simp [vec]
    · intro i h1 h2
      simp only [List.getElem_map, vec, List.getElem_ofFn]
      exact hy ⟨i, by simpa using h1⟩
  · have e : ∀ L : (Fin n → ℝ) →L[ℝ] Fin gs.length → ℝ,
        LinearMap.toContinuousLinearMap (LinearMap.toMatrix' L.toLinearMap).mulVecLin = L := by
      intro L
      apply ContinuousLinearMap.ext
      intro v
      show (LinearMap.toMatrix' L.toLinearMap).mulVec v = L v
      rw [LinearMap.toMatrix'_mulVec]
      rfl
    rw [e]
    exact hder

/-- Lines of trees with the same geometry have the same end points. -/
theorem lines_same {a b : Prim Flt} (h : SameGeometry a b) {p : List Str} {n c d : Prim Flt}
    (hn : b.At p n) (hv : n.values = [c, d]) : ∃ n' c' d', a.At p n' ∧ n'.values = [c', d'] ∧
      c'.value.arr = c.value.arr ∧ d'.value.arr = d.value.arr := by
  obtain ⟨n', hn'⟩ := (h.1 p).mpr ⟨n, hn⟩
  have hk := (h.2 p n' n hn' hn).2.1
  simp only [Node.values, Node.keys] at hv hk
  obtain ⟨⟨k1, c1⟩, rest, e1, e2, e3⟩ := List.map_eq_cons_iff.mp hv
  obtain ⟨⟨k2, d1⟩, rest', rfl, e4, e5⟩ := List.map_eq_cons_iff.mp e3
  obtain rfl := List.map_eq_nil_iff.mp e5
  rw [e1] at hk
  obtain ⟨⟨k1', c'⟩, rest, f1, f2, f3⟩ := List.map_eq_cons_iff.mp hk
  obtain ⟨⟨k2', d'⟩, rest', rfl, f4, f5⟩ := List.map_eq_cons_iff.mp f3
  obtain rfl := List.map_eq_nil_iff.mp f5
  simp only at e2 e4 f2 f4
  subst e2 e4 f2 f4
  refine ⟨n', c', d', hn', by simp [Node.values, f1], ?_, ?_⟩
  · exact (h.2 (p ++ [k1']) c' c1 (hn'.trans (.down (by rw [f1]; simp) (.here _))) (hn.trans (.down (by rw [e1]; simp) (.here _)))).2.2
  · exact (h.2 (p ++ [k2']) d' d1 (hn'.trans (.down (by rw [f1]; simp) (.here _))) (hn.trans (.down (by rw [e1]; simp) (.here _)))).2.2

theorem noZero_same {a b : Prim Flt} (h : SameGeometry a b) (ha : a.NoZeroLines) : b.NoZeroLines := by
  intro p n c d hn hv v e
  obtain ⟨n', c', d', h1, h2, h3, h4⟩ := lines_same h hn hv
  exact ha p n' c' d' h1 h2 v (by rw [h3, h4]; exact e)

theorem noLeft_same {a b : Prim Flt} (h : SameGeometry a b) (ha : a.NoLeftLines) : b.NoLeftLines := by
  intro p n c d hn hv x rest e
  obtain ⟨n', c', d', h1, h2, h3, h4⟩ := lines_same h hn hv
  exact ha p n' c' d' h1 h2 x rest (by rw [h3, h4]; exact e)

theorem sameGeometry_child {a b : Prim Flt} (ha : a.WF) (hb : b.WF) (h : SameGeometry a b) {k : Str}
    {q : Prim Flt} (hq : b.getChild k = .ok q) : ∃ q', a.getChild k = .ok q' ∧ SameGeometry q' q := by
  rw [Node.getChild_ok_iff, Node.find_iff_At hb] at hq
  obtain ⟨q', hq'⟩ := (h.1 _).mpr ⟨q, hq⟩
  refine ⟨q', by rw [Node.getChild_ok_iff, Node.find_iff_At ha]; exact hq', fun p => ?_, fun p m m' hm hm' => ?_⟩
  · constructor
    · rintro ⟨m, hm⟩
      obtain ⟨m', hm'⟩ := (h.1 _).mp ⟨m, hq'.trans hm⟩
      rw [← Node.find_iff_At hb, Node.find_append, (Node.find_iff_At hb).mpr hq] at hm'
      exact ⟨m', Node.At_of_find hm'⟩
    · rintro ⟨m, hm⟩
      obtain ⟨m', hm'⟩ := (h.1 _).mpr ⟨m, hq.trans hm⟩
      rw [← Node.find_iff_At ha, Node.find_append, (Node.find_iff_At ha).mpr hq'] at hm'
      exact ⟨m', Node.At_of_find hm'⟩
  · exact h.2 _ m m' (hq'.trans hm) (hq.trans hm')

/-- The residual of a layout with shipped constraints is differentiable where it is finite. -/
theorem smooth_jacobian {ops : List (LayoutOp Flt)} (id : Nat) (base : Nat) {l : Layout Flt}
    (hl : l = (Layout.empty id).run ops) (h : ∀ op ∈ ops, op.Uses (Shipped.SmoothAt l.prim))
    (hok : PrimOK l.prim) {x : Fin (dim l) → ℝ} (hx : globalParam l = .ok (vec x))
    {v : List Flt} (hv : l.residual l.prim = .ok v) (hz : ∀ a ∈ v, ∃ y, a = fin y) :
    ∃ (m : Nat) (M : Matrix (Fin m) (Fin (dim l)) ℝ), IsJacobian (globalRes l base) x M := by
  obtain ⟨T, hT⟩ := rebuild_mapV l hok base
  obtain ⟨r, e1, e2⟩ := rebuild_self l hok base hx
  have hTr : T.mapV (paramVal l base (dim l) x) = r := by
    have := hT x
    rw [e1] at this
    exact (Except.ok.inj this).symm
  have hr : r.WF := by
    obtain ⟨r', f1, f2, _⟩ := rebuild_at l hok base (vec x) (vec_length x)
    rw [e1] at f1; cases f1; exact f2
  let zero : Prop := ∀ k q, l.prim.getChild k = .ok q → Prim.NoZeroLines q
  let left : Prop := ∀ k q, l.prim.getChild k = .ok q → Prim.NoLeftLines q
  have htame : AllN (TameP (DiffC x) (paramVal l base (dim l))
      (GoodAt x (paramVal l base (dim l)) zero left)) l.cons := by
    have := run_all (P := TameP (DiffC x) (paramVal l base (dim l))
        (GoodAt x (paramVal l base (dim l)) zero left)) (fun _ _ _ => Tame.error _)
      (fun op ho => uses_trees (h op ho))
      (fun c ks ps k hm => by
        obtain ⟨s, e, _, ha⟩ := h _ hm
        exact smooth_tame (paramVal_diff l base (dim l) x) ha.1 ha.2 e) id
    rwa [← hl] at this
  obtain ⟨R, h1, h2⟩ := residual_tame htame T (by
    intro k p hp
    have hp' : r.getChild k = .ok (p.mapV (paramVal l base (dim l) x)) := by
      rw [← hTr, Node.getChild_mapV, hp]; rfl
    obtain ⟨q, hq, hs⟩ := sameGeometry_child hok.wf hr e2 hp'
    exact ⟨fun hz => noZero_same hs (hz k q hq), fun hl => noLeft_same hs (hl k q hq)⟩)
  have hg : ∀ y : Fin (dim l) → ℝ, globalRes l base (vec y) = R.map (List.map (· y)) := by
    intro y
    simp only [globalRes, hT, bind, Except.bind, h1]
  have hgx : globalRes l base (vec x) = .ok v := by
    simp only [globalRes, e1, bind, Except.bind]
    rw [← residual_geometry (by rw [hl]; exact run_nip h id) hok.wf hr e2, hv]
  cases R with
  | error e => rw [hg] at hgx; cases hgx
  | ok gs =>
    rw [hg] at hgx
    have hv' : gs.map (· x) = v := Except.ok.inj hgx
    refine jacobian_of_diff hg (h2 gs rfl) fun g hg' => hz _ ?_
    rw [← hv']
    exact List.mem_map.mpr ⟨g, hg', rfl⟩

end Solver

end MplLayout
