import Verif.Lemmas.NewtonLocal
import Verif.Lemmas.SameRebuild
import Verif.Lemmas.SolveKeeps

/-!
# Newton's method near a regular solution of a layout
-/

namespace MplLayout.Solver

open Flt

theorem local_loop {m n : Nat} {num : Numerics Flt} (hnum : ∀ (M : Matrix (Fin m) (Fin n) ℝ) b,
      ∃ d, IsLstsq M b d ∧ num.lstsq n (mat M) (vec b) = .ok (vec d))
    {res : List Flt → Py (List Flt)} {a : Fin n → ℝ} {F : (Fin n → ℝ) → Fin m → ℝ} {C : ℝ} (hC : 0 < C)
    (hgood : ∀ x, C * sq (x - a) < 1 → res (vec x) = .ok (vec (F x)) ∧
      ∃ M : Matrix (Fin m) (Fin n) ℝ, num.jacobian res (vec x) = .ok (mat M) ∧ ∀ d, IsLstsq M (- F x) d →
        sq (x + d - a) ≤ C * sq (x - a) ^ 2 ∧ sq (x + d - a) ≤ C * sq (F x) ^ 2)
    (absTol relTol : Flt) (maxIter : Int) (fuel : Nat) :
    ∀ (s : NewtonState Flt) (x : Fin n → ℝ), s.param = vec x → C * sq (x - a) < 1 →
      (∀ e, s.absErrs.getLast? = some (fin e) → sq (x - a) ≤ C * e ^ 4) →
      maxIter.toNat - s.n < fuel →
      ∃ s' x' k, newtonLoop num res absTol relTol maxIter fuel s = some (.ok s') ∧ s'.param = vec x' ∧
        s'.absErrs.length = s.absErrs.length + k ∧ C * sq (x' - a) ≤ (C * sq (x - a)) ^ 2 ^ k ∧
        ∀ e, s'.absErrs.getLast? = some (fin e) → sq (x' - a) ≤ C * e ^ 4 := by
  induction fuel with
  | zero => intro s x _ _ _ h; omega
  | succ fuel ih =>
    intro s x hs hx hlast hfuel
    by_cases hc : continues absTol relTol maxIter s = true
    · obtain ⟨hr, M, hM, hstep⟩ := hgood x hx
      obtain ⟨d, hd, e⟩ := hnum M (- F x)
      obtain ⟨b1, b2⟩ := hstep d hd
      have e1 := newtonStep_vec hr hM e s hs
      generalize hs1 : (NewtonState.mk (vec (x + d)) _ _ _ _ _ : NewtonState Flt) = s1 at e1
      have p1 : s1.param = vec (x + d) := by rw [← hs1]
      have p2 : s1.n = s.n + 1 := by rw [← hs1]
      have p3 : s1.absErrs = s.absErrs ++ [npNorm (vec (F x))] := by rw [← hs1]
      have hlt : (s.n : Int) < maxIter := by
        simp only [continues, Bool.and_eq_true, decide_eq_true_eq] at hc
        exact hc.2
      have hnn : 0 ≤ C * sq (x - a) := mul_nonneg hC.le (sq_nonneg' _)
      have hq : C * sq (x + d - a) ≤ (C * sq (x - a)) ^ 2 := by
        calc C * sq (x + d - a) ≤ C * (C * sq (x - a) ^ 2) := by gcongr
          _ = _ := by ring
      have hq1 : (C * sq (x - a)) ^ 2 < 1 := by nlinarith
      obtain ⟨s2, x2, k, f1, f2, f3, f4, f5⟩ := ih s1 (x + d) p1 (hq.trans_lt hq1) (by
        intro r hr'
        rw [p3, List.getLast?_append] at hr'
        simp only [List.getLast?_singleton, Option.some_or, Option.some.injEq] at hr'
        rw [vec_eq, npNorm_fin, fin_inj] at hr'
        have : sq (F x) = r ^ 2 := by
          rw [← hr', norm2_sq, List.map_ofFn, List.sum_ofFn]; rfl
        rw [this] at b2
        calc _ ≤ _ := b2
          _ = _ := by ring) (by omega)
      refine ⟨s2, x2, k + 1, ?_, f2, ?_, ?_, f5⟩
      · simp only [newtonLoop, hc, if_true, e1]
        exact f1
      · rw [f3, p3]; simp; omega
      · refine f4.trans ?_
        calc (C * sq (x + d - a)) ^ 2 ^ k ≤ ((C * sq (x - a)) ^ 2) ^ 2 ^ k := by
              have := mul_nonneg hC.le (sq_nonneg' (x + d - a))
              gcongr
          _ = _ := by rw [← pow_mul, ← pow_succ']
    · refine ⟨s, x, 0, ?_, hs, rfl, by simp, hlast⟩
      simp only [newtonLoop, hc, if_false, Bool.false_eq_true]

/-- Trees rebuilt from the same numbers have the same geometry. -/
theorem rebuild_base {K : Type} {l : Layout K} (hok : PrimOK l.prim) {g : List K} (hg : g.length = dim l)
    (base base' : Nat) : ∃ r r', rebuild l base g = .ok r ∧ rebuild l base' g = .ok r' ∧ r.WF ∧ r'.WF ∧
      SameGeometry r r' := by
  obtain ⟨r, e1, e2, e3, e4⟩ := rebuild_at l hok base g hg
  obtain ⟨r', f1, f2, f3, f4⟩ := rebuild_at l hok base' g hg
  refine ⟨r, r', e1, f1, e2, f2, fun p => ⟨?_, ?_⟩, fun p m m' hm hm' => ?_⟩
  · rintro ⟨m, hm⟩
    obtain ⟨m0, h0⟩ := e3 p m hm
    obtain ⟨m1, _, _, h1, _⟩ := f4 p m0 h0
    exact ⟨m1, h1⟩
  · rintro ⟨m, hm⟩
    obtain ⟨m0, h0⟩ := f3 p m hm
    obtain ⟨m1, _, _, h1, _⟩ := e4 p m0 h0
    exact ⟨m1, h1⟩
  · obtain ⟨m0, h0⟩ := e3 p m hm
    obtain ⟨a, i, v, a1, a2, a3, a4, a5, a6, a7, a8⟩ := e4 p m0 h0
    obtain ⟨b, j, w, b1, b2, b3, b4, b5, b6, b7, b8⟩ := f4 p m0 h0
    obtain rfl := At_unique e2 a1 hm
    obtain rfl := At_unique f2 b1 hm'
    have hij : i = j := by
      have h : some i = some j := a4.symm.trans b4
      exact Option.some.inj h
    subst hij
    rw [a6] at b6
    refine ⟨by rw [a2, b2], by rw [a3, b3], ?_⟩
    rw [a7, b7]
    exact Option.some.inj b6

/-- The residuals of a layout of shipped constraints, put at another geometry, are smooth functions of
the coordinates where they are smooth at that geometry. -/
theorem smooth_residual {ops : List (LayoutOp Flt)} (id : Nat) (base : Nat) {l : Layout Flt}
    {q : Prim Flt} (hcons : l.cons = ((Layout.empty id).run ops).cons) (hq : l.prim = q)
    (h : ∀ op ∈ ops, op.Uses (Shipped.SmoothAt q))
    (hok : PrimOK q) {x : Fin (dim l) → ℝ} (hx : globalParam l = .ok (vec x))
    {v : List Flt} (hv : l.residual q = .ok v) (hz : ∀ a ∈ v, ∃ y, a = fin y) :
    ∃ (m : Nat) (F : (Fin (dim l) → ℝ) → Fin m → ℝ),
      (∀ᶠ y in nhds x, globalRes l base (vec y) = .ok (vec (F y))) ∧ ContDiffAt ℝ 2 F x := by
  subst hq
  obtain ⟨T, hT⟩ := rebuild_mapV l hok base
  obtain ⟨r, e1, e2⟩ := rebuild_self l hok base hx
  have hTr : T.mapV (paramVal l base (dim l) x) = r := by
    have := hT x
    rw [e1] at this
    exact (Except.ok.inj this).symm
  have hr : r.WF := by
    obtain ⟨r', f1, f2, _⟩ := rebuild_at l hok base (vec x) (vec_length x)
    rw [e1] at f1; cases f1; exact f2
  let zero : Prop := ∀ k q, l.prim.getChild k = .ok q → Prim.NoZeroLines q
  let left : Prop := ∀ k q, l.prim.getChild k = .ok q → Prim.NoLeftLines q
  have htame : AllN (TameP (DiffC x) (paramVal l base (dim l))
      (GoodAt x (paramVal l base (dim l)) zero left)) l.cons := by
    have := run_all (P := TameP (DiffC x) (paramVal l base (dim l))
        (GoodAt x (paramVal l base (dim l)) zero left)) (fun _ _ _ => Tame.error _)
      (fun op ho => uses_trees (h op ho))
      (fun c ks ps k hm => by
        obtain ⟨s, e, _, ha⟩ := h _ hm
        exact smooth_tame (paramVal_diff l base (dim l) x) ha.1 ha.2 e) id
    rwa [← hcons] at this
  obtain ⟨R, h1, h2⟩ := residual_tame htame T (by
    intro k p hp
    have hp' : r.getChild k = .ok (p.mapV (paramVal l base (dim l) x)) := by
      rw [← hTr, Node.getChild_mapV, hp]; rfl
    obtain ⟨q, hq, hs⟩ := sameGeometry_child hok.wf hr e2 hp'
    exact ⟨fun hz => noZero_same hs (hz k q hq), fun hl => noLeft_same hs (hl k q hq)⟩)
  have hg : ∀ y : Fin (dim l) → ℝ, globalRes l base (vec y) = R.map (List.map (· y)) := by
    intro y
    simp only [globalRes, hT, bind, Except.bind, h1]
  have hgx : globalRes l base (vec x) = .ok v := by
    simp only [globalRes, e1, bind, Except.bind]
    rw [← residual_geometry (by rw [hcons]; exact run_nip h id) hok.wf hr e2, hv]
  cases R with
  | error e => rw [hg] at hgx; cases hgx
  | ok gs =>
    rw [hg] at hgx
    have hv' : gs.map (· x) = v := Except.ok.inj hgx
    have key : ∀ i : Fin gs.length, ∃ F : (Fin (dim l) → ℝ) → ℝ,
        (∀ᶠ y in nhds x, gs[i] y = fin (F y)) ∧ ContDiffAt ℝ 2 F x := by
      intro i
      rcases h2 gs rfl gs[i] (List.getElem_mem _) with hb | h
      · obtain ⟨a, ha⟩ := hz (gs[i] x) (by rw [← hv']; exact List.mem_map.mpr ⟨_, List.getElem_mem _, rfl⟩)
        rw [hb] at ha; cases ha
      · exact h
    choose F hF hD using key
    refine ⟨gs.length, fun y i => F i y, ?_, contDiffAt_pi.mpr hD⟩
    filter_upwards [Filter.eventually_all.mpr hF] with y hy
    rw [hg]
    show Except.ok _ = _
    congr 1
    apply List.ext_getElem
    · simp [vec]
    · intro i h1 h2
      simp only [List.getElem_map, vec, List.getElem_ofFn]
      exact hy ⟨i, by simpa using h1⟩

end MplLayout.Solver
