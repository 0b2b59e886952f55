import Verif.Lemmas.FiniteTan
import Verif.Props.JacfwdNewton

/-!
# C56: exactly when a satisfied layout is left alone
-/

namespace MplLayout.Props

open Solver Flt

/-- If the rebuilt geometry is finite, so are the parameters. -/
theorem rebuild_bad {l : Layout Flt} (hok : PrimOK l.prim) {base : Nat} {g : List Flt} (hg : g.length = dim l)
    {r : Prim Flt} (hr : rebuild l base g = .ok r) (hf : r.Finite) : bad ∉ g := by
  intro hb
  obtain ⟨r', e1, e2, e3, e4⟩ := rebuild_at l hok base g hg
  rw [hr] at e1
  cases e1
  obtain ⟨hu1, hu2⟩ := C20_pack_unpack (primValues l) (primValues_ne l hok) g hg
  obtain ⟨_, _, _, h4, _⟩ := C17_unique_values PVal.id l.prim hok.wf hok.slashFree hok.ident
  have hflat : (unpack (idxBounds (primValues l)) g).flatten = g := by
    unfold npConcat at hu2
    split at hu2
    · cases hu2
    · exact Except.ok.inj hu2
  rw [← hflat] at hb
  obtain ⟨w, hw, hbw⟩ := List.mem_flatten.mp hb
  obtain ⟨i, hi, rfl⟩ := List.mem_iff_getElem.mp hw
  have hi' : i < (filterUnique PVal.id l.prim).2.length := by
    have := congrArg List.length hu1
    simp only [List.length_map, primValues] at this
    simp only [primValues] at hi
    omega
  obtain ⟨p, m, hm, hpi⟩ := h4 i hi'
  obtain ⟨m', i', v, a1, _, _, a4, _, a6, a7, _⟩ := e4 p m hm
  obtain rfl : i' = i := Option.some.inj (a4.symm.trans hpi)
  rw [List.getElem?_eq_getElem hi] at a6
  obtain rfl := Option.some.inj a6
  obtain ⟨y, hy⟩ := hf p m' a1 bad (by rw [a7]; exact hbw)
  cases hy

/-- A matrix of the given shape with finite entries. -/
theorem finite_mat {m n : Nat} {J : List (List Flt)} (h1 : J.length = m) (h2 : ∀ row ∈ J, row.length = n)
    (hf : FiniteMatrix J) : ∃ M : Matrix (Fin m) (Fin n) ℝ, J = mat M := by
  subst h1
  choose f hf using hf
  have : ∀ i : Fin J.length, ∃ v : Fin n → ℝ, J[i] = vec v := by
    intro i
    exact exists_vec (fun a ha => ⟨_, hf _ (List.getElem_mem i.2) a ha⟩) (h2 _ (List.getElem_mem i.2))
  choose M hM using this
  refine ⟨M, ?_⟩
  apply List.ext_getElem (by simp [mat])
  intro i h h'
  simp only [mat, List.getElem_ofFn]
  exact hM ⟨i, h⟩

theorem mat_finite {m n : Nat} (M : Matrix (Fin m) (Fin n) ℝ) : FiniteMatrix (mat M) := by
  intro row hr a ha
  obtain ⟨i, rfl⟩ := (List.mem_ofFn' _ _).mp hr
  obtain ⟨j, rfl⟩ := (List.mem_ofFn' _ _).mp ha
  exact ⟨_, rfl⟩

theorem bad_mem_zipWith : ∀ {a d : List Flt}, a.length = d.length → bad ∈ d → bad ∈ List.zipWith (· + ·) a d
  | [], [], _, h => h
  | x :: a, y :: d, hl, h => by
    rcases List.mem_cons.mp h with h | h
    · rw [← h]
      refine List.mem_cons.mpr (.inl ?_)
      cases x <;> rfl
    · exact List.mem_cons.mpr (.inr (bad_mem_zipWith (Nat.succ.inj hl) h))

/-- Finiteness of the rules is a property of the geometry. -/
theorem finiteAt_same {a b : Prim Flt} (ha : a.WF) (hb : b.WF) (h : SameGeometry a b) {s : Shipped}
    (hs : Shipped.FiniteAt a s) : Shipped.FiniteAt b s := by
  refine ⟨fun hm k q hq => ?_, fun hm k q hq => ?_⟩
  · obtain ⟨q', e, hq'⟩ := sameGeometry_child ha hb h hq
    exact noZero_same hq' (hs.1 hm k q' e)
  · obtain ⟨q', e, hq'⟩ := sameGeometry_child ha hb h hq
    intro p n c d hn hv rest e'
    obtain ⟨n', c', d', h1, h2, h3, h4⟩ := lines_same hq' hn hv
    exact hs.2 hm k q' e p n' c' d' h1 h2 rest (by rw [h3, h4]; exact e')

theorem ok_mono {kind kind' : Shipped → Prop} (h : ∀ s, kind s → kind' s) {c : BuildCall} (hc : c.OK kind) :
    c.OK kind' := by
  cases c with
  | addPrim => exact hc
  | addPrims => exact hc
  | addConstraint s ks ps key => exact ⟨hc.1, h s hc.2⟩

/-- C96: where the residual vector is finite and the rules of all constraints of the layout are finite (no
line is a single point if lengths are measured; lines to the left are allowed), `jax.jacfwd` returns a
finite matrix. -/
theorem C96_finite (id : Nat) (prog : List BuildCall) (base : Nat) {m n : Nat} (x : Fin n → ℝ)
    (hsm : ∀ root, rebuild (builtLayout id prog) base (vec x) = .ok root → Uses prog (Shipped.FiniteAt root))
    (b : Fin m → ℝ) (hb : globalRes (builtLayout id prog) base (vec x) = .ok (vec b)) :
    ∃ M : Matrix (Fin m) (Fin n) ℝ, jacfwd (globalRes (tracedLayout id prog) base) (vec x) = .ok (mat M) := by
  have hcol : ∀ j : Fin n, ∃ c, globalRes (tracedLayout id prog) base (Dual.seed (vec x) j) = .ok c ∧
      LRel FinR (vec b) c := fun j =>
    (finR_res id prog base
      (∀ root, rebuild (builtLayout id prog) base (vec x) = .ok root → ∀ k q, root.getChild k = .ok q →
        Prim.NoZeroLines q)
      (∀ root, rebuild (builtLayout id prog) base (vec x) = .ok root → ∀ k q, root.getChild k = .ok q →
        Prim.HasDirections q)
      (fun s ks ps key h => ⟨fun hs root e => (hsm root e s ks ps key h).1 hs,
        fun hs root e => (hsm root e s ks ps key h).2 hs⟩) (seed_finR (vec x) j)
      (fun root e k q hq => ⟨fun h => h root e k q hq, fun h => h root e k q hq⟩)).ok_left hb
  choose c hc hcr using hcol
  have h0 := val_res id prog base (valR_of (d := (vec x).map Dual.const) (x := vec x)
    (by rw [List.map_map]; exact List.map_id' _))
  obtain ⟨y, hy, hyl⟩ := h0.ok_left hb
  have hcl : ∀ j, (c j).length = m := fun j => by rw [← LRel.length (hcr j), vec_length]
  have hfin : ∀ (i : Fin m) j, ∃ s, (((c j)[i.1]?).map Dual.slope).getD bad = fin s := by
    intro i j
    have hi : i.1 < (c j).length := by rw [hcl]; exact i.2
    rw [List.getElem?_eq_getElem hi]
    have hr := List.Forall₂.get (hcr j) (i := i.1) (by simp [vec]) hi
    simp only [List.get_eq_getElem] at hr
    cases ht : (c j)[i.1].tan with
    | none => exact ⟨0, by simp [Dual.slope, ht]⟩
    | some t =>
      obtain ⟨s, rfl⟩ := hr.fin (b i) t (by simp [vec]) ht
      exact ⟨s, by simp [Dual.slope, ht]⟩
  choose M hM using hfin
  refine ⟨M, ?_⟩
  rw [jacfwd_ok hy hc (m := m) (by rw [← LRel.length hyl, vec_length])]
  simp only [hM]
  rfl

/-- A satisfied layout is left alone if the matrix is finite. -/
theorem stays_of_finite (id : Nat) (prog : List BuildCall) (l : Layout Flt) (hl : l = builtLayout id prog)
    (hprog : ∀ c ∈ prog, c.OK fun _ => True) (hok : PrimOK l.prim)
    (v : List Flt) (hv : l.residual l.prim = .ok v) (hz : Zeros v) (base : Nat) (num : Numerics Flt)
    (hnum : ForwardMode num (globalRes l base) (globalRes (tracedLayout id prog) base))
    {x : Fin (dim l) → ℝ} (hx : globalParam l = .ok (vec x)) {J : List (List Flt)}
    (hJ : jacfwd (globalRes (tracedLayout id prog) base) (vec x) = .ok J) (hf : FiniteMatrix J)
    (absTol relTol : Flt) (maxIter : Int) :
    ∃ r info, solveNewton num l base absTol relTol maxIter = .ok (r, info) ∧ SameGeometry l.prim r := by
  obtain ⟨r, e1, e2⟩ := rebuild_self l hok base hx
  have hr : r.WF := (rebuild_primOK l hok base _ (vec_length x) e1).wf
  have hg : globalRes l base (vec x) = .ok v := by
    simp only [globalRes, e1, bind, Except.bind]
    rw [← residual_geometry (by rw [hl, builtLayout_eq]; exact run_nip (plain_uses hprog) id) hok.wf hr e2, hv]
  obtain ⟨J', hJ', hJ1, hJ2⟩ := (C96_shape id prog base (vec x)).2 v (by rw [← hl]; exact hg)
  obtain rfl := Except.ok.inj (hJ.symm.trans hJ')
  rw [vec_length] at hJ2
  have hv0 : v = vec (0 : Fin v.length → ℝ) := by
    obtain ⟨w, hw⟩ := exists_vec (v := v) (n := v.length) (fun a ha => ⟨0, hz a ha⟩) rfl
    rw [hw] at hz
    rw [zeros_vec hz] at hw
    exact hw
  obtain ⟨M, rfl⟩ := finite_mat hJ1 hJ2 hf
  rw [hv0] at hg
  obtain ⟨st, h1, h2⟩ := stationary_loop hnum.lstsq hg (by rw [hnum.jacobian]; exact hJ) (by simp) absTol relTol maxIter
    (maxIter.toNat + 1) { param := vec x } rfl (by simp)
  exact ⟨r, _, solveNewton_eq hx h1 (by rw [h2, e1]), e2⟩

/-- C56 with the derivatives of `jax`: for all tolerances and numbers of iterations, a layout made by any
calls that add trees and shipped constraints, whose primitives satisfy all constraints, is left alone,
if no line is a single point (where lengths are measured).  (Missing: such lines, see
`C56_counterexample`.) -/
theorem C56_jax_partial (id : Nat) (prog : List BuildCall) (l : Layout Flt) (hl : l = builtLayout id prog)
    (hprog : ∀ c ∈ prog, c.OK (Shipped.FiniteAt l.prim)) (hok : PrimOK l.prim) (hfin : l.prim.Finite)
    (v : List Flt) (hv : l.residual l.prim = .ok v) (hz : Zeros v) (base : Nat) (num : Numerics Flt)
    (hnum : ForwardMode num (globalRes l base) (globalRes (tracedLayout id prog) base))
    (absTol relTol : Flt) (maxIter : Int) :
    ∃ r info, solveNewton num l base absTol relTol maxIter = .ok (r, info) ∧ SameGeometry l.prim r := by
  have hprog' : ∀ c ∈ prog, c.OK fun _ => True := fun c hc => ok_mono (fun _ _ => trivial) (hprog c hc)
  obtain ⟨x, hx⟩ := finite_param hok hfin
  obtain ⟨r, e1, e2⟩ := rebuild_self l hok base hx
  have hr : r.WF := (rebuild_primOK l hok base _ (vec_length x) e1).wf
  have hg : globalRes l base (vec x) = .ok v := by
    simp only [globalRes, e1, bind, Except.bind]
    rw [← residual_geometry (by rw [hl, builtLayout_eq]; exact run_nip (plain_uses hprog') id) hok.wf hr e2, hv]
  obtain ⟨b, hb⟩ := exists_vec (v := v) (n := v.length) (fun a ha => ⟨0, hz a ha⟩) rfl
  subst hl
  obtain ⟨M, hM⟩ := C96_finite id prog base x (fun root e s ks ps key hm => by
    obtain rfl := Except.ok.inj (e1.symm.trans e)
    exact finiteAt_same hok.wf hr e2 (ok_uses hprog s ks ps key hm)) b (by rw [hg, ← hb])
  exact stays_of_finite id prog _ rfl hprog' hok v hv hz base num hnum hx hM (mat_finite M) absTol relTol maxIter

/-- C56, exactly: let a layout be made by any calls that add trees and shipped constraints, and let its
(finite) primitives satisfy all its constraints.  If the Newton method differentiates as `jax.jacfwd`
does, then for all tolerances and at least one iteration, it returns the same geometry if and only if
the matrix that `jax.jacfwd` computes at the layout's geometry is finite. -/
theorem C56_exactly (id : Nat) (prog : List BuildCall) (l : Layout Flt) (hl : l = builtLayout id prog)
    (hprog : ∀ c ∈ prog, c.OK fun _ => True) (hok : PrimOK l.prim) (hfin : l.prim.Finite)
    (v : List Flt) (hv : l.residual l.prim = .ok v) (hz : Zeros v) (base : Nat) (num : Numerics Flt)
    (hnum : ForwardMode num (globalRes l base) (globalRes (tracedLayout id prog) base)) (hbad : KeepsBad num)
    (absTol relTol : ℝ) (maxIter : Int) (hmax : 1 ≤ maxIter) :
    (∃ r info, solveNewton num l base (fin absTol) (fin relTol) maxIter = .ok (r, info) ∧
        SameGeometry l.prim r) ↔
      ∃ g J, globalParam l = .ok g ∧ jacfwd (globalRes (tracedLayout id prog) base) g = .ok J ∧
        FiniteMatrix J := by
  obtain ⟨x, hx⟩ := finite_param hok hfin
  obtain ⟨r, e1, e2⟩ := rebuild_self l hok base hx
  have hr : r.WF := (rebuild_primOK l hok base _ (vec_length x) e1).wf
  have hg : globalRes l base (vec x) = .ok v := by
    simp only [globalRes, e1, bind, Except.bind]
    rw [← residual_geometry (by rw [hl, builtLayout_eq]; exact run_nip (plain_uses hprog) id) hok.wf hr e2, hv]
  obtain ⟨J, hJ, hJ1, hJ2⟩ := (C96_shape id prog base (vec x)).2 v (by rw [← hl]; exact hg)
  rw [vec_length] at hJ2
  have hv0 : v = vec (0 : Fin v.length → ℝ) := by
    obtain ⟨w, hw⟩ := exists_vec (v := v) (n := v.length) (fun a ha => ⟨0, hz a ha⟩) rfl
    rw [hw] at hz
    rw [zeros_vec hz] at hw
    exact hw
  constructor
  · rintro ⟨q, info, hs, hq⟩
    refine ⟨_, J, hx, hJ, ?_⟩
    by_contra hJf
    obtain ⟨g0, s, f1, f2, f3, f4⟩ := solveNewton_ok hs
    obtain rfl := Except.ok.inj (hx.symm.trans f1)
    have hc : continues (fin absTol) (fin relTol) maxIter { param := vec x } = true := by
      simp [continues, gtTol, PyNum.le]
      omega
    simp only [newtonLoop, hc, if_true, newtonStep, hg, hnum.jacobian, hJ, bind, Except.bind] at f2
    cases hd : num.lstsq (vec x).length J (v.map fun a => -a) with
    | error e => rw [hd] at f2; cases f2
    | ok d =>
      rw [hd] at f2
      simp only [vecAdd] at f2
      by_cases hlen : (vec x).length = d.length
      · simp only [hlen, if_true] at f2
        have hnorm : npNorm v = fin 0 := by
          have h0 : v = (List.replicate v.length 0).map fin :=
            List.ext_getElem (by simp) fun i h h' => by
              rw [hz _ (List.getElem_mem h)]
              simp
          have h1 := norm2_sq (List.replicate v.length 0)
          rw [h0, npNorm_fin, fin_inj]
          simpa using h1
        obtain ⟨k, hk⟩ : ∃ k, maxIter.toNat = k + 1 := ⟨maxIter.toNat - 1, by omega⟩
        have hc' : ∀ g n e es fs, continues (fin absTol) (fin relTol) maxIter ⟨g, n, e, some bad, es, fs⟩ = false := by
          intro g n e es fs
          simp [continues, gtTol, PyNum.lt]
        rw [hk] at f2
        simp only [hnorm, List.nil_append, List.headD_cons, div_zero', newtonLoop, hc'] at f2
        obtain rfl := Except.ok.inj (Option.some.inj f2)
        have hb : bad ∈ List.zipWith (· + ·) (vec x) d := bad_mem_zipWith hlen (hbad _ _ _ _ hd hJf)
        refine rebuild_bad hok (by simp [← hlen, vec_length]) f3 ?_ hb
        intro p n hn a ha
        obtain ⟨m, hm⟩ := (hq.1 p).mpr ⟨n, hn⟩
        rw [← (hq.2 p m n hm hn).2.2] at ha
        exact hfin p m hm a ha
      · simp only [hlen, if_false] at f2
        cases f2
  · rintro ⟨g, J', g1, g2, g3⟩
    obtain rfl := Except.ok.inj (hx.symm.trans g1)
    exact stays_of_finite id prog l hl hprog hok v hv hz base num hnum hx g2 g3 _ _ _

/-! ## The counterexample -/

/-- Least squares with finite matrices, `nan` otherwise. -/
noncomputable def carefulNum (traced : List Dual → Py (List Dual)) : Numerics Flt := by
  classical
  exact { exactNum with
    jacobian := fun _ x => jacfwd traced x
    lstsq := fun n J b => if FiniteMatrix J then exactNum.lstsq n J b else .ok [bad] }

theorem carefulNum_mode (res : List Flt → Py (List Flt)) (traced : List Dual → Py (List Dual)) :
    ForwardMode (carefulNum traced) res traced where
  jacobian _ := rfl
  lstsq M b := by
    obtain ⟨d, h1, h2⟩ := exactNum_exact.lstsq M b
    exact ⟨d, h1, (if_pos (mat_finite M)).trans h2⟩

theorem carefulNum_bad (traced : List Dual → Py (List Dual)) : KeepsBad (carefulNum traced) := by
  intro n J b d h hJ
  rw [show (carefulNum traced).lstsq n J b = .ok [bad] from if_neg hJ] at h
  cases h
  simp

/-- C56 as stated fails: a layout whose only constraint, that a line has length 0, is satisfied; the
Newton method with the derivatives of `jax` does not return its geometry, whatever the tolerances and
the number of iterations. -/
theorem C56_counterexample : ∃ (prog : List BuildCall) (l : Layout Flt), l = builtLayout 0 prog ∧
    PrimOK l.prim ∧ l.prim.Finite ∧ l.residual l.prim = .ok [fin 0] ∧
    ∀ (num : Numerics Flt), ForwardMode num (globalRes l 10) (globalRes (tracedLayout 0 prog) 10) →
      KeepsBad num → ∀ (absTol relTol : ℝ) (maxIter : Int), 1 ≤ maxIter →
      ¬ ∃ r info, solveNewton num l 10 (fin absTol) (fin relTol) maxIter = .ok (r, info) ∧
        SameGeometry l.prim r := by
  have hp : (builtLayout 0 dotProg).prim = forkTree 0 4 5 1 2 3 0 0 0 0 0 1 := by rfl
  have hok : PrimOK (builtLayout 0 dotProg).prim := by rw [hp]; exact forkTree_ok (by decide) _ _ _ _ _ _
  have hfin : (builtLayout 0 dotProg).prim.Finite := by rw [hp]; exact forkTree_finite _ _ _ _ _ _ _ _ _ _ _ _
  have hw : ∀ (i j k : Nat) (a b c d : ℝ), (sLn i (sPt j a b) (sPt k c d)).WF := fun i j k a b c d =>
    ((Node.goodB_iff _).mp (show Node.goodB (sLn i (sPt j a b) (sPt k c d)) = true from rfl)).1
  have hprog : ∀ c ∈ dotProg, c.OK fun _ => True := by
    intro c h
    simp only [dotProg, List.mem_cons, List.not_mem_nil, or_false] at h
    rcases h with rfl | rfl | rfl
    · exact hw _ _ _ _ _ _ _
    · exact hw _ _ _ _ _ _ _
    · exact ⟨trivial, trivial⟩
  have hg : globalParam (builtLayout 0 dotProg) = .ok (vec ![0, 0, 0, 0, 0, 1]) := by rfl
  have hres : (builtLayout 0 dotProg).residual (builtLayout 0 dotProg).prim = .ok [fin 0] := by
    obtain ⟨r, e1, e2⟩ := rebuild_self _ hok 10 hg
    have := dot_values.1
    simp only [globalRes, e1, bind, Except.bind] at this
    rw [residual_geometry (by rw [builtLayout_eq]; exact run_nip (plain_uses hprog) 0) hok.wf
      (rebuild_primOK _ hok 10 _ (vec_length _) e1).wf e2, this]
  refine ⟨dotProg, _, rfl, hok, hfin, hres, fun num hnum hbad absTol relTol maxIter hmax h => ?_⟩
  obtain ⟨g, J, g1, g2, g3⟩ := (C56_exactly 0 dotProg _ rfl hprog hok hfin _ hres (by simp [Zeros]) 10 num hnum hbad absTol
    relTol maxIter hmax).mp h
  obtain rfl := Except.ok.inj (hg.symm.trans g1)
  rw [dot_values.2] at g2
  obtain rfl := Except.ok.inj g2
  obtain ⟨y, hy⟩ := g3 _ (List.mem_singleton.mpr rfl) bad (List.mem_cons_self ..)
  cases hy

/-- A line to the right and a line to the left, between which the angle should be half a turn: it is. -/
noncomputable def backProg : List BuildCall :=
  [.addPrim (sLn 4 (sPt 1 0 0) (sPt 2 1 0)) k!"U",
   .addPrim (sLn 5 (sPt 1 0 0) (sPt 3 (-1) 0)) k!"V",
   .addConstraint .angle [k!"U", k!"V"] [.num (fin Real.pi)] k!"c"]

theorem back_res : (builtLayout 0 backProg).residual (builtLayout 0 backProg).prim = .ok [fin 0] := by
  have h : (builtLayout 0 backProg).residual (builtLayout 0 backProg).prim = .ok
      [(PyNum.atan2 (fin (0 - 0) / PyNum.sqrt (fin (0 + (-1 - 0) * (-1 - 0) + (0 - 0) * (0 - 0))))
          (fin (-1 - 0) / PyNum.sqrt (fin (0 + (-1 - 0) * (-1 - 0) + (0 - 0) * (0 - 0)))) -
        PyNum.atan2 (fin (0 - 0) / PyNum.sqrt (fin (0 + (1 - 0) * (1 - 0) + (0 - 0) * (0 - 0))))
          (fin (1 - 0) / PyNum.sqrt (fin (0 + (1 - 0) * (1 - 0) + (0 - 0) * (0 - 0))))) +
        fin (-1 * Real.pi)] := by rfl
  have e1 : Complex.arg ⟨-1 / 1, 0 / 1⟩ = Real.pi := by
    rw [show (⟨-1 / 1, 0 / 1⟩ : ℂ) = -1 by apply Complex.ext <;> simp]
    exact Complex.arg_neg_one
  have e2 : Complex.arg ⟨1 / 1, 0 / 1⟩ = 0 := by
    rw [show (⟨1 / 1, 0 / 1⟩ : ℂ) = 1 by apply Complex.ext <;> simp]
    exact Complex.arg_one
  rw [h]
  norm_num only [sub_zero, mul_zero, add_zero, zero_add]
  rw [fin_sqrt zero_le_one, Real.sqrt_one, fin_div one_ne_zero, fin_div one_ne_zero, fin_div one_ne_zero,
    fin_atan2, fin_atan2, e1, e2, fin_sub, fin_add]
  norm_num

/-- The Newton method leaves it alone, although the angle jumps there. -/
example (a b : Flt) (n : Int) : ∃ r info, solveNewton (forwardNum (globalRes (tracedLayout 0 backProg) 10))
    (builtLayout 0 backProg) 10 a b n = .ok (r, info) ∧ SameGeometry (builtLayout 0 backProg).prim r := by
  have hp : (builtLayout 0 backProg).prim = forkTree 0 4 5 1 2 3 0 0 1 0 (-1) 0 := by rfl
  have hw : ∀ (i j k : Nat) (a b c d : ℝ), (sLn i (sPt j a b) (sPt k c d)).WF := fun i j k a b c d =>
    ((Node.goodB_iff _).mp (show Node.goodB (sLn i (sPt j a b) (sPt k c d)) = true from rfl)).1
  refine C56_jax_partial 0 backProg _ rfl ?_ (by rw [hp]; exact forkTree_ok (by decide) _ _ _ _ _ _)
    (by rw [hp]; exact forkTree_finite _ _ _ _ _ _ _ _ _ _ _ _) _ back_res (by simp [Zeros]) 10 _
    (forwardNum_mode _ _) a b n
  intro c h
  rw [hp]
  simp only [backProg, List.mem_cons, List.not_mem_nil, or_false] at h
  rcases h with rfl | rfl | rfl
  · exact hw _ _ _ _ _ _ _
  · exact hw _ _ _ _ _ _ _
  · refine ⟨trivial, fun _ k t ht path n x y hn hv w e => ?_, fun _ k t ht path n x y hn hv rest e => ?_⟩
    · refine forkTree_lines (Q := fun w => w = [] ∨ ∃ x ∈ w, x ≠ fin 0) (.inl rfl) ?_ ?_ ht hn hv e
      · exact .inr ⟨fin (1 - 0), by simp, by simp⟩
      · exact .inr ⟨fin (-1 - 0), by simp, by simp⟩
    · refine forkTree_lines (Q := fun v => ∀ rest, v ≠ fin 0 :: fin 0 :: rest) (by simp) ?_ ?_ ht hn hv e rest rfl
      · simp
      · simp

/-- There are such routines. -/
example (res : List Flt → Py (List Flt)) (traced : List Dual → Py (List Dual)) :
    ∃ num, ForwardMode num res traced ∧ KeepsBad num :=
  ⟨_, carefulNum_mode res traced, carefulNum_bad traced⟩

end MplLayout.Props
