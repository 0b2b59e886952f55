import Verif.Lemmas.AffineSolve

/-!
# Runs of the solver
-/

namespace MplLayout

open Flt

theorem sumList_fin (v : List ℝ) : Arr.sumList (v.map fin) = fin v.sum := by
  have : ∀ (v : List ℝ) (a : ℝ), (v.map fin).foldl (· + ·) (fin a) = fin (a + v.sum) := by
    intro v
    induction v with
    | nil => intro a; simp
    | cons x v ih => intro a; simp only [List.map_cons, List.foldl_cons, fin_add, ih, List.sum_cons, add_assoc]
  have h := this v 0
  simpa [Arr.sumList, zero_eq] using h

theorem sum_sq_nonneg (v : List ℝ) : 0 ≤ (v.map fun x => x ^ 2).sum := by
  induction v with
  | nil => simp
  | cons x v ih => simp only [List.map_cons, List.sum_cons]; positivity

theorem sumSq_fin (v : List ℝ) :
    Arr.sumList ((v.map fin).map fun x => x * x) = fin ((v.map fun x => x ^ 2).sum) := by
  rw [show (v.map fin).map (fun x => x * x) = (v.map fun x => x ^ 2).map fin by
    simp [Function.comp_def, pow_two], sumList_fin]

theorem npNorm_fin (v : List ℝ) : npNorm (v.map fin) = fin (norm2 v) := by
  rw [npNorm, sumSq_fin, fin_sqrt (sum_sq_nonneg v), norm2]

theorem norm2_sq (v : List ℝ) : norm2 v ^ 2 = (v.map fun x => x ^ 2).sum := by
  rw [norm2, Real.sq_sqrt (sum_sq_nonneg v)]

theorem vec_eq {n : Nat} (x : Fin n → ℝ) : vec x = (List.ofFn x).map fin := by
  simp [vec, List.map_ofFn, Function.comp_def]

theorem exists_vec {v : List Flt} (h : ∀ a ∈ v, ∃ x, a = fin x) {n : Nat} (hn : v.length = n) :
    ∃ x : Fin n → ℝ, v = vec x := by
  subst hn
  have h' : ∀ i : Fin v.length, ∃ x, v[i] = fin x := fun i => h _ (List.getElem_mem _)
  choose x hx using h'
  refine ⟨x, ?_⟩
  apply List.ext_getElem
  · simp [vec]
  · intro i h1 h2
    simp only [vec, List.getElem_ofFn]
    exact hx ⟨i, h1⟩

theorem zeros_vec {m : Nat} {r : Fin m → ℝ} (h : Zeros (vec r)) : r = 0 := by
  funext i
  have := h (fin (r i)) ((List.mem_ofFn' _ _).mpr ⟨i, rfl⟩)
  simpa using this

theorem vec_zeros {m : Nat} : Zeros (vec (0 : Fin m → ℝ)) := by
  intro x hx
  obtain ⟨i, rfl⟩ := (List.mem_ofFn' _ _).mp hx
  rfl

namespace Solver

/-- Rebuilt from real numbers, all coordinates are real numbers. -/
theorem rebuild_finite (l : Layout Flt) (hok : PrimOK l.prim) (base : Nat) (x : Fin (dim l) → ℝ)
    {r : Prim Flt} (h : rebuild l base (vec x) = .ok r) : r.Finite := by
  obtain ⟨r', e1, e2, e3, e4⟩ := rebuild_at l hok base (vec x) (vec_length x)
  rw [h] at e1; cases e1
  intro p n hn a ha
  obtain ⟨m, hm⟩ := e3 p n hn
  obtain ⟨m', i, v, a1, _, _, _, _, a6, a7, _⟩ := e4 p m hm
  obtain rfl := At_unique e2 a1 hn
  have hcat := (Props.C20_pack_unpack (primValues l) (primValues_ne l hok) (vec x) (vec_length x)).2
  have hflat : (unpack (idxBounds (primValues l)) (vec x)).flatten = vec x := by
    unfold npConcat at hcat
    split at hcat
    · cases hcat
    · exact Except.ok.inj hcat
  rw [a7] at ha
  have : a ∈ vec x := by
    rw [← hflat]
    exact List.mem_flatten.mpr ⟨v, List.mem_of_getElem? a6, ha⟩
  rw [vec, List.mem_ofFn] at this
  obtain ⟨k, rfl⟩ := this
  exact ⟨_, rfl⟩


theorem finite_param {l : Layout Flt} (hok : PrimOK l.prim) (hf : l.prim.Finite) :
    ∃ x : Fin (dim l) → ℝ, globalParam l = .ok (vec x) := by
  have e := globalParam_eq l hok
  obtain ⟨x, hx⟩ := exists_vec (v := (primValues l).flatten) (n := dim l) (by
    intro a ha
    obtain ⟨w, hw, ha⟩ := List.mem_flatten.mp ha
    simp only [primValues, List.mem_map] at hw
    obtain ⟨pv, hpv, rfl⟩ := hw
    obtain ⟨i, hi⟩ := List.mem_iff_getElem?.mp hpv
    obtain ⟨c1, _, _, c4, _⟩ := Props.C17_unique_values PVal.id l.prim hok.wf hok.slashFree hok.ident
    obtain ⟨p, m, h1, h2⟩ := c4 i (List.getElem?_eq_some_iff.mp hi).1
    obtain ⟨j, h3, h4⟩ := c1 p m h1
    obtain rfl : i = j := Option.some.inj (h2.symm.trans h3)
    have : pv = m.value := Option.some.inj (hi.symm.trans h4)
    exact hf p m h1 a (this ▸ ha)) (globalParam_length e)
  exact ⟨x, by rw [e, hx]⟩

/-- A least squares problem with a solution in the range of the transpose has that solution. -/
theorem lstsq_unique {m n : Nat} {M : Matrix (Fin m) (Fin n) ℝ} {b : Fin m → ℝ} {d e : Fin n → ℝ}
    (h : IsLstsq M b e) (hd : M.mulVec d = b) {w : Fin m → ℝ} (hw : d = Matrix.vecMul w M) : e = d := by
  have h1 : M.mulVec e = b := by
    have := h.least d
    rw [hd, sub_self, sq_zero.mpr rfl] at this
    exact sub_eq_zero.mp (sq_zero.mp (le_antisymm this (sq_nonneg' _)))
  have h2 := h.shortest d (by rw [hd, h1])
  have h3 : ∑ i, d i * (e i - d i) = 0 := by
    have : dotProduct d (e - d) = 0 := by
      rw [hw, ← Matrix.dotProduct_mulVec, ← hw, Matrix.mulVec_sub, h1, hd, sub_self, dotProduct_zero]
    simpa [dotProduct] using this
  have h4 : sq e = sq d + sq (e - d) + 2 * ∑ i, d i * (e i - d i) := by
    simp only [sq, Finset.mul_sum, ← Finset.sum_add_distrib]
    apply Finset.sum_congr rfl
    intro i _
    simp only [Pi.sub_apply]; ring
  rw [h3] at h4
  have h5 := sq_nonneg' (e - d)
  have : e - d = 0 := sq_zero.mp (by linarith)
  exact sub_eq_zero.mp this

theorem lstsq_zero {m n : Nat} {M : Matrix (Fin m) (Fin n) ℝ} {e : Fin n → ℝ}
    (h : IsLstsq M 0 e) : e = 0 :=
  lstsq_unique h (by simp) (w := 0) (by simp)

/-- The loop stays at a solution. -/
theorem fixed_loop {m n : Nat} {num : Numerics Flt} (hnum : Exact num)
    {res : List Flt → Py (List Flt)} {x : Fin n → ℝ} {M : Matrix (Fin m) (Fin n) ℝ}
    (hx : res (vec x) = .ok (vec (0 : Fin m → ℝ))) (hj : IsJacobian res x M)
    (absTol relTol : Flt) (maxIter : Int) (fuel : Nat) :
    ∀ s : NewtonState Flt, s.param = vec x → maxIter.toNat - s.n < fuel →
      ∃ s', newtonLoop num res absTol relTol maxIter fuel s = some (.ok s') ∧ s'.param = vec x := by
  induction fuel with
  | zero => intro s _ h; omega
  | succ fuel ih =>
    intro s hs hfuel
    by_cases hc : continues absTol relTol maxIter s = true
    · obtain ⟨d, hd, e⟩ := hnum.lstsq M (-0)
      have hd0 : d = 0 := lstsq_zero (M := M) (by simpa using hd)
      have e1 := newtonStep_vec hx (hnum.jacobian res x M hj) e s hs
      rw [hd0, add_zero] at e1
      generalize hs1 : (NewtonState.mk (vec x) _ _ _ _ _ : NewtonState Flt) = s1 at e1
      have p1 : s1.param = vec x := by rw [← hs1]
      have p2 : s1.n = s.n + 1 := by rw [← hs1]
      have hlt : (s.n : Int) < maxIter := by
        simp only [continues, Bool.and_eq_true, decide_eq_true_eq] at hc
        exact hc.2
      obtain ⟨s2, f1, f2⟩ := ih s1 p1 (by omega)
      refine ⟨s2, ?_, f2⟩
      simp only [newtonLoop, hc, if_true, e1]
      exact f1
    · refine ⟨s, ?_, hs⟩
      simp only [newtonLoop, hc, if_false, Bool.false_eq_true]

theorem chain_length {num : Numerics K} [PyNum K] {res : List K → Py (List K)} {n : Nat} :
    ∀ {xs : List (List K)}, List.IsChain (IsStep num res) xs → (∀ x, xs.head? = some x → x.length = n) →
      ∀ x ∈ xs, x.length = n
  | [], _, _ => by simp
  | [x], _, h => by simpa using h
  | x :: y :: xs, hc, h => by
    rw [List.isChain_cons_cons] at hc
    have hx : x.length = n := h x rfl
    have hy : y.length = n := by
      obtain ⟨r, J, d, _, _, _, hd, rfl⟩ := hc.1
      simp [hd, hx]
    have := chain_length hc.2 (by simpa using hy)
    intro z hz
    rcases List.mem_cons.mp hz with rfl | hz
    · exact hx
    · exact this z hz

theorem loop_fuel {K : Type} [PyNum K] (num : Numerics K) (res : List K → Py (List K))
    (absTol relTol : K) (maxIter : Int) (g : List K) :
    ∃ r, newtonLoop num res absTol relTol maxIter (maxIter.toNat + 1) { param := g } = some r := by
  obtain ⟨r, hr⟩ := newtonLoop_total num res absTol relTol maxIter (maxIter.toNat + 1)
    { param := g } (by simp)
  exact ⟨r, hr _ (Nat.le_refl _)⟩

theorem solveNewton_ok {K : Type} [PyNum K] {num : Numerics K} {l : Layout K} {base : Nat}
    {absTol relTol : K} {maxIter : Int} {r : Prim K} {info : SolverInfo K}
    (h : solveNewton num l base absTol relTol maxIter = .ok (r, info)) :
    ∃ g0 s, globalParam l = .ok g0 ∧
      newtonLoop num (globalRes l base) absTol relTol maxIter (maxIter.toNat + 1) { param := g0 }
        = some (.ok s) ∧ rebuild l base s.param = .ok r ∧ info = ⟨s.absErrs, s.relErrs⟩ := by
  simp only [solveNewton, py_bind_ok] at h
  obtain ⟨g0, h1, h2⟩ := h
  obtain ⟨x, hx⟩ := loop_fuel num (globalRes l base) absTol relTol maxIter g0
  rw [hx] at h2
  simp only [py_bind_ok] at h2
  obtain ⟨s, rfl, root, h4, h5⟩ := h2
  cases h5
  exact ⟨g0, s, h1, hx, h4, rfl⟩

theorem solveNewton_eq {K : Type} [PyNum K] {num : Numerics K} {l : Layout K} {base : Nat}
    {absTol relTol : K} {maxIter : Int} {g0 : List K} {s : NewtonState K} {r : Prim K}
    (h1 : globalParam l = .ok g0)
    (h2 : newtonLoop num (globalRes l base) absTol relTol maxIter (maxIter.toNat + 1) { param := g0 }
        = some (.ok s)) (h3 : rebuild l base s.param = .ok r) :
    solveNewton num l base absTol relTol maxIter = .ok (r, ⟨s.absErrs, s.relErrs⟩) := by
  simp only [solveNewton, h1, bind, Except.bind, h2, h3]

variable {K : Type} [PyNum K]

/-- The run of the optimizer. -/
theorem runMinimize_run (absTol relTol : K) (x0 : List K) (its : List (List K × K)) :
    ∃ k, MinimizeRun absTol relTol x0 its k (runMinimize absTol relTol its x0 ⟨[], []⟩).1
      (runMinimize absTol relTol its x0 ⟨[], []⟩).2 := by
  have key : ∀ (rest done : List (List K × K)) (x : List K) (h : SolverInfo K),
      h.absErrs = done.map (·.2) → h.relErrs = h.absErrs.map (fun e => e / h.absErrs.headD e) →
      (∀ (i : Nat) e q, h.absErrs[i]? = some e → h.relErrs[i]? = some q →
        PyNum.lt q relTol = false ∧ PyNum.lt e absTol = false) →
      x = ((done.map (·.1)).getLast?).getD x0 →
      ∃ k, MinimizeRun absTol relTol x0 (done ++ rest) k (runMinimize absTol relTol rest x h).1
        (runMinimize absTol relTol rest x h).2 := by
    intro rest
    induction rest with
    | nil =>
      intro done x h h1 h2 h3 h4
      refine ⟨done.length, by simp, by simpa [runMinimize] using h1, h2, ?_, .inl (by simp), by simpa [runMinimize] using h4⟩
      intro i e q _ he hq
      exact h3 i e q he hq
    | cons it rest ih =>
      intro done x h h1 h2 h3 h4
      obtain ⟨x', f⟩ := it
      have hrel : (h.absErrs ++ [f]).map (fun e => e / (h.absErrs ++ [f]).headD e)
          = h.relErrs ++ [f / (h.absErrs ++ [f]).headD f] := by
        rw [List.map_append, h2]
        cases h.absErrs <;> simp
      have hrl : h.relErrs.length = h.absErrs.length := by rw [h2]; simp
      by_cases hstop : (PyNum.lt (f / (h.absErrs ++ [f]).headD f) relTol || PyNum.lt f absTol) = true
      · have htake : (done ++ (x', f) :: rest).take (done.length + 1) = done ++ [(x', f)] := by
          rw [List.take_length_add_append]; rfl
        refine ⟨done.length + 1, by simp, ?_, ?_, ?_, ?_, ?_⟩
        · simp only [runMinimize, callback, hstop, htake]
          simp [h1]
        · simp only [runMinimize, callback, hstop]
          exact hrel.symm
        · intro i e q hi he hq
          simp only [runMinimize, callback, hstop] at he hq
          have hal : h.absErrs.length = done.length := by simp [h1]
          rw [List.getElem?_append_left (by omega)] at he hq
          exact h3 i e q he hq
        · right
          simp only [runMinimize, callback, hstop]
          refine ⟨f, _, List.getLast?_concat, List.getLast?_concat, ?_⟩
          simpa using hstop
        · simp only [runMinimize, callback, hstop, htake]
          simp
      · have hstop' : (PyNum.lt (f / (h.absErrs ++ [f]).headD f) relTol || PyNum.lt f absTol) = false := by
          simpa using hstop
        obtain ⟨k, hk⟩ := ih (done ++ [(x', f)]) x'
          ⟨h.absErrs ++ [f], h.relErrs ++ [f / (h.absErrs ++ [f]).headD f]⟩ (by simp [h1]) hrel.symm (by
            intro i e q he hq
            by_cases hi : i < h.absErrs.length
            · rw [List.getElem?_append_left (by omega)] at he hq
              exact h3 i e q he hq
            · have hi' : i = h.absErrs.length := by
                have := (List.getElem?_eq_some_iff.mp he).1
                simp at this
                omega
              subst hi'
              simp only [List.getElem?_concat_length, Option.some.injEq] at he
              rw [← hrl, List.getElem?_concat_length] at hq
              have hq := Option.some.inj hq
              subst he
              rw [← hq]
              simpa [Bool.or_eq_false_iff] using hstop') (by simp)
        refine ⟨k, ?_⟩
        simp only [runMinimize, callback, hstop']
        simpa using hk
  simpa using key its [] x0 ⟨[], []⟩ rfl rfl (by simp) rfl

end Solver

end MplLayout
