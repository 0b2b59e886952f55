import Verif.Lemmas.Untouched
import Verif.Props.LeastSquares

/-!
# C78: what no constraint refers to does not move
-/

namespace MplLayout.Props

open Solver Flt Node

/-- C78 for layouts with residuals that are differentiable at all iterates. -/
theorem unseen_of (num : Numerics Flt) (hnum : Exact num) (id : Nat) (ops : List (LayoutOp Flt))
    (hs : ∀ op ∈ ops, op.Sensible) (ht : ∀ op ∈ ops, op.TopLevel) (l : Layout Flt)
    (hl : l = (Layout.empty id).run ops) (hok : PrimOK l.prim) (hfin : l.prim.Finite) (base : Nat)
    (absTol relTol : Flt) (maxIter : Int)
    (hjac : ∀ k : Nat, (k : Int) < maxIter → ∀ r' info' x,
      solveNewton num l base absTol relTol k = .ok (r', info') → rebuild l base (vec x) = .ok r' →
      ∃ (m : Nat) (M : Matrix (Fin m) (Fin (dim l)) ℝ), IsJacobian (globalRes l base) x M)
    (r : Prim Flt) (info : SolverInfo Flt)
    (hr : solveNewton num l base absTol relTol maxIter = .ok (r, info)) (p : List Str)
    (m m' : Prim Flt) (hm : l.prim.At p m) (hu : Unseen ((Layout.empty id).added ops) l.prim p)
    (hm' : r.At p m') : m'.value.arr = m.value.arr := by
  obtain ⟨x0, hx0⟩ := finite_param hok hfin
  obtain ⟨g0, s, h1, h2, h3, -⟩ := solveNewton_ok hr
  rw [hx0] at h1; cases h1
  obtain ⟨r0, e0, _⟩ := rebuild_self l hok base hx0
  obtain ⟨i, hi, _⟩ : ∃ i, IdxAt l p i ∧ True := by
    obtain ⟨_, _, _, _, e4⟩ := rebuild_at l hok base (vec x0) (vec_length x0)
    obtain ⟨_, i, _, _, _, _, h, _⟩ := e4 p m hm
    exact ⟨i, h, trivial⟩
  have hres : ∀ x y : Fin (dim l) → ℝ, (∀ c, c ∉ block l i → x c = y c) → ∀ v,
      globalRes l base (vec x) = .ok v → globalRes l base (vec y) = .ok v :=
    fun x y hxy v hv => residual_unseen id base hl hs ht hok hm hu hi hxy hv
  have hinv := loop_invariant (num := num) (res := globalRes l base) (absTol := absTol) (relTol := relTol)
    (maxIter := maxIter) (s0 := { param := vec x0 })
    (fun s => ∃ x : Fin (dim l) → ℝ, s.param = vec x ∧ ∀ c ∈ block l i, x c = x0 c)
    (by
      rintro t t' hv hlt ⟨x, hx, hxc⟩ hstep
      have hloop := hv.loop ((t.n : Int).toNat + 1) (by simp)
      obtain ⟨rt, et⟩ := rebuild_structure l hok base (vec x) (vec_length x)
      obtain ⟨x', hx', hc'⟩ := step_unseen hnum hres
        (hjac t.n hlt rt _ x (solveNewton_eq hx0 hloop (by rw [hx, et.1])) et.1) hx hstep
      exact ⟨x', hx', fun c hc => (hc' c hc).trans (hxc c hc)⟩)
    _ _ _ (.refl _) ⟨x0, rfl, fun _ _ => rfl⟩ h2
  obtain ⟨x, hx, hxc⟩ := hinv
  rw [hx] at h3
  obtain ⟨j, hj, ej⟩ := rebuild_arr l hok base h3 hm'
  obtain rfl : i = j := Option.some.inj (hi.symm.trans hj)
  obtain ⟨r1, f1, f2⟩ := rebuild_self l hok base hx0
  obtain ⟨m1, hm1⟩ := (f2.1 p).mp ⟨m, hm⟩
  obtain ⟨j, hj, ej1⟩ := rebuild_arr l hok base f1 hm1
  obtain rfl : i = j := Option.some.inj (hi.symm.trans hj)
  rw [(f2.2 p m m1 hm hm1).2.2, ej, ej1]
  exact List.map_congr_left fun c hc => by rw [hxc c hc]

/-- C78: with exact numerics, Newton's method does not change the coordinates of a primitive whose
array no constraint refers to.  This holds for all shipped constraints, whether they can be satisfied or
not, and for any number of iterations, if the residual is finite and the constraints are differentiable
at the geometries that the iteration goes through (which are the results with fewer iterations). -/
theorem C78_unseen (num : Numerics Flt) (hnum : Exact num) (id : Nat) (ops : List (LayoutOp Flt))
    (hs : ∀ op ∈ ops, op.Sensible) (ht : ∀ op ∈ ops, op.TopLevel) (l : Layout Flt)
    (hl : l = (Layout.empty id).run ops) (hok : PrimOK l.prim) (hfin : l.prim.Finite) (base : Nat)
    (absTol relTol : Flt) (maxIter : Int)
    (hsmooth : ∀ k : Nat, (k : Int) < maxIter → ∀ r' info',
      solve num l base absTol relTol k k!"newton" = .ok (r', info') →
      (∃ s, l.Misfit r' s) ∧ ∀ op ∈ ops, op.Uses (Shipped.SmoothAt r'))
    (r : Prim Flt) (info : SolverInfo Flt)
    (hr : solve num l base absTol relTol maxIter k!"newton" = .ok (r, info)) (p : List Str)
    (m m' : Prim Flt) (hm : l.prim.At p m) (hu : Unseen ((Layout.empty id).added ops) l.prim p)
    (hm' : r.At p m') : m'.value.arr = m.value.arr := by
  simp only [(C59_dispatch num l base absTol relTol _).1] at hsmooth hr
  refine unseen_of num hnum id ops hs ht l hl hok hfin base absTol relTol maxIter ?_ r info hr p m m' hm hu hm'
  intro k hk r' info' x hr' hx
  obtain ⟨⟨sm, w, hw, _⟩, hu'⟩ := hsmooth k hk r' info' hr'
  exact smooth_jacobian_at id base hl hok hx hu' hw (by
    intro a ha
    obtain ⟨y, _, rfl⟩ := List.mem_map.mp ha
    exact ⟨y, rfl⟩)

/-- C78 for affine constraints, which are differentiable everywhere. -/
theorem C78_affine (num : Numerics Flt) (hnum : Exact num) (id : Nat) (ops : List (LayoutOp Flt))
    (hs : ∀ op ∈ ops, op.Sensible) (ht : ∀ op ∈ ops, op.TopLevel)
    (hops : ∀ op ∈ ops, op.Uses Shipped.IsAffine) (l : Layout Flt)
    (hl : l = (Layout.empty id).run ops) (hok : PrimOK l.prim) (hfin : l.prim.Finite)
    (s0 : ℝ) (h0 : l.Misfit l.prim s0) (base : Nat)
    (absTol relTol : Flt) (maxIter : Int) (r : Prim Flt) (info : SolverInfo Flt)
    (hr : solve num l base absTol relTol maxIter k!"newton" = .ok (r, info)) (p : List Str)
    (m m' : Prim Flt) (hm : l.prim.At p m) (hu : Unseen ((Layout.empty id).added ops) l.prim p)
    (hm' : r.At p m') : m'.value.arr = m.value.arr := by
  rw [(C59_dispatch num l base absTol relTol maxIter).1] at hr
  refine unseen_of num hnum id ops hs ht l hl hok hfin base absTol relTol maxIter ?_ r info hr p m m' hm hu hm'
  intro k hk r' info' x hr' hx
  obtain ⟨v0, hv0, _⟩ := h0
  obtain ⟨m, M, c, _, h1, _⟩ := affine_residual_finite hops id base (congrArg Layout.cons hl) hok hok
    (SameStructure.refl hok.wf) hfin hv0 (by
      intro a ha
      obtain ⟨x, _, rfl⟩ := List.mem_map.mp ha
      exact ⟨x, rfl⟩)
  exact ⟨m, M, affine_jacobian h1 x⟩

/-! ### An instance -/

/-- The lines of `forkOps`, of which only the first is constrained. -/
noncomputable def halfOps : List (LayoutOp Flt) := forkOps.take 3

noncomputable def halfL : Layout Flt := (Layout.empty 0).run halfOps

/-- The end of the second line, `V/Point1`, which no constraint refers to, stays at (3, 0); the
hypotheses of `C78_affine` are met. -/
example (num : Numerics Flt) (hnum : Exact num) (base : Nat) (a b : ℝ) (maxIter : Int) (r : Prim Flt)
    (info : SolverInfo Flt) (hr : solve num halfL base (fin a) (fin b) maxIter k!"newton" = .ok (r, info))
    (m' : Prim Flt) (hm' : r.At [k!"V", k!"Point1"] m') : m'.value.arr = [fin 3, fin 0] := by
  have hprim : halfL.prim = forkTree 0 4 5 1 2 3 0 0 3 0 3 0 := by rfl
  have hadd : (Layout.empty 0).added halfOps
      = [⟨(Shipped.xLength.build).toOption.getD ct.coincident, [k!"U"], [.num (fin 1)]⟩] := rfl
  have hw : ∀ (i j k : Nat) (a b c d : ℝ), (sLn i (sPt j a b) (sPt k c d)).WF := fun i j k a b c d =>
    ((Node.goodB_iff _).mp (show Node.goodB (sLn i (sPt j a b) (sPt k c d)) = true from rfl)).1
  refine C78_affine num hnum 0 halfOps ?_ ?_ (fun op h => forkOps_affine op (List.mem_of_mem_take h)) halfL rfl
    (by rw [hprim]; exact forkTree_ok (by decide) ..) (by rw [hprim]; exact forkTree_finite _ _ _ _ _ _ _ _ _ _ _ _) (2 ^ 2)
    ⟨[2], ?_, by norm_num⟩ base (fin a) (fin b) maxIter r info hr [k!"V", k!"Point1"] (sPt 3 3 0) m'
    (At_of_find rfl) ?_ hm'
  · intro op h
    simp only [halfOps, forkOps, List.take, List.mem_cons, List.not_mem_nil, or_false] at h
    rcases h with rfl | rfl | rfl
    · exact hw _ _ _ _ _ _ _
    · exact hw _ _ _ _ _ _ _
    · exact ⟨.xLength, rfl, trivial, trivial⟩
  · intro op h
    simp only [halfOps, forkOps, List.take, List.mem_cons, List.not_mem_nil, or_false] at h
    rcases h with rfl | rfl | rfl
    · trivial
    · trivial
    · show '/' ∉ k!"a"; decide
  · have : halfL.residual halfL.prim = .ok [fin (0 + (3 - 0) * 1 + (0 - 0) * 0 + -1 * 1)] := by
      rw [hprim]; rfl
    rw [this]
    norm_num
  · intro c hc k hk q hq path n m hn hm
    rw [hadd] at hc
    simp only [List.mem_cons, List.not_mem_nil, or_false] at hc
    subst hc
    obtain rfl : k = k!"U" := by simpa using hk
    rw [hprim] at hq hm
    have e : q = sLn 4 (sPt 1 0 0) (sPt 2 3 0) := Except.ok.inj (hq.symm.trans rfl)
    subst e
    have hm3 : m = sPt 3 3 0 := by
      have h1 := (find_iff_At (forkTree_ok (by decide) ..).wf).mpr hm
      exact Option.some.inj (h1.symm.trans rfl)
    subst hm3
    rcases sLn_at hn with ⟨_, rfl⟩ | ⟨p', _, h⟩ | ⟨p', _, h⟩
    · simp [sLn, sPt]
    · obtain ⟨_, rfl⟩ := sPt_at h; simp [sPt]
    · obtain ⟨_, rfl⟩ := sPt_at h; simp [sPt]

end MplLayout.Props
