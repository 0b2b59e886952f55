import Verif.Lemmas.SmoothNear
import Verif.Props.Jacfwd

/-!
# C96: the Newton method with the derivatives that `jax` computes
-/

namespace MplLayout.Props

open Solver Flt

/-- Smoothness is a property of the geometry. -/
theorem smoothAt_same {a b : Prim Flt} (ha : a.WF) (hb : b.WF) (h : SameGeometry a b) {s : Shipped}
    (hs : Shipped.SmoothAt a s) : Shipped.SmoothAt b s := by
  refine ⟨fun hm k q hq => ?_, fun hm k q hq => ?_⟩
  · obtain ⟨q', e, hq'⟩ := sameGeometry_child ha hb h hq
    exact noZero_same hq' (hs.1 hm k q' e)
  · obtain ⟨q', e, hq'⟩ := sameGeometry_child ha hb h hq
    exact noLeft_same hq' (hs.2 hm k q' e)

/-- `C96_exact` from another starting point. -/
theorem exact_from (id : Nat) (prog : List BuildCall) (r0 : Prim Flt) (base : Nat) {m n : Nat} (x : Fin n → ℝ)
    (hsm : ∀ root, rebuild (builtFrom id prog r0) base (vec x) = .ok root → Uses prog (Shipped.SmoothAt root))
    (M : Matrix (Fin m) (Fin n) ℝ) (hM : IsJacobian (globalRes (builtFrom id prog r0) base) x M) :
    jacfwd (globalRes (tracedFrom id prog r0) base) (vec x) = .ok (mat M) := by
  have hM0 := hM
  obtain ⟨F, h1, h2⟩ := hM0
  obtain ⟨M', h3⟩ := jacfwd_finite id prog r0 base
    (∀ root, rebuild (builtFrom id prog r0) base (vec x) = .ok root → ∀ k q, root.getChild k = .ok q →
      Prim.NoZeroLines q)
    (∀ root, rebuild (builtFrom id prog r0) base (vec x) = .ok root → ∀ k q, root.getChild k = .ok q →
      Prim.NoLeftLines q)
    (fun s ks ps key h => ⟨fun hs root e => (hsm root e s ks ps key h).1 hs,
      fun hs root e => (hsm root e s ks ps key h).2 hs⟩)
    (fun root e k q hq => ⟨fun h => h root e k q hq, fun h => h root e k q hq⟩) h1.self_of_nhds
  have h4 := jacfwd_sound id prog r0 base
    (∀ root, rebuild (builtFrom id prog r0) base (vec x) = .ok root → ∀ k q, root.getChild k = .ok q →
      Prim.NoLeftLines q)
    (fun s ks ps key h hs root e => (hsm root e s ks ps key h).2 hs)
    (fun root e k q hq h => h root e k q hq) h1.self_of_nhds h3
  rw [h3, h4.unique hM]

/-- C96 for C56 and C71: let a layout be made by any calls that add trees and shipped constraints, which
are all differentiable at its geometry.  If the Newton method differentiates as `jax.jacfwd` does, it
leaves the layout alone if no nearby geometry of the same structure has a smaller sum of squared
residuals, in particular if all constraints are satisfied. -/
theorem C96_newton_stays (id : Nat) (prog : List BuildCall) (l : Layout Flt) (hl : l = builtLayout id prog)
    (hprog : ∀ c ∈ prog, c.OK (Shipped.SmoothAt l.prim)) (hok : PrimOK l.prim) (hfin : l.prim.Finite)
    (hbest : l.LocallyBest) (base : Nat) (num : Numerics Flt)
    (hnum : ForwardMode num (globalRes l base) (globalRes (tracedLayout id prog) base))
    (absTol relTol : Flt) (maxIter : Int) :
    ∃ r info, solveNewton num l base absTol relTol maxIter = .ok (r, info) ∧ SameGeometry l.prim r := by
  refine local_best_of num hnum.lstsq id _ l (by rw [hl, builtLayout_eq]) (plain_uses hprog) hok hfin hbest base
    (fun x M hx hM => ?_) absTol relTol maxIter
  rw [hnum.jacobian]
  subst hl
  refine C96_exact id prog base x (fun root e s ks ps key hm => ?_) M hM
  obtain ⟨r, e1, e2⟩ := rebuild_self _ hok base hx
  obtain rfl := Except.ok.inj (e1.symm.trans e)
  exact smoothAt_same hok.wf (rebuild_primOK _ hok base _ (vec_length x) e1).wf e2 (ok_uses hprog s ks ps key hm)

/-- C96 for C82: let a layout be made by any calls that add trees and shipped constraints, and let `p` be a
geometry that satisfies all of them, at which they are differentiable and which is regular.  Then there
is a constant `C` such that, from every geometry `r0` with the structure of `p` whose squared distance
`t0` from `p` is less than `1 / C`, with all tolerances and numbers of iterations, the Newton method that
differentiates as `jax.jacfwd` does succeeds and converges quadratically to `p`. -/
theorem C96_newton_quadratic (id : Nat) (prog : List BuildCall) (p : Prim Flt) (hok : PrimOK p)
    (hfin : p.Finite) (hprog : ∀ c ∈ prog, c.OK (Shipped.SmoothAt p))
    (hreg : (builtLayout id prog).RegularSolution p) :
    ∃ C > 0, ∀ r0, PrimOK r0 → SameStructure p r0 → r0.Finite → ∀ ps t0, Represents p ps →
      Moved ps p r0 t0 → C * t0 < 1 → ∀ (num : Numerics Flt) base,
      ForwardMode num (globalRes (builtFrom id prog r0) base) (globalRes (tracedFrom id prog r0) base) →
      ∀ absTol relTol maxIter, ∃ r info t,
        solveNewton num (builtFrom id prog r0) base absTol relTol maxIter = .ok (r, info) ∧
        SameStructure p r ∧ Moved ps p r t ∧ C * t ≤ (C * t0) ^ 2 ^ info.absErrs.length ∧
        ∀ e, info.absErrs.getLast? = some (fin e) → t ≤ C * e ^ 4 := by
  let ls : Layout Flt := builtFrom id prog p
  have hoks : PrimOK ls.prim := hok
  obtain ⟨x, hx⟩ := finite_param (l := ls) hoks hfin
  obtain ⟨T, hT⟩ := rebuild_mapV ls hoks 0
  have V := paramVal_aff ls 0 (dim ls)
  obtain ⟨q0, e1, e2⟩ := rebuild_self ls hoks 0 hx
  have hTx : T.mapV (paramVal ls 0 (dim ls) x) = q0 := by
    have := hT x
    rw [e1] at this
    exact (Except.ok.inj this).symm
  have hq0 : q0.WF := (rebuild_primOK ls hoks 0 _ (vec_length x) e1).wf
  have hsm0 : Uses prog (Shipped.SmoothAt q0) := fun s ks ps key hm =>
    smoothAt_same hok.wf hq0 e2 (ok_uses hprog s ks ps key hm)
  -- the geometries near `x` are smooth
  have hS : ∀ᶠ y in nhds x, Uses prog (Shipped.SmoothAt (T.mapV (paramVal ls 0 (dim ls) y))) := by
    have hnear := tree_eventually (F := nhds x) (P := fun y m =>
      (Prim.NoZeroLines (m.mapV (paramVal ls 0 (dim ls) x)) → Prim.NoZeroLines (m.mapV (paramVal ls 0 (dim ls) y))) ∧
      (Prim.NoLeftLines (m.mapV (paramVal ls 0 (dim ls) x)) → Prim.NoLeftLines (m.mapV (paramVal ls 0 (dim ls) y)))) T
      fun path m hm => by
        refine Filter.Eventually.and ?_ ?_
        · by_cases h : Prim.NoZeroLines (m.mapV (paramVal ls 0 (dim ls) x))
          · exact (noZero_near V m h).mono fun y hy _ => hy
          · exact .of_forall fun y h' => absurd h' h
        · by_cases h : Prim.NoLeftLines (m.mapV (paramVal ls 0 (dim ls) x))
          · exact (noLeft_near V m h).mono fun y hy _ => hy
          · exact .of_forall fun y h' => absurd h' h
    filter_upwards [hnear] with y hy s ks ps key hm
    have hs := hsm0 s ks ps key hm
    have hch : ∀ k q, (T.mapV (paramVal ls 0 (dim ls) y)).getChild k = .ok q → ∃ m path, T.At path m ∧
        q0.getChild k = .ok (m.mapV (paramVal ls 0 (dim ls) x)) ∧ q = m.mapV (paramVal ls 0 (dim ls) y) := by
      intro k q hq
      rw [Node.getChild_mapV] at hq
      cases hT' : T.getChild k with
      | error e => rw [hT'] at hq; cases hq
      | ok m =>
        rw [hT'] at hq
        have := hT'
        rw [Node.getChild_ok_iff] at this
        exact ⟨m, _, Node.At_of_find this, by rw [← hTx, Node.getChild_mapV, hT']; rfl, (Except.ok.inj hq).symm⟩
    refine ⟨fun hm k q hq => ?_, fun hm k q hq => ?_⟩
    · obtain ⟨m, path, h1, h2, rfl⟩ := hch k q hq
      exact (hy path m h1).1 (hs.1 hm k _ h2)
    · obtain ⟨m, path, h1, h2, rfl⟩ := hch k q hq
      exact (hy path m h1).2 (hs.2 hm k _ h2)
  obtain ⟨C, hC, h⟩ := quadratic_of id _ (builtLayout id prog) (builtLayout_eq id prog) p hok hfin (plain_uses hprog)
    hreg hx hS
  refine ⟨C, hC, fun r0 h1 h2 h3 ps t0 h4 h5 h6 num base hnum => h r0 h1 h2 h3 ps t0 h4 h5 h6 num base hnum.lstsq
    fun y M hy hM => ?_⟩
  rw [show { builtLayout id prog with prim := r0 } = builtFrom id prog r0 from rfl, hnum.jacobian]
  refine exact_from id prog r0 base y (fun root e => ?_) M hM
  obtain ⟨hreb, hdim⟩ := rebuild_same (l := builtFrom id prog r0) (l' := ls) h1 hoks (SameStructure.symm' h2)
  obtain ⟨r1, r2, i1, i2, i3, i4, i5⟩ := rebuild_base hoks (vec_length y) 0 base
  rw [hreb] at e
  obtain rfl := Except.ok.inj (i2.symm.trans e)
  obtain rfl := Except.ok.inj (i1.symm.trans (hT y))
  exact fun s ks ps key hm => smoothAt_same i3 i4 i5 (hy s ks ps key hm)

/-- C96 for all theorems about the Newton method: for a layout whose constraints measure neither lengths
nor angles, routines that differentiate as `jax.jacfwd` does give the same results as exact routines. -/
theorem C96_newton_transfer (id : Nat) (prog : List BuildCall) (base : Nat)
    (hprog : Uses prog fun s => ¬ s.MeasuresLength ∧ s ≠ .angle) (num : Numerics Flt)
    (hnum : ForwardMode num (globalRes (builtLayout id prog) base) (globalRes (tracedLayout id prog) base)) :
    ∃ num', Exact num' ∧ ∀ absTol relTol maxIter, solveNewton num (builtLayout id prog) base absTol relTol maxIter
      = solveNewton num' (builtLayout id prog) base absTol relTol maxIter := by
  classical
  let num' : Numerics Flt := { num with
    jacobian := fun res x => if res = globalRes (builtLayout id prog) base then num.jacobian res x
      else exactNum.jacobian res x }
  have hj : num'.jacobian (globalRes (builtLayout id prog) base) = num.jacobian (globalRes (builtLayout id prog) base) := by
    funext x
    exact if_pos rfl
  refine ⟨num', ⟨fun res x M hM => ?_, hnum.lstsq⟩, fun absTol relTol maxIter => ?_⟩
  · by_cases h : res = globalRes (builtLayout id prog) base
    · subst h
      rw [hj, hnum.jacobian]
      exact C96_exact id prog base x (fun root e s ks ps key hm => ⟨fun h => absurd h (hprog s ks ps key hm).1,
        fun h => absurd h (hprog s ks ps key hm).2⟩) M hM
    · exact (if_neg h).trans (exactNum_exact.jacobian res x M hM)
  · have hstep : ∀ s, newtonStep num (globalRes (builtLayout id prog) base) s
        = newtonStep num' (globalRes (builtLayout id prog) base) s := by
      intro s
      simp only [newtonStep, hj]
      rfl
    have hloop : ∀ fuel s, newtonLoop num (globalRes (builtLayout id prog) base) absTol relTol maxIter fuel s
        = newtonLoop num' (globalRes (builtLayout id prog) base) absTol relTol maxIter fuel s := by
      intro fuel
      induction fuel with
      | zero => intro s; rfl
      | succ fuel ih =>
        intro s
        simp only [newtonLoop, hstep, ih]
    simp only [solveNewton, hloop]

/-! ## Examples -/

/-- Routines that differentiate a function as `jax.jacfwd` does. -/
noncomputable def forwardNum (traced : List Dual → Py (List Dual)) : Numerics Flt :=
  { exactNum with jacobian := fun _ x => jacfwd traced x }

theorem forwardNum_mode (res : List Flt → Py (List Flt)) (traced : List Dual → Py (List Dual)) :
    ForwardMode (forwardNum traced) res traced :=
  ⟨fun _ => rfl, exactNum_exact.lstsq⟩

/-- Two lines from a fixed point: one has length 5 and reaches 3 to the right, the other one has a fixed
end point. -/
noncomputable def elbowProg : List BuildCall :=
  [.addPrim (sLn 4 (sPt 1 0 0) (sPt 2 3 3)) k!"U",
   .addPrim (sLn 5 (sPt 1 0 0) (sPt 3 0 2)) k!"V",
   .addConstraint .fix [k!"U/Point0"] [.arr [fin 0, fin 0]] k!"a",
   .addConstraint .fix [k!"V/Point1"] [.arr [fin 0, fin 1]] k!"b",
   .addConstraint .length [k!"U"] [.num (fin 5)] k!"c",
   .addConstraint .xLength [k!"U"] [.num (fin 3)] k!"d"]

theorem elbowProg_layout : builtLayout 0 elbowProg = elbowL := by
  rfl

theorem elbowProg_ok : ∀ c ∈ elbowProg, c.OK (Shipped.SmoothAt elbowP) := by
  have hw : ∀ (i j k : Nat) (a b c d : ℝ), (sLn i (sPt j a b) (sPt k c d)).WF := fun i j k a b c d =>
    ((Node.goodB_iff _).mp (show Node.goodB (sLn i (sPt j a b) (sPt k c d)) = true from rfl)).1
  have hs : Shipped.SmoothAt elbowP .length := by
    refine ⟨fun _ k t ht path n x y hn hv w e => ?_, fun h => by cases h⟩
    refine forkTree_lines (Q := fun w => w = [] ∨ ∃ x ∈ w, x ≠ fin 0) (.inl rfl) ?_ ?_ ht hn hv e
    · exact .inr ⟨fin (3 - 0), by simp, by simp⟩
    · exact .inr ⟨fin (1 - 0), by simp, by simp⟩
  intro c h
  simp only [elbowProg, List.mem_cons, List.not_mem_nil, or_false] at h
  rcases h with rfl | rfl | rfl | rfl | rfl | rfl
  · exact hw _ _ _ _ _ _ _
  · exact hw _ _ _ _ _ _ _
  · exact ⟨trivial, nofun, nofun⟩
  · exact ⟨trivial, nofun, nofun⟩
  · exact ⟨trivial, hs⟩
  · exact ⟨trivial, nofun, nofun⟩

/-- With `jax`'s derivatives, the Newton method finds the corner from nearby. -/
example : ∃ C > 0, ∀ r0, PrimOK r0 → SameStructure elbowP r0 → r0.Finite → ∀ ps t0, Represents elbowP ps →
    Moved ps elbowP r0 t0 → C * t0 < 1 → ∀ base absTol relTol maxIter, ∃ r info t,
      solveNewton (forwardNum (globalRes (tracedFrom 0 elbowProg r0) base)) (builtFrom 0 elbowProg r0) base
        absTol relTol maxIter = .ok (r, info) ∧
      SameStructure elbowP r ∧ Moved ps elbowP r t ∧ C * t ≤ (C * t0) ^ 2 ^ info.absErrs.length ∧
      ∀ e, info.absErrs.getLast? = some (fin e) → t ≤ C * e ^ 4 := by
  obtain ⟨C, hC, h⟩ := C96_newton_quadratic 0 elbowProg elbowP elbowP_ok (forkTree_finite _ _ _ _ _ _ _ _ _ _ _ _)
    elbowProg_ok (by rw [elbowProg_layout]; exact elbowP_regular)
  exact ⟨C, hC, fun r0 h1 h2 h3 ps t0 h4 h5 h6 base => h r0 h1 h2 h3 ps t0 h4 h5 h6 _ base (forwardNum_mode _ _)⟩

/-- A line of length 2 that should have the lengths 1 and 3. -/
noncomputable def stretchProg : List BuildCall :=
  [.addPrim (sLn 4 (sPt 1 0 0) (sPt 2 2 0)) k!"U",
   .addPrim (sLn 5 (sPt 1 0 0) (sPt 3 0 1)) k!"V",
   .addConstraint .length [k!"U"] [.num (fin 1)] k!"a",
   .addConstraint .length [k!"U"] [.num (fin 3)] k!"b"]

theorem stretchProg_ok : ∀ c ∈ stretchProg, c.OK (Shipped.SmoothAt stretchL.prim) := by
  have hw : ∀ (i j k : Nat) (a b c d : ℝ), (sLn i (sPt j a b) (sPt k c d)).WF := fun i j k a b c d =>
    ((Node.goodB_iff _).mp (show Node.goodB (sLn i (sPt j a b) (sPt k c d)) = true from rfl)).1
  have hs : Shipped.SmoothAt stretchL.prim .length := by
    rw [stretchL_prim]
    refine ⟨fun _ k t ht path n x y hn hv w e => ?_, fun h => by cases h⟩
    refine forkTree_lines (Q := fun w => w = [] ∨ ∃ x ∈ w, x ≠ fin 0) (.inl rfl) ?_ ?_ ht hn hv e
    · exact .inr ⟨fin (2 - 0), by simp, by simp⟩
    · exact .inr ⟨fin (1 - 0), by simp, by simp⟩
  intro c h
  simp only [stretchProg, List.mem_cons, List.not_mem_nil, or_false] at h
  rcases h with rfl | rfl | rfl | rfl
  · exact hw _ _ _ _ _ _ _
  · exact hw _ _ _ _ _ _ _
  · exact ⟨trivial, hs⟩
  · exact ⟨trivial, hs⟩

/-- With `jax`'s derivatives, the Newton method leaves the best compromise alone. -/
example (a b : Flt) (n : Int) : ∃ r info, solveNewton (forwardNum (globalRes (tracedLayout 0 stretchProg) 10))
    stretchL 10 a b n = .ok (r, info) ∧ SameGeometry stretchL.prim r := by
  refine C96_newton_stays 0 stretchProg stretchL rfl stretchProg_ok
    (by rw [stretchL_prim]; exact forkTree_ok (by decide) _ _ _ _ _ _)
    (by rw [stretchL_prim]; exact forkTree_finite _ _ _ _ _ _ _ _ _ _ _ _) stretchL_best 10 _ (forwardNum_mode _ _) a b n

/-- A layout that measures no lengths. -/
example : Uses [.addPrim (sLn 4 (sPt 1 0 0) (sPt 2 3 3)) k!"U", .addConstraint .xLength [k!"U"] [.num (fin 3)] k!"d"]
    fun s => ¬ s.MeasuresLength ∧ s ≠ .angle := by
  intro s ks ps key h
  simp only [List.mem_cons, reduceCtorEq, List.not_mem_nil, or_false, false_or, BuildCall.addConstraint.injEq] at h
  rw [h.1]
  exact ⟨nofun, nofun⟩

end MplLayout.Props
