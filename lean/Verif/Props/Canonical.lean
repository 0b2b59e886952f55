import Verif.Lemmas.Canonical

/-!
# C74: what the solved geometry depends on
-/

namespace MplLayout.Props

open Solver Flt

/-- C74, order: two histories of calls with affine constraints that put the same primitives in the
same places and add the same constraints with the same arguments, in any order and under any keys
without a slash, lead to the same solved geometry, whether or not the constraints can be satisfied
and whether or not they determine the geometry.  Object identities, tolerances and numbers of
iterations may also differ. -/
theorem C74_order (num num' : Numerics Flt) (hnum : Exact num) (hnum' : Exact num') (id id' : Nat)
    (ops ops' : List (LayoutOp Flt)) (hops : ∀ op ∈ ops, op.Uses Shipped.IsAffine)
    (hops' : ∀ op ∈ ops', op.Uses Shipped.IsAffine) (hs : ∀ op ∈ ops, op.Sensible)
    (hs' : ∀ op ∈ ops', op.Sensible) (ht : ∀ op ∈ ops, op.TopLevel) (ht' : ∀ op ∈ ops', op.TopLevel)
    (l l' : Layout Flt) (hl : l = (Layout.empty id).run ops) (hl' : l' = (Layout.empty id').run ops')
    (hok : PrimOK l.prim) (hok' : PrimOK l'.prim) (hfin : l.prim.Finite)
    (hstr : SameStructure l.prim l'.prim) (hgeo : SameGeometry l.prim l'.prim)
    (hperm : ((Layout.empty id).added ops).Perm ((Layout.empty id').added ops'))
    (s0 : ℝ) (h0 : l.Misfit l.prim s0) (base base' : Nat) (a b a' b' : ℝ) (maxIter maxIter' : Int)
    (hmax : 1 ≤ maxIter) (hmax' : 1 ≤ maxIter') :
    ∃ r info r' info', solveNewton num l base (fin a) (fin b) maxIter = .ok (r, info) ∧
      solveNewton num' l' base' (fin a') (fin b') maxIter' = .ok (r', info') ∧ SameGeometry r r' := by
  have hfin' : l'.prim.Finite := by
    intro p n hn x hx
    obtain ⟨m, hm⟩ := (hgeo.1 p).mpr ⟨n, hn⟩
    rw [← (hgeo.2 p m n hm hn).2.2] at hx
    exact hfin p m hm x hx
  have g1 : GoodGeo l l.prim := ⟨hok, SameStructure.refl hok.wf, hfin⟩
  have g1' : GoodGeo l' l.prim := ⟨hok, SameStructure.symm' hstr, hfin⟩
  have hto : ∀ r, GoodGeo l r → GoodGeo l' r := fun r h => ⟨h.ok, SameStructure.trans' (SameStructure.symm' hstr) h.str, h.fin⟩
  have hfrom : ∀ r, GoodGeo l' r → GoodGeo l r := fun r h => ⟨h.ok, SameStructure.trans' hstr h.str, h.fin⟩
  have hm : ∀ r, GoodGeo l r → ∀ s, l.Misfit r s ↔ l'.Misfit r s := by
    intro r hr s
    have k1 := structure_getChild hr.ok.wf hr.str
    have k2 := structure_getChild hr.ok.wf (hto r hr).str
    subst hl; subst hl'
    constructor
    · exact fun h => misfit_perm (fun op h => Sensible.regular (hs op h))
        (fun op h => Sensible.regular (hs' op h)) ht ht' hperm k1 k2 h
    · exact fun h => misfit_perm (fun op h => Sensible.regular (hs' op h))
        (fun op h => Sensible.regular (hs op h)) ht' ht hperm.symm k2 k1 h
  obtain ⟨r, info, e1, hb⟩ := newton_best hnum hops (congrArg Layout.cons hl) hok hfin g1 h0 base a b maxIter hmax
  obtain ⟨r', info', e2, hb'⟩ := newton_best hnum' hops' (congrArg Layout.cons hl') hok' hfin' g1' ((hm _ g1 _).mp h0) base'
    a' b' maxIter' hmax'
  refine ⟨r, info, r', info', e1, e2, best_same hok hok' hstr hgeo (fun r hr => ?_) hb hb'⟩
  constructor
  · rintro ⟨s, h1, h2⟩
    refine ⟨s, (hm r hr s).mp h1, fun q hq => ?_⟩
    obtain ⟨s', h3, h4⟩ := h2 q (hfrom q hq)
    exact ⟨s', (hm q (hfrom q hq) s').mp h3, h4⟩
  · rintro ⟨s, h1, h2⟩
    refine ⟨s, (hm r hr s).mpr h1, fun q hq => ?_⟩
    obtain ⟨s', h3, h4⟩ := h2 q (hto q hq)
    exact ⟨s', (hm q hq s').mpr h3, h4⟩

/-- C74, demands: two layouts of affine constraints that put the same primitives in the same places,
and whose constraints are satisfied by the same geometries (among which there is at least one), have
the same solved geometry, however different the constraints are: redundant constraints, repeated
constraints and other ways to say the same thing make no difference. -/
theorem C74_demands (num num' : Numerics Flt) (hnum : Exact num) (hnum' : Exact num') (id id' : Nat)
    (ops ops' : List (LayoutOp Flt)) (hops : ∀ op ∈ ops, op.Uses Shipped.IsAffine)
    (hops' : ∀ op ∈ ops', op.Uses Shipped.IsAffine)
    (l l' : Layout Flt) (hl : l = (Layout.empty id).run ops) (hl' : l' = (Layout.empty id').run ops')
    (hok : PrimOK l.prim) (hok' : PrimOK l'.prim) (hfin : l.prim.Finite)
    (hstr : SameStructure l.prim l'.prim) (hgeo : SameGeometry l.prim l'.prim)
    (hsame : ∀ r, PrimOK r → SameStructure l.prim r → r.Finite → (l.Misfit r 0 ↔ l'.Misfit r 0))
    (r0 : Prim Flt) (hr0 : PrimOK r0) (hs0 : SameStructure l.prim r0) (hf0 : r0.Finite)
    (h0 : l.Misfit r0 0) (base base' : Nat) (a b a' b' : ℝ) (maxIter maxIter' : Int)
    (hmax : 1 ≤ maxIter) (hmax' : 1 ≤ maxIter') :
    ∃ r info r' info', solveNewton num l base (fin a) (fin b) maxIter = .ok (r, info) ∧
      solveNewton num' l' base' (fin a') (fin b') maxIter' = .ok (r', info') ∧ SameGeometry r r' := by
  have hfin' : l'.prim.Finite := by
    intro p n hn x hx
    obtain ⟨m, hm⟩ := (hgeo.1 p).mpr ⟨n, hn⟩
    rw [← (hgeo.2 p m n hm hn).2.2] at hx
    exact hfin p m hm x hx
  have hto : ∀ r, GoodGeo l r → GoodGeo l' r := fun r h => ⟨h.ok, SameStructure.trans' (SameStructure.symm' hstr) h.str, h.fin⟩
  have g0 : GoodGeo l r0 := ⟨hr0, hs0, hf0⟩
  have h0' := (hsame r0 hr0 hs0 hf0).mp h0
  obtain ⟨r, info, e1, hb⟩ := newton_best hnum hops (congrArg Layout.cons hl) hok hfin g0 h0 base a b maxIter hmax
  obtain ⟨r', info', e2, hb'⟩ := newton_best hnum' hops' (congrArg Layout.cons hl') hok' hfin' (hto _ g0) h0' base' a' b'
    maxIter' hmax'
  refine ⟨r, info, r', info', e1, e2, best_same hok hok' hstr hgeo (fun r hr => ?_) hb hb'⟩
  rw [least_zero g0 h0 fun r' hr' => misfit_all hops (congrArg Layout.cons hl) hok g0 h0 hr',
    least_zero (hto _ g0) h0' fun r' hr' => misfit_all hops' (congrArg Layout.cons hl') hok' (hto _ g0) h0' hr']
  exact hsame r hr.ok hr.str hr.fin

/-- C74, repetition: two histories that put the same primitives in the same places and add the same
set of affine constraints with their arguments, each of them any number of times, in any order and
under any keys without a slash, have the same solved geometry if the constraints can be satisfied. -/
theorem C74_repetition (num num' : Numerics Flt) (hnum : Exact num) (hnum' : Exact num') (id id' : Nat)
    (ops ops' : List (LayoutOp Flt)) (hops : ∀ op ∈ ops, op.Uses Shipped.IsAffine)
    (hops' : ∀ op ∈ ops', op.Uses Shipped.IsAffine) (hs : ∀ op ∈ ops, op.Sensible)
    (hs' : ∀ op ∈ ops', op.Sensible) (ht : ∀ op ∈ ops, op.TopLevel) (ht' : ∀ op ∈ ops', op.TopLevel)
    (l l' : Layout Flt) (hl : l = (Layout.empty id).run ops) (hl' : l' = (Layout.empty id').run ops')
    (hok : PrimOK l.prim) (hok' : PrimOK l'.prim) (hfin : l.prim.Finite)
    (hstr : SameStructure l.prim l'.prim) (hgeo : SameGeometry l.prim l'.prim)
    (hset : ∀ x, x ∈ (Layout.empty id).added ops ↔ x ∈ (Layout.empty id').added ops')
    (r0 : Prim Flt) (hr0 : PrimOK r0) (hs0 : SameStructure l.prim r0) (hf0 : r0.Finite)
    (h0 : l.Misfit r0 0) (base base' : Nat) (a b a' b' : ℝ) (maxIter maxIter' : Int)
    (hmax : 1 ≤ maxIter) (hmax' : 1 ≤ maxIter') :
    ∃ r info r' info', solveNewton num l base (fin a) (fin b) maxIter = .ok (r, info) ∧
      solveNewton num' l' base' (fin a') (fin b') maxIter' = .ok (r', info') ∧ SameGeometry r r' := by
  refine C74_demands num num' hnum hnum' id id' ops ops' hops hops' l l' hl hl' hok hok' hfin hstr hgeo
    (fun r hr hsr hfr => ?_) r0 hr0 hs0 hf0 h0 base base' a b a' b' maxIter maxIter' hmax hmax'
  have k1 := structure_getChild hr.wf hsr
  have k2 := structure_getChild hr.wf (SameStructure.trans' (SameStructure.symm' hstr) hsr)
  subst hl; subst hl'
  rw [misfit_zero_iff (fun op h => Sensible.regular (hs op h)) ht k1,
    misfit_zero_iff (fun op h => Sensible.regular (hs' op h)) ht' k2]
  have hnil : (Layout.empty id).added ops ≠ [] ↔ (Layout.empty id').added ops' ≠ [] := by
    simp only [ne_eq, List.eq_nil_iff_forall_not_mem, hset]
  rw [hnil]
  simp only [hset]

/-! ## Examples -/

/-- The calls of `clashOps` with the constraints in another order and under other keys. -/
noncomputable def clashOps' : List (LayoutOp Flt) :=
  [.addPrim (sLn 4 (sPt 1 0 0) (sPt 2 3 0)) k!"U",
   .addConstraint ((Shipped.xLength.build).toOption.getD ct.coincident) [k!"U"] [.num (fin 3)] k!"x",
   .addPrim (sLn 5 (sPt 1 0 0) (sPt 3 3 0)) k!"V",
   .addConstraint ((Shipped.xLength.build).toOption.getD ct.coincident) [k!"V"] [.num (fin 1)] [],
   .addConstraint ((Shipped.xLength.build).toOption.getD ct.coincident) [k!"U"] [.num (fin 1)] []]

theorem affine_sensible {op : LayoutOp Flt} (h : op.Uses (· = .xLength)) :
    op.Uses Shipped.IsAffine ∧ op.Sensible := by
  cases op with
  | addPrim p k => exact ⟨h, h⟩
  | addPrims ps => exact ⟨h, h⟩
  | addConstraint c ks ps k =>
    obtain ⟨s, e, h1, rfl⟩ := h
    exact ⟨⟨_, e, h1, trivial⟩, _, e, h1, trivial⟩

theorem clashOps_x : ∀ op ∈ clashOps, op.Uses (· = .xLength) ∧ op.TopLevel := by
  intro op h
  have hw : ∀ (i j k : Nat) (a b c d : ℝ), (sLn i (sPt j a b) (sPt k c d)).WF := fun i j k a b c d =>
    ((Node.goodB_iff _).mp (show Node.goodB (sLn i (sPt j a b) (sPt k c d)) = true from rfl)).1
  simp only [clashOps, forkOps, List.cons_append, List.nil_append, List.mem_cons, List.not_mem_nil,
    or_false] at h
  rcases h with rfl | rfl | rfl | rfl | rfl
  · exact ⟨hw _ _ _ _ _ _ _, trivial⟩
  · exact ⟨hw _ _ _ _ _ _ _, trivial⟩
  · exact ⟨⟨.xLength, rfl, trivial, rfl⟩, show '/' ∉ k!"a" by decide⟩
  · exact ⟨⟨.xLength, rfl, trivial, rfl⟩, show '/' ∉ k!"b" by decide⟩
  · exact ⟨⟨.xLength, rfl, trivial, rfl⟩, show '/' ∉ k!"c" by decide⟩

theorem clashOps'_x : ∀ op ∈ clashOps', op.Uses (· = .xLength) ∧ op.TopLevel := by
  intro op h
  have hw : ∀ (i j k : Nat) (a b c d : ℝ), (sLn i (sPt j a b) (sPt k c d)).WF := fun i j k a b c d =>
    ((Node.goodB_iff _).mp (show Node.goodB (sLn i (sPt j a b) (sPt k c d)) = true from rfl)).1
  simp only [clashOps', List.mem_cons, List.not_mem_nil, or_false] at h
  rcases h with rfl | rfl | rfl | rfl | rfl
  · exact ⟨hw _ _ _ _ _ _ _, trivial⟩
  · exact ⟨⟨.xLength, rfl, trivial, rfl⟩, show '/' ∉ k!"x" by decide⟩
  · exact ⟨hw _ _ _ _ _ _ _, trivial⟩
  · exact ⟨⟨.xLength, rfl, trivial, rfl⟩, show '/' ∉ ([] : Str) by decide⟩
  · exact ⟨⟨.xLength, rfl, trivial, rfl⟩, show '/' ∉ ([] : Str) by decide⟩

/-- The contradictory layout of C70 with its constraints in another order has the same result. -/
example : ∃ r info r' info',
    solveNewton exactNum clashL 10 (fin 0) (fin 0) 1 = .ok (r, info) ∧
    solveNewton exactNum ((Layout.empty 0).run clashOps') 20 (fin 1) (fin 0) 5 = .ok (r', info') ∧
    SameGeometry r r' := by
  refine C74_order exactNum exactNum exactNum_exact exactNum_exact 0 0 clashOps clashOps'
    (fun op h => (affine_sensible (clashOps_x op h).1).1)
    (fun op h => (affine_sensible (clashOps'_x op h).1).1)
    (fun op h => (affine_sensible (clashOps_x op h).1).2)
    (fun op h => (affine_sensible (clashOps'_x op h).1).2)
    (fun op h => (clashOps_x op h).2) (fun op h => (clashOps'_x op h).2) clashL _ rfl rfl ?_ ?_ ?_ ?_ ?_ ?_ _
    (by rw [clashL_prim]; exact clashL_misfit _ _ _ _ _ _ _ _ _ _ _ _) 10 20 0 0 1 0 1 5 (by norm_num)
    (by norm_num)
  · rw [clashL_prim]; exact forkTree_ok (by decide) _ _ _ _ _ _
  · exact forkTree_ok (r := 0) (u := 4) (v := 5) (p := 1) (q := 2) (s := 3) (by decide) 0 0 3 0 3 0
  · rw [clashL_prim]; exact forkTree_finite _ _ _ _ _ _ _ _ _ _ _ _
  · rw [clashL_prim]; exact SameStructure.refl (forkTree_ok (by decide) _ _ _ _ _ _).wf
  · rw [clashL_prim]; exact SameGeometry.refl (forkTree_ok (by decide) _ _ _ _ _ _).wf
  · let X : Cons Flt := (Shipped.xLength.build).toOption.getD ct.coincident
    show List.Perm [Added.mk X [k!"U"] [.num (fin 1)], ⟨X, [k!"V"], [.num (fin 1)]⟩,
      ⟨X, [k!"U"], [.num (fin 3)]⟩] [⟨X, [k!"U"], [.num (fin 3)]⟩, ⟨X, [k!"V"], [.num (fin 1)]⟩,
      ⟨X, [k!"U"], [.num (fin 1)]⟩]
    exact (List.reverse_perm _).symm

/-- The calls of `forkOps`, and the constraint on the first line again. -/
noncomputable def forkOps2 : List (LayoutOp Flt) :=
  forkOps ++ [.addConstraint ((Shipped.xLength.build).toOption.getD ct.coincident) [k!"U"]
    [.num (fin 1)] k!"c"]

theorem forkOps2_x : ∀ op ∈ forkOps2, op.Uses (· = .xLength) ∧ op.TopLevel := by
  intro op h
  rcases List.mem_append.mp h with h | h
  · exact clashOps_x op (List.mem_append_left _ h)
  · rw [List.mem_singleton] at h
    subst h
    exact ⟨⟨.xLength, rfl, trivial, rfl⟩, show '/' ∉ k!"c" by decide⟩

/-- The result of `forkL` does not change if its first constraint is added once more. -/
example : ∃ r info r' info',
    solveNewton exactNum forkL 10 (fin 0) (fin 0) 1 = .ok (r, info) ∧
    solveNewton exactNum ((Layout.empty 0).run forkOps2) 20 (fin 1) (fin 0) 5 = .ok (r', info') ∧
    SameGeometry r r' := by
  have hx := fun op h => clashOps_x op (List.mem_append_left _ h)
  refine C74_repetition exactNum exactNum exactNum_exact exactNum_exact 0 0 forkOps forkOps2
    forkOps_affine (fun op h => (affine_sensible (forkOps2_x op h).1).1)
    (fun op h => (affine_sensible (hx op h).1).2)
    (fun op h => (affine_sensible (forkOps2_x op h).1).2)
    (fun op h => (hx op h).2) (fun op h => (forkOps2_x op h).2) forkL _ rfl rfl ?_ ?_ ?_ ?_ ?_ ?_
    (forkTree 10 14 15 11 12 13 0 0 1 0 1 0) (forkTree_ok (by decide) _ _ _ _ _ _)
    (by rw [forkL_prim]; exact forkTree_same _ _ _ _ _ _ _ _ _ _ _ _)
    (forkTree_finite _ _ _ _ _ _ _ _ _ _ _ _) ⟨[0, 0], ?_, by simp⟩ 10 20 0 0 1 0 1 5 (by norm_num)
    (by norm_num)
  · rw [forkL_prim]; exact forkTree_ok (by decide) _ _ _ _ _ _
  · exact forkTree_ok (r := 0) (u := 4) (v := 5) (p := 1) (q := 2) (s := 3) (by decide) 0 0 3 0 3 0
  · rw [forkL_prim]; exact forkTree_finite _ _ _ _ _ _ _ _ _ _ _ _
  · rw [forkL_prim]; exact SameStructure.refl (forkTree_ok (by decide) _ _ _ _ _ _).wf
  · rw [forkL_prim]; exact SameGeometry.refl (forkTree_ok (by decide) _ _ _ _ _ _).wf
  · intro x
    let X : Cons Flt := (Shipped.xLength.build).toOption.getD ct.coincident
    show x ∈ [Added.mk X [k!"U"] [.num (fin 1)], ⟨X, [k!"V"], [.num (fin 1)]⟩] ↔
      x ∈ [Added.mk X [k!"U"] [.num (fin 1)], ⟨X, [k!"V"], [.num (fin 1)]⟩, ⟨X, [k!"U"], [.num (fin 1)]⟩]
    simp only [List.mem_cons, List.not_mem_nil, or_false]
    tauto
  · rw [forkL_residual]; norm_num

end MplLayout.Props
