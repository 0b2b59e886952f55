import Verif.Spec.More
import Verif.Lemmas.Extra
import Verif.Props.Canonical

/-!
# C87: what additional constraints do to the solved geometry
-/

namespace MplLayout.Props

open Solver Flt

section
variable {id id' : Nat} {ops ops' : List (LayoutOp Flt)} {l l' : Layout Flt} {extra : List (Added Flt)}

theorem _root_.MplLayout.More.to (h : More id id' ops ops' l l' extra) {r : Prim Flt} (hr : GoodGeo l r) : GoodGeo l' r :=
  ⟨hr.ok, SameStructure.trans' (SameStructure.symm' h.structure_) hr.str, hr.fin⟩

theorem _root_.MplLayout.More.from (h : More id id' ops ops' l l' extra) {r : Prim Flt} (hr : GoodGeo l' r) : GoodGeo l r :=
  ⟨hr.ok, SameStructure.trans' h.structure_ hr.str, hr.fin⟩

theorem _root_.MplLayout.More.good (h : More id id' ops ops' l l' extra) : GoodGeo l l.prim := ⟨h.ok, SameStructure.refl h.ok.wf, h.finite⟩

theorem _root_.MplLayout.More.finite' (h : More id id' ops ops' l l' extra) : l'.prim.Finite := by
  intro p n hn x hx
  obtain ⟨m, hm⟩ := (h.geometry.1 p).mpr ⟨n, hn⟩
  rw [← (h.geometry.2 p m n hm hn).2.2] at hx
  exact h.finite p m hm x hx

theorem _root_.MplLayout.More.misfit (h : More id id' ops ops' l l' extra) {s0 : ℝ} (h0 : l.Misfit l.prim s0) {r : Prim Flt} (hr : GoodGeo l r) :
    (∀ s', l'.Misfit r s' → ∃ s, l.Misfit r s ∧ s ≤ s' ∧ (s = s' → ∀ a ∈ extra, ∃ w, a.Value r w ∧ Zeros w)) ∧
    ∀ s, l.Misfit r s → (∀ a ∈ extra, ∃ w, a.Value r w ∧ Zeros w) → l'.Misfit r s := by
  have k1 := structure_getChild hr.ok.wf hr.str
  have k2 := structure_getChild hr.ok.wf (h.to hr).str
  have k0 := structure_getChild h.ok.wf h.good.str
  have hr1 := fun op ho => Sensible.regular (h.sensible op ho)
  have hr2 := fun op ho => Sensible.regular (h.sensible' op ho)
  have hc := h.constraints
  have t1 := h.top
  have t2 := h.top'
  obtain rfl := h.eq
  obtain rfl := h.eq'
  have hne := ((misfit_iff hr1 t1 k0 (.refl _)).mp h0).1
  exact misfit_extra hr1 hr2 t1 t2 hc hne k1 k2

/-- A geometry at which the additional constraints are satisfied: it is best for the second layout if it is for the
first, and all that are best for the second are best for the first. -/
theorem _root_.MplLayout.More.least (h : More id id' ops ops' l l' extra) {s0 : ℝ} (h0 : l.Misfit l.prim s0) {r : Prim Flt}
    (hr : GoodGeo l r) (hl : Least l r) (hz : ∀ a ∈ extra, ∃ w, a.Value r w ∧ Zeros w) :
    Least l' r ∧ ∀ q, GoodGeo l q → Least l' q → Least l q := by
  obtain ⟨s, k1, k2⟩ := hl
  have m0 := (h.misfit h0 hr).2 s k1 hz
  have all : ∀ q, GoodGeo l q → ∃ s', l'.Misfit q s' := fun q hq =>
    misfit_all h.affine' (congrArg Layout.cons h.eq') h.ok' (h.to hr) m0 (h.to hq)
  have hL : Least l' r := by
    refine ⟨s, m0, fun q hq => ?_⟩
    obtain ⟨s', hs'⟩ := all q (h.from hq)
    obtain ⟨s1, e1, e2, _⟩ := (h.misfit h0 (h.from hq)).1 s' hs'
    obtain ⟨s2, e3, e4⟩ := k2 q (h.from hq)
    rw [misfit_unique e3 e1] at e4
    exact ⟨s', hs', by linarith⟩
  refine ⟨hL, fun q hq ⟨s', e1, e2⟩ => ?_⟩
  obtain ⟨s1, e3, e4⟩ := e2 r (h.to hr)
  rw [misfit_unique e3 m0] at e4
  obtain ⟨s2, e5, e6, _⟩ := (h.misfit h0 hq).1 s' e1
  refine ⟨s2, e5, fun q' hq' => ?_⟩
  obtain ⟨s3, e7, e8⟩ := k2 q' hq'
  exact ⟨s3, e7, by linarith⟩

end

/-- C87, nothing new: if the solved geometry satisfies the additional constraints, wherever in the history they are
added, then the solved geometry of the larger layout is the same, whether or not the first constraints can be satisfied
and whether or not they determine the geometry. -/
theorem C87_already_met (num num' : Numerics Flt) (hnum : Exact num) (hnum' : Exact num') (id id' : Nat)
    (ops ops' : List (LayoutOp Flt)) (l l' : Layout Flt) (extra : List (Added Flt)) (h : More id id' ops ops' l l' extra)
    (s0 : ℝ) (h0 : l.Misfit l.prim s0) (base base' : Nat) (a b a' b' : ℝ) (maxIter maxIter' : Int)
    (hmax : 1 ≤ maxIter) (hmax' : 1 ≤ maxIter') :
    ∃ r info, solveNewton num l base (fin a) (fin b) maxIter = .ok (r, info) ∧
      ((∀ x ∈ extra, ∃ w, x.Value r w ∧ Zeros w) →
        ∃ r' info', solveNewton num' l' base' (fin a') (fin b') maxIter' = .ok (r', info') ∧ SameGeometry r r') := by
  obtain ⟨r, info, e1, hb⟩ := newton_best hnum h.affine (congrArg Layout.cons h.eq) h.ok h.finite h.good h0 base a b maxIter hmax
  refine ⟨r, info, e1, fun hz => ?_⟩
  obtain ⟨s, m1, _⟩ := hb.2.1
  obtain ⟨hL, hsub⟩ := h.least h0 hb.1 hb.2.1 hz
  obtain ⟨r', info', e2, hb'⟩ := newton_best hnum' h.affine' (congrArg Layout.cons h.eq') h.ok' h.finite' (h.to hb.1)
    ((h.misfit h0 hb.1).2 s m1 hz) base' a' b' maxIter' hmax'
  refine ⟨r', info', e2, ?_⟩
  obtain ⟨ps, hps⟩ := represents_exists h.ok
  obtain ⟨t, t', c1, c2, c3, c4⟩ := hb.2.2 r' (h.from hb'.1) (hsub r' (h.from hb'.1) hb'.2.1) ps hps
  obtain ⟨u, u', d1, d2, d3, _⟩ := hb'.2.2 r (h.to hb.1) hL ps (represents_str h.structure_ hps)
  refine c4 ?_
  have g1 := moved_unique h.ok'.wf hb'.1.ok.wf d1 (moved_geometry h.geometry c2)
  have g2 := moved_unique h.ok'.wf hb.1.ok.wf d2 (moved_geometry h.geometry c1)
  linarith

/-- C87, only worse: additional constraints never make the fit better; and if they leave it as good (for example because
all constraints can be satisfied), then the points of the second figure are at least as far from where they were put,
and the figures agree if the distances do. -/
theorem C87_monotone (num num' : Numerics Flt) (hnum : Exact num) (hnum' : Exact num') (id id' : Nat)
    (ops ops' : List (LayoutOp Flt)) (l l' : Layout Flt) (extra : List (Added Flt)) (h : More id id' ops ops' l l' extra)
    (s0 : ℝ) (h0 : l'.Misfit l.prim s0) (hne : (Layout.empty id).added ops ≠ [])
    (base base' : Nat) (a b a' b' : ℝ) (maxIter maxIter' : Int) (hmax : 1 ≤ maxIter) (hmax' : 1 ≤ maxIter') :
    ∃ r info r' info' s s', solveNewton num l base (fin a) (fin b) maxIter = .ok (r, info) ∧
      solveNewton num' l' base' (fin a') (fin b') maxIter' = .ok (r', info') ∧ l.Misfit r s ∧ l'.Misfit r' s' ∧ s ≤ s' ∧
      (s = s' → ∀ ps, Represents l.prim ps → ∃ t t', Moved ps l.prim r t ∧ Moved ps l.prim r' t' ∧ t ≤ t' ∧
        (t' = t → SameGeometry r r')) := by
  have k1 := structure_getChild h.ok.wf h.good.str
  have k2 := structure_getChild h.ok.wf (h.to h.good).str
  obtain ⟨s00, h00⟩ : ∃ s, l.Misfit l.prim s := by
    have hr1 := fun op ho => Sensible.regular (h.sensible op ho)
    have hr2 := fun op ho => Sensible.regular (h.sensible' op ho)
    have hc := h.constraints
    have t1 := h.top
    have t2 := h.top'
    obtain rfl := h.eq
    obtain rfl := h.eq'
    obtain ⟨s, hs, _⟩ := (misfit_extra hr1 hr2 t1 t2 hc hne k1 k2).1 s0 h0
    exact ⟨s, hs⟩
  obtain ⟨r, info, e1, hb⟩ := newton_best hnum h.affine (congrArg Layout.cons h.eq) h.ok h.finite h.good h00 base a b maxIter hmax
  obtain ⟨r', info', e2, hb'⟩ := newton_best hnum' h.affine' (congrArg Layout.cons h.eq') h.ok' h.finite' (h.to h.good)
    h0 base' a' b' maxIter' hmax'
  obtain ⟨s, m1, m2⟩ := hb.2.1
  obtain ⟨s', m3, m4⟩ := hb'.2.1
  obtain ⟨s1, m5, m6, _⟩ := (h.misfit h00 (h.from hb'.1)).1 s' m3
  obtain ⟨s2, m7, m8⟩ := m2 r' (h.from hb'.1)
  rw [misfit_unique m7 m5] at m8
  refine ⟨r, info, r', info', s, s', e1, e2, m1, m3, by linarith, fun he ps hps => hb.2.2 r' (h.from hb'.1) ?_ ps hps⟩
  refine ⟨s1, m5, fun q hq => ?_⟩
  obtain ⟨s3, m9, m10⟩ := m2 q hq
  exact ⟨s3, m9, by linarith⟩

/-! ## The hypotheses are met -/

/-- The constraint of the clashing lines that can be satisfied, once more: the width of `V` is 1. -/
noncomputable def clashOps4 : List (LayoutOp Flt) :=
  clashOps ++ [.addConstraint ((Shipped.xLength.build).toOption.getD ct.coincident) [k!"V"] [.num (fin 1)] k!"d"]

/-- Its layout. -/
noncomputable def clashL4 : Layout Flt := (Layout.empty 0).run clashOps4

theorem clashL4_prim : clashL4.prim = forkTree 0 4 5 1 2 3 0 0 3 0 3 0 := by rfl

theorem clashL4_residual (r u v p q s : Nat) (a b c d e f : ℝ) :
    clashL4.residual (forkTree r u v p q s a b c d e f)
      = .ok [fin (0 + (c - a) * 1 + (d - b) * 0 + -1 * 1), fin (0 + (e - a) * 1 + (f - b) * 0 + -1 * 1),
        fin (0 + (c - a) * 1 + (d - b) * 0 + -1 * 3), fin (0 + (e - a) * 1 + (f - b) * 0 + -1 * 1)] := by
  rfl

theorem clashL4_misfit (r u v p q s : Nat) (a b c d e f : ℝ) :
    clashL4.Misfit (forkTree r u v p q s a b c d e f)
      ((c - a - 1) ^ 2 + (e - a - 1) ^ 2 + (c - a - 3) ^ 2 + (e - a - 1) ^ 2) :=
  ⟨[c - a - 1, e - a - 1, c - a - 3, e - a - 1], by
    rw [clashL4_residual]
    simp only [List.map_cons, List.map_nil]
    ring_nf, by simp; ring⟩

theorem clashOps4_x : ∀ op ∈ clashOps4, op.Uses (· = .xLength) ∧ op.TopLevel := by
  intro op h
  rcases List.mem_append.mp h with h | h
  · exact clashOps_x op h
  · rw [List.mem_singleton] at h
    subst h
    exact ⟨⟨.xLength, rfl, trivial, rfl⟩, show '/' ∉ k!"d" by decide⟩

/-- The additional constraint. -/
noncomputable def clashExtra : List (Added Flt) :=
  [⟨(Shipped.xLength.build).toOption.getD ct.coincident, [k!"V"], [.num (fin 1)]⟩]

theorem clash_more : More 0 0 clashOps clashOps4 clashL clashL4 clashExtra where
  affine op h := (affine_sensible (clashOps_x op h).1).1
  affine' op h := (affine_sensible (clashOps4_x op h).1).1
  sensible op h := (affine_sensible (clashOps_x op h).1).2
  sensible' op h := (affine_sensible (clashOps4_x op h).1).2
  top op h := (clashOps_x op h).2
  top' op h := (clashOps4_x op h).2
  eq := rfl
  eq' := rfl
  ok := by rw [clashL_prim]; exact forkTree_ok (by decide) _ _ _ _ _ _
  ok' := by rw [clashL4_prim]; exact forkTree_ok (by decide) _ _ _ _ _ _
  finite := by rw [clashL_prim]; exact forkTree_finite _ _ _ _ _ _ _ _ _ _ _ _
  structure_ := by rw [clashL_prim, clashL4_prim]; exact SameStructure.refl (forkTree_ok (by decide) _ _ _ _ _ _).wf
  geometry := by rw [clashL_prim, clashL4_prim]; exact SameGeometry.refl (forkTree_ok (by decide) _ _ _ _ _ _).wf
  constraints := by
    let X : Cons Flt := (Shipped.xLength.build).toOption.getD ct.coincident
    show List.Perm [Added.mk X [k!"U"] [.num (fin 1)], ⟨X, [k!"V"], [.num (fin 1)]⟩,
      ⟨X, [k!"U"], [.num (fin 3)]⟩, ⟨X, [k!"V"], [.num (fin 1)]⟩] ([⟨X, [k!"U"], [.num (fin 1)]⟩, ⟨X, [k!"V"], [.num (fin 1)]⟩,
      ⟨X, [k!"U"], [.num (fin 3)]⟩] ++ [⟨X, [k!"V"], [.num (fin 1)]⟩])
    exact .refl _

theorem clashL_rebuild (base : Nat) (a b c d e f : ℝ) :
    rebuild clashL base [fin a, fin b, fin c, fin d, fin e, fin f]
      = .ok (forkTree (base + 0) (base + 1) (base + 4) (base + 2) (base + 3) (base + 5) a b c d e f) := by
  rfl

/-- The clashing lines get a compromise, at which the width of `V` is exactly 1; asking for that a second time
changes nothing. -/
example : ∃ r info r' info',
    solveNewton exactNum clashL 10 (fin 0) (fin 0) 1 = .ok (r, info) ∧
    solveNewton exactNum clashL4 20 (fin 1) (fin 0) 5 = .ok (r', info') ∧ SameGeometry r r' := by
  obtain ⟨s0, h0⟩ : ∃ s, clashL.Misfit clashL.prim s := by
    rw [clashL_prim]; exact ⟨_, clashL_misfit _ _ _ _ _ _ _ _ _ _ _ _⟩
  obtain ⟨r, info, h1, h2⟩ := C87_already_met exactNum exactNum exactNum_exact exactNum_exact 0 0 clashOps clashOps4
    clashL clashL4 clashExtra clash_more _ h0 10 20 0 0 1 0 1 5 (by norm_num) (by norm_num)
  obtain ⟨r2, info2, k1, hb⟩ := newton_best (l := clashL) exactNum_exact clash_more.affine rfl clash_more.ok clash_more.finite
    clash_more.good h0 10 0 0 1 (by norm_num)
  rw [h1] at k1
  cases k1
  obtain ⟨y, r1, e1, e2, e3⟩ := exists_param clashL clash_more.ok 0 hb.1.ok hb.1.str hb.1.fin
  obtain ⟨y, hz⟩ : ∃ z : Fin 6 → ℝ, vec y = vec z := by
    have gen : ∀ n, n = 6 → ∀ y : Fin n → ℝ, ∃ z : Fin 6 → ℝ, vec y = vec z := by
      rintro _ rfl y; exact ⟨y, rfl⟩
    exact gen _ (by rfl) y
  have hy : vec y = [fin (y 0), fin (y 1), fin (y 2), fin (y 3), fin (y 4), fin (y 5)] := rfl
  rw [hz, hy, clashL_rebuild] at e1
  cases e1
  obtain ⟨s, m1, m2⟩ := hb.2.1
  have tr : ∀ {l : Layout Flt} {ops}, (∀ op ∈ ops, op.Uses Shipped.IsAffine) → l = (Layout.empty 0).run ops →
      ∀ {s}, l.Misfit (forkTree (0 + 0) (0 + 1) (0 + 4) (0 + 2) (0 + 3) (0 + 5) (y 0) (y 1) (y 2) (y 3) (y 4) (y 5)) s → l.Misfit r s := by
    rintro l ops ha rfl s ⟨v, hv, rfl⟩
    exact ⟨v, by rw [← residual_geometry (run_nip ha 0) e2 hb.1.ok.wf e3]; exact hv, rfl⟩
  have n1 := tr (l := clashL) clash_more.affine rfl (clashL_misfit _ _ _ _ _ _ _ _ _ _ _ _)
  have n2 := tr (l := clashL4) clash_more.affine' rfl (clashL4_misfit _ _ _ _ _ _ _ _ _ _ _ _)
  obtain ⟨s', m3, m4⟩ := m2 (forkTree 10 14 15 11 12 13 0 0 2 0 1 0) ⟨forkTree_ok (by decide) _ _ _ _ _ _,
    by rw [clashL_prim]; exact forkTree_same _ _ _ _ _ _ _ _ _ _ _ _, forkTree_finite _ _ _ _ _ _ _ _ _ _ _ _⟩
  rw [misfit_unique m3 (clashL_misfit _ _ _ _ _ _ _ _ _ _ _ _), misfit_unique m1 n1] at m4
  have hv : (y 4 - y 0 - 1) ^ 2 = 0 := by
    have := sq_nonneg (y 4 - y 0 - 1)
    nlinarith [sq_nonneg (y 2 - y 0 - 2)]
  obtain ⟨t, q1, _, q3⟩ := (clash_more.misfit h0 hb.1).1 _ n2
  obtain ⟨r', info', g1, g2⟩ := h2 (q3 (by rw [misfit_unique q1 n1, hv]; ring))
  exact ⟨r, info, r', info', h1, g1, g2⟩

/-- Adding the constraint that `U` is 3 wide to the layout in which `U` and `V` are 1 wide: the fit gets worse. -/
example : ∃ r info r' info' s s', solveNewton exactNum forkL 10 (fin 0) (fin 0) 1 = .ok (r, info) ∧
    solveNewton exactNum clashL 20 (fin 1) (fin 0) 5 = .ok (r', info') ∧ forkL.Misfit r s ∧ clashL.Misfit r' s' ∧ s ≤ s' := by
  have h : More 0 0 forkOps clashOps forkL clashL
      [⟨(Shipped.xLength.build).toOption.getD ct.coincident, [k!"U"], [.num (fin 3)]⟩] :=
    { affine := fun op h => clash_more.affine op (List.mem_append_left _ h)
      affine' := clash_more.affine
      sensible := fun op h => clash_more.sensible op (List.mem_append_left _ h)
      sensible' := clash_more.sensible
      top := fun op h => clash_more.top op (List.mem_append_left _ h)
      top' := clash_more.top
      eq := rfl
      eq' := rfl
      ok := by rw [forkL_prim]; exact forkTree_ok (by decide) _ _ _ _ _ _
      ok' := clash_more.ok
      finite := by rw [forkL_prim]; exact forkTree_finite _ _ _ _ _ _ _ _ _ _ _ _
      structure_ := by rw [clashL_prim, forkL_prim]; exact SameStructure.refl (forkTree_ok (by decide) _ _ _ _ _ _).wf
      geometry := by rw [clashL_prim, forkL_prim]; exact SameGeometry.refl (forkTree_ok (by decide) _ _ _ _ _ _).wf
      constraints := by
        let X : Cons Flt := (Shipped.xLength.build).toOption.getD ct.coincident
        show List.Perm [Added.mk X [k!"U"] [.num (fin 1)], ⟨X, [k!"V"], [.num (fin 1)]⟩,
          ⟨X, [k!"U"], [.num (fin 3)]⟩] ([⟨X, [k!"U"], [.num (fin 1)]⟩, ⟨X, [k!"V"], [.num (fin 1)]⟩] ++
          [⟨X, [k!"U"], [.num (fin 3)]⟩])
        exact .refl _ }
  obtain ⟨r, info, r', info', s, s', k1, k2, k3, k4, k5, _⟩ := C87_monotone exactNum exactNum exactNum_exact exactNum_exact
    0 0 forkOps clashOps forkL clashL _ h _ (by rw [forkL_prim]; exact clashL_misfit _ _ _ _ _ _ _ _ _ _ _ _)
    (by
      let X : Cons Flt := (Shipped.xLength.build).toOption.getD ct.coincident
      show [Added.mk X [k!"U"] [.num (fin 1)], ⟨X, [k!"V"], [.num (fin 1)]⟩] ≠ []
      simp) 10 20 0 0 1 0 1 5 (by norm_num) (by norm_num)
  exact ⟨r, info, r', info', s, s', k1, k2, k3, k4, k5⟩

end MplLayout.Props
