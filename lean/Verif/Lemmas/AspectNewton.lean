import Verif.Lemmas.FirstStep
import Verif.Lemmas.TwoStepNewton
import Verif.Spec.AspectNewton

/-!
# Newton steps with aspect ratios
-/

namespace MplLayout

open Flt

namespace Solver

/-- A sequence of steps: if every good point has a derivative, a step that solves the linear equations, and all such steps
lead to good points, the method ends at a good point. -/
theorem chain_loop {n : Nat} {num : Numerics Flt} (hnum : Exact num) {res : List Flt → Py (List Flt)}
    {good : Nat → (Fin n → ℝ) → Prop}
    (hstep : ∀ k y, good k y → ∃ (m : Nat) (M : Matrix (Fin m) (Fin n) ℝ) (r : Fin m → ℝ) (e : Fin n → ℝ),
      IsJacobian res y M ∧ res (vec y) = .ok (vec r) ∧ M.mulVec e = -r ∧
      ∀ d, M.mulVec d = -r → good (k + 1) (y + d)) (a b : Flt) (maxIter : Int) (fuel : Nat) :
    ∀ (st : NewtonState Flt) (y : Fin n → ℝ), st.param = vec y → good st.n y → maxIter.toNat - st.n < fuel →
      ∃ s' y', newtonLoop num res a b maxIter fuel st = some (.ok s') ∧ s'.param = vec y' ∧ good s'.n y' ∧
        (s'.n = st.n → s' = st) ∧ st.n ≤ s'.n ∧ (st.n ≤ maxIter.toNat → s'.n ≤ maxIter.toNat) ∧
        continues a b maxIter s' = false ∧ (st.absErrs.length = st.n → s'.absErrs.length = s'.n) := by
  induction fuel with
  | zero => intro st y _ _ h; omega
  | succ fuel ih =>
    intro st y hy hg hf
    by_cases hc : continues a b maxIter st = true
    · obtain ⟨m, M, r, e, hM, hr, he, hnext⟩ := hstep _ _ hg
      obtain ⟨d, hd, e1⟩ := hnum.lstsq M (-r)
      have h0 := hd.least e
      rw [he, sub_self, sq_zero.mpr rfl] at h0
      have hd' : M.mulVec d = -r := sub_eq_zero.mp (sq_zero.mp (le_antisymm h0 (sq_nonneg' _)))
      have e2 := newtonStep_vec hr (hnum.jacobian res y M hM) e1 st hy
      generalize hs1 : (NewtonState.mk (vec (y + d)) _ _ _ _ _ : NewtonState Flt) = s1 at e2
      have p1 : s1.param = vec (y + d) := by rw [← hs1]
      have p2 : s1.n = st.n + 1 := by rw [← hs1]
      have p3 : s1.absErrs.length = st.absErrs.length + 1 := by rw [← hs1]; simp
      have hlt : st.n < maxIter.toNat := by
        simp only [continues, Bool.and_eq_true, decide_eq_true_eq] at hc
        omega
      obtain ⟨s', y', f1, f2, f3, f4, f5, f6, f7, f8⟩ := ih s1 (y + d) p1 (by rw [p2]; exact hnext d hd') (by omega)
      refine ⟨s', y', ?_, f2, f3, fun h => by omega, by omega, fun _ => f6 (by omega), f7, fun h => f8 (by omega)⟩
      simp only [newtonLoop, hc, if_true, e2]
      exact f1
    · have hc : continues a b maxIter st = false := by simpa using hc
      refine ⟨st, y, ?_, hy, hg, fun _ => rfl, le_refl _, id, hc, id⟩
      simp [newtonLoop, hc]

end Solver

section
variable {l : Layout Flt} {base n : Nat} {x : Fin n → ℝ}

/-- The tangent of a ratio of lengths. -/
theorem tanZero_absRatio {w w' h h' v : ℝ} (hw : w ≠ 0) (hh : h ≠ 0) :
    TanZero (fun t => |(1 - t) * w + t * w'| / |(1 - t) * h + t * h'| - v) ↔
      |w| / |h| * (1 + w' / w - h' / h) = v := by
  have key : ∀ {p q : ℝ}, p ≠ 0 → ∀ᶠ t : ℝ in nhds 0, |(1 - t) * p + t * q| = (1 - t) * |p| + t * (|p| * (q / p)) := by
    intro p q hp
    rcases lt_or_gt_of_ne hp with hn | hn
    · filter_upwards [near_pos (p := -p) (q := -q) (by linarith)] with t ht
      rw [abs_of_neg (by linarith), abs_of_neg hn]
      field_simp
      ring
    · filter_upwards [near_pos (p := p) (q := q) hn] with t ht
      rw [abs_of_pos ht, abs_of_pos hn]
      field_simp
  have eq : (fun t => |(1 - t) * w + t * w'| / |(1 - t) * h + t * h'| - v) =ᶠ[nhds 0]
      fun t => ((1 - t) * |w| + t * (|w| * (w' / w))) / ((1 - t) * |h| + t * (|h| * (h' / h))) - v := by
    filter_upwards [key (q := w') hw, key (q := h') hh] with t h1 h2
    rw [h1, h2]
  rw [tanZero_congr eq, tanZero_ratio (abs_pos.mpr hh)]
  have := abs_pos.mpr hh
  constructor <;> intro e
  · rw [← sub_eq_zero, ← e]; field_simp; ring
  · rw [← sub_eq_zero] at e; rw [← e]; field_simp; ring

end

namespace Props

open Solver

variable {tool : Shipped → Cons Flt} {items : List FigItem} {s : Session Flt} {ts : List (Make × Nat)}

/-- The corners of a box are affine functions of the coordinates. -/
theorem Ran.quad_aff (h : Ran tool items s ts) (hF : FigOK items) {base : Nat} {x : Fin (dim s.layout) → ℝ} {b : Str}
    (hb : .box b ∈ figDemands items) :
    ∃ A B C D : (Fin (dim s.layout) → ℝ) → ℝ × ℝ, Aff2 A ∧ Aff2 B ∧ Aff2 C ∧
      ∀ y r, rebuild s.layout base (vec y) = .ok r → ∃ q, r.getChild b = .ok q ∧ IsQuad q (A y) (B y) (C y) (D y) := by
  obtain ⟨T, hTr⟩ := rebuild_mapV s.layout h.ok base
  obtain ⟨t, ht, i, hi, e⟩ := h.stock.box h.slash ((h.scope hF hb).1 (show b ∈ [b] by simp))
  have corners : ∀ y : Fin (dim s.layout) → ℝ, ∃ c : (ℝ × ℝ) × (ℝ × ℝ) × (ℝ × ℝ) × (ℝ × ℝ), ∃ q,
      (T.mapV (paramVal s.layout base _ y)).getChild b = .ok q ∧ IsQuad q c.1 c.2.1 c.2.2.1 c.2.2.2 := by
    intro y
    have hS := h.solved (h.moves (hTr y))
    obtain ⟨at1, q, g1, at2⟩ := hS.getChild e
    obtain ⟨A, B, C, D, hq⟩ := hS.quad at1 at2 (unitQuad_isQuad i) (h.loops _ _ at1 (by
      show PrimType.IsA .quadrilateral .polygon
      exact (PrimType.sub_iff _ _).mp (by decide)))
    exact ⟨(A, B, C, D), q, g1, hq⟩
  choose c hc using corners
  cases hm : T.getChild b with
  | error er =>
    obtain ⟨q, g1, _⟩ := hc x
    rw [Node.getChild_mapV, hm] at g1
    cases g1
  | ok m =>
    have hq : ∀ y, IsQuad (m.mapV (paramVal s.layout base _ y)) (c y).1 (c y).2.1 (c y).2.2.1 (c y).2.2.2 := by
      intro y
      obtain ⟨q, g1, g2⟩ := hc y
      rw [Node.getChild_mapV, hm] at g1
      obtain rfl := Except.ok.inj g1
      exact g2
    have hx := hq x
    rw [isQuad_mapV] at hx
    obtain ⟨_, l0, l1, l2, l3, hch, k0, k1, k2, k3⟩ := hx
    obtain ⟨A, B, A1, B1, hAB⟩ := line_aff k0
    obtain ⟨B', C, B1', C1, hBC⟩ := line_aff k1
    have same : ∀ y, A y = (c y).1 ∧ B y = (c y).2.1 ∧ C y = (c y).2.2.1 := by
      intro y
      have hy := hq y
      rw [isQuad_mapV] at hy
      obtain ⟨_, m0, m1, m2, m3, hch', j0, j1, j2, j3⟩ := hy
      rw [hch] at hch'
      simp only [List.cons.injEq, Prod.mk.injEq, true_and, and_true] at hch'
      obtain ⟨rfl, rfl, rfl, rfl⟩ := hch'
      exact ⟨(isLine_unique (hAB y) j0).1, (isLine_unique (hAB y) j0).2, (isLine_unique (hBC y) j1).2⟩
    refine ⟨A, B, C, fun y => (c y).2.2.2, A1, B1, C1, fun y r hr => ?_⟩
    obtain rfl := Except.ok.inj ((hTr y).symm.trans hr)
    refine ⟨_, by rw [Node.getChild_mapV, hm]; rfl, ?_⟩
    rw [(same y).1, (same y).2.1, (same y).2.2]
    exact hq y

/-- The value of a demand near coordinates `x` that belong to the placement `P`. -/
structure NearA (tool : Shipped → Cons Flt) (items : List FigItem) (l : Layout Flt) (base : Nat)
    (x : Fin (dim l) → ℝ) (P : Placement) (d : Demand) (gs : List ((Fin (dim l) → ℝ) → ℝ)) : Prop where
  value : ∀ᶠ y in nhds x, ∀ r, rebuild l base (vec y) = .ok r → (d.added tool).Value r (gs.map fun g => fin (g y))
  diff : ∀ g ∈ gs, DifferentiableAt ℝ g x
  tan : ∀ e r Q, rebuild l base (vec (x + e)) = .ok r → PlacedIn items Q r →
    ((∀ g ∈ gs, TanZero fun t => g (x + t • e)) ↔ d.NewtonStep P Q)
  box : ∀ b, d = .box b → ∀ e r, rebuild l base (vec (x + e)) = .ok r →
    (∀ g ∈ gs, TanZero fun t => g (x + t • e)) → ∀ q, r.getChild b = .ok q → SatisfiedPy ct.box [q] []

/-- Aspect ratios. -/
theorem Ran.near_aspect (h : Ran tool items s ts) (hF : FigOK items) (hT : ToolsFor tool items) {base : Nat}
    {x : Fin (dim s.layout) → ℝ} {r0 : Prim Flt} {P : Placement} (hr0 : rebuild s.layout base (vec x) = .ok r0)
    (hP : PlacedIn items P r0) {b : Str} {v : ℝ} (hd : .aspect b v ∈ figDemands items)
    (hw : (P.box b).x1 - (P.box b).x0 ≠ 0) (hh : (P.box b).y1 - (P.box b).y0 ≠ 0) :
    ∃ gs, NearA tool items s.layout base x P (.aspect b v) gs := by
  have hb : .box b ∈ figDemands items := hF.boxed _ hd b (by simp [Demand.boxes])
  obtain ⟨A, B, C, D, A1, B1, C1, hq⟩ := h.quad_aff hF (x := x) (base := base) hb
  have place : ∀ y r Q, rebuild s.layout base (vec y) = .ok r → PlacedIn items Q r →
      A y = ((Q.box b).x0, (Q.box b).y0) ∧ B y = ((Q.box b).x1, (Q.box b).y0) ∧ C y = ((Q.box b).x1, (Q.box b).y1) := by
    intro y r Q hr hQ
    obtain ⟨q, g1, g2⟩ := hq y r hr
    obtain ⟨q', g3, g4⟩ := hQ.1 b hb
    obtain rfl := Except.ok.inj (g1.symm.trans g3)
    obtain ⟨e1, e2, e3, _⟩ := isQuad_unique g2 g4
    exact ⟨e1, e2, e3⟩
  obtain ⟨a0, b0, c0⟩ := place x r0 P hr0 hP
  have hne : B x ≠ C x := by
    rw [b0, c0]
    intro e
    have := congrArg Prod.snd e
    simp only at this
    exact hh (by linarith)
  have hne' : A x ≠ B x := by
    rw [a0, b0]
    intro e
    have := congrArg Prod.fst e
    simp only at this
    exact hw (by linarith)
  have hct : tool .aspectRatio = cstr con.aspectRatio := Except.ok.inj ((hT _ hd).symm.trans ct_aspectRatio_eq)
  refine ⟨[fun y => dist2 (A y) (B y) / dist2 (B y) (C y) - v], ?_, ?_, ?_, ?_⟩
  · refine (near_ne B1 C1 hne).mono fun y hy r hr => ?_
    obtain ⟨q, g1, g2⟩ := hq y r hr
    refine ⟨[q], .cons g1 .nil, ?_⟩
    have := aspect_call g2 hy v
    simp only [Demand.added, Demand.kind, hct]
    exact this
  · intro g hg
    rw [List.mem_singleton.mp hg]
    exact (diff_quot (D := fun y => dist2 (B y) (C y)) (diff_dist A1 B1 hne') (diff_dist B1 C1 hne)
      (dist2_pos hne).ne').sub_const v
  · intro d r Q hr hQ
    obtain ⟨a2, b2, c2⟩ := place (x + d) r Q hr hQ
    simp only [List.mem_singleton, forall_eq]
    have eq : (fun t : ℝ => dist2 (A (x + t • d)) (B (x + t • d)) / dist2 (B (x + t • d)) (C (x + t • d)) - v)
        = fun t => |(1 - t) * ((P.box b).x1 - (P.box b).x0) + t * ((Q.box b).x1 - (Q.box b).x0)| /
          |(1 - t) * ((P.box b).y1 - (P.box b).y0) + t * ((Q.box b).y1 - (Q.box b).y0)| - v := by
      funext t
      rw [A1.mix, B1.mix, C1.mix, a0, b0, c0, a2, b2, c2]
      simp only [mixPt]
      rw [dist2_h, dist2_v]
      congr 3 <;> congr 1 <;> ring
    rw [eq, tanZero_absRatio hw hh]
    rfl
  · intro b hb; cases hb

/-- Affine demands and aspect ratios. -/
theorem Ran.nearA (h : Ran tool items s ts) (hF : FigOK items) (hT : ToolsFor tool items) {base : Nat}
    {x : Fin (dim s.layout) → ℝ} {r0 : Prim Flt} {P : Placement} (hr0 : rebuild s.layout base (vec x) = .ok r0)
    (hP : PlacedIn items P r0) {d : Demand} (hd : d ∈ figDemands items) (hk : d.AspectOrAffine) (hsz : d.HasExtent P)
    {y1 : Fin (dim s.layout) → ℝ} {r1 : Prim Flt} {P1 : Placement} (hr1 : rebuild s.layout base (vec y1) = .ok r1)
    (hP1 : PlacedIn items P1 r1) (hh : d.NewtonStep P P1) :
    ∃ gs, NearA tool items s.layout base x P d gs := by
  by_cases haff : d.kind.IsAffine
  · have hn : ∀ Q, d.NewtonStep P Q ↔ d.Holds Q := fun Q => by
      cases d <;> first | exact Iff.rfl | exact absurd haff (by simp [Demand.kind, Shipped.IsAffine])
    have ht : ∀ Q, DemandTan P Q d ↔ d.Holds Q := fun Q => by
      cases d <;> first | exact Iff.rfl | exact absurd haff (by simp [Demand.kind, Shipped.IsAffine])
    obtain ⟨gs, hgs⟩ := h.near_affine hF hT hr0 hP hd haff hr1 hP1 ((hn _).mp hh)
    exact ⟨gs, hgs.value, hgs.diff, fun e r Q hr hQ => by rw [hgs.tan e r Q hr hQ, hn, ht], hgs.box⟩
  · cases d with
    | aspect b v => exact h.near_aspect hF hT hr0 hP hd hsz.1 hsz.2
    | _ => exact absurd hk haff

/-- The Newton step at a placement. -/
theorem Ran.tangentA (h : Ran tool items s ts) (hF : FigOK items) (hT : ToolsFor tool items)
    (hne : figDemands items ≠ []) (hk : ∀ d ∈ figDemands items, d.AspectOrAffine) {base : Nat}
    {x : Fin (dim s.layout) → ℝ} {r0 : Prim Flt} {P : Placement} (hr0 : rebuild s.layout base (vec x) = .ok r0)
    (hP : PlacedIn items P r0) (hsz : ∀ d ∈ figDemands items, d.HasExtent P)
    {P1 : Placement} (hh : ∀ d ∈ figDemands items, d.NewtonStep P P1) :
    ∃ (m : Nat) (M : Matrix (Fin m) (Fin (dim s.layout)) ℝ) (r : Fin m → ℝ) (e : Fin (dim s.layout) → ℝ),
      IsJacobian (globalRes s.layout base) x M ∧
      globalRes s.layout base (vec x) = .ok (vec r) ∧ M.mulVec e = -r ∧
      ∀ d, M.mulVec d = -r → ∃ r' Q, rebuild s.layout base (vec (x + d)) = .ok r' ∧ PlacedIn items Q r' ∧
        ∀ d ∈ figDemands items, d.NewtonStep P Q := by
  obtain ⟨y1, r1, hr1, hP1⟩ := h.reach hF hT base P1
  have hfam : ∀ d, ∃ gs, d ∈ figDemands items → NearA tool items s.layout base x P d gs := by
    intro d
    by_cases hd : d ∈ figDemands items
    · obtain ⟨gs, hgs⟩ := h.nearA hF hT hr0 hP hd (hk d hd) (hsz d hd) hr1 hP1 (hh d hd)
      exact ⟨gs, fun _ => hgs⟩
    · exact ⟨[], fun h => absurd h hd⟩
  choose gs hgs using hfam
  have hev : ∀ᶠ y in nhds x, globalRes s.layout base (vec y)
      = .ok (((figDemands items).flatMap gs).map fun g => fin (g y)) := by
    have : ∀ᶠ y in nhds x, ∀ d ∈ {d | d ∈ figDemands items}, ∀ r, rebuild s.layout base (vec y) = .ok r →
        (d.added tool).Value r ((gs d).map fun g => fin (g y)) :=
      (Filter.eventually_all_finite (List.finite_toSet _)).mpr fun d hd => (hgs d hd).value
    refine this.mono fun y hy => ?_
    have hy' : ∀ d ∈ figDemands items, ∀ r, rebuild s.layout base (vec y) = .ok r →
        (d.added tool).Value r ((fun d => (gs d).map fun g => fin (g y)) d) := fun d hd => hy d hd
    rw [h.residual_at hF hT hne hy', List.map_flatMap]
  obtain ⟨M, hM, hr, htan⟩ := list_jacobian hev (fun g hg => by
    obtain ⟨d, hd, hg⟩ := List.mem_flatMap.mp hg
    exact (hgs d hd).diff g hg)
  refine ⟨_, M, _, y1 - x, hM, hr, ?_, fun e he => ?_⟩
  · refine (htan _).mpr fun g hg => ?_
    obtain ⟨d, hd, hg⟩ := List.mem_flatMap.mp hg
    exact ((hgs d hd).tan (y1 - x) r1 P1 (by rw [add_sub_cancel]; exact hr1) hP1).mpr (hh d hd) g hg
  · have hz := (htan e).mp he
    have hz : ∀ d ∈ figDemands items, ∀ g ∈ gs d, TanZero fun t => g (x + t • e) := fun d hd g hg =>
      hz g (List.mem_flatMap.mpr ⟨d, hd, hg⟩)
    obtain ⟨r', hr', _⟩ := rebuild_structure s.layout h.ok base (vec (x + e)) (vec_length _)
    obtain ⟨Q, hQ⟩ := h.placed hF (h.moves hr') (fun b hb q hq => (hgs _ hb).box b rfl e r' hr' (hz _ hb) q hq)
    exact ⟨r', Q, hr', hQ, fun d hd => ((hgs d hd).tan e r' Q hr' hQ).mp (hz d hd)⟩

/-- The method on a figure with affine demands and aspect ratios, if the equations of every step can be solved. -/
theorem Ran.aspect_chain (h : Ran tool items s ts) (num : Numerics Flt) (hnum : Exact num) (hF : FigOK items)
    (hT : ToolsFor tool items) (hne : figDemands items ≠ []) (hk : ∀ d ∈ figDemands items, d.AspectOrAffine)
    {good : Nat → Placement → Prop} (h0 : good 0 unitPlacement)
    (hgood : ∀ k P, good k P → (∀ d ∈ figDemands items, d.HasExtent P) ∧
      (∃ Q, ∀ d ∈ figDemands items, d.NewtonStep P Q) ∧
      ∀ Q, (∀ d ∈ figDemands items, d.NewtonStep P Q) → good (k + 1) Q)
    (base : Nat) (a b : ℝ) (maxIter : Int) (hmax : 1 ≤ maxIter) :
    ∃ r info Q, solve num s.layout base (fin a) (fin b) maxIter k!"newton" = .ok (r, info) ∧ Moves tool items r ∧
      PlacedIn items Q r ∧ good info.absErrs.length Q ∧ 1 ≤ info.absErrs.length ∧ (info.absErrs.length : Int) ≤ maxIter := by
  obtain ⟨x, hx⟩ := finite_param h.ok h.finite
  obtain ⟨r0, f1, f2⟩ := h.unit hF (base := base) hx
  obtain ⟨st, y, g1, g2, ⟨r, Q, g3, g4, g5⟩, g6, g7, g8, g9, g10⟩ := chain_loop hnum
    (res := globalRes s.layout base)
    (good := fun k y => ∃ r Q, rebuild s.layout base (vec y) = .ok r ∧ PlacedIn items Q r ∧ good k Q)
    (fun k y hg => by
      obtain ⟨r, P, k1, k2, k3⟩ := hg
      obtain ⟨n1, ⟨P1, n2⟩, n3⟩ := hgood k P k3
      obtain ⟨m, M, rr, e, q1, q2, q3, q4⟩ := h.tangentA hF hT hne hk k1 k2 n1 n2
      refine ⟨m, M, rr, e, q1, q2, q3, fun d hd => ?_⟩
      obtain ⟨r', Q, l1, l2, l3⟩ := q4 d hd
      exact ⟨r', Q, l1, l2, n3 Q l3⟩) (fin a) (fin b) maxIter (maxIter.toNat + 1) { param := vec x } x rfl
    ⟨r0, _, f1, f2, h0⟩ (by omega)
  have hlen : st.absErrs.length = st.n := g10 rfl
  rw [← hlen] at g5
  refine ⟨r, ⟨st.absErrs, st.relErrs⟩, Q, ?_, h.moves g3, g4, g5, ?_, ?_⟩
  · rw [(C59_dispatch num s.layout base (fin a) (fin b) maxIter).1]
    exact solveNewton_eq hx g1 (by rw [g2]; exact g3)
  · show 1 ≤ st.absErrs.length
    by_contra hn
    have := g6 (show st.n = 0 by omega)
    rw [this] at g9
    have hc : continues (fin a) (fin b) maxIter ({ param := vec x } : NewtonState Flt) = true := by
      simp only [continues, gtTol, Bool.and_eq_true, decide_eq_true_eq]
      refine ⟨⟨?_, ?_⟩, by simp; omega⟩ <;> simp [PyNum.le]
    rw [hc] at g9
    cases g9
  · show (st.absErrs.length : Int) ≤ maxIter
    have := g8 (by simp)
    omega

end Props

end MplLayout
