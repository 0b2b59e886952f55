import Verif.Lemmas.TwoStep

/-!
# The values of the demands near a geometry
-/

namespace MplLayout.Props

open Flt Solver

variable {tool : Shipped → Cons Flt} {items : List FigItem} {s : Session Flt} {ts : List (Make × Nat)}

/-- When the tangent of the value of a demand at one placement vanishes at another. -/
def DemandTan (P Q : Placement) : Demand → Prop
  | .label a kind twin v =>
    labelOffset a twin P kind / (labelEdge a kind).run P - v +
      ((labelOffset a twin Q kind - labelOffset a twin P kind) * (labelEdge a kind).run P -
        labelOffset a twin P kind * ((labelEdge a kind).run Q - (labelEdge a kind).run P)) /
      (labelEdge a kind).run P ^ 2 = 0
  | d => d.Upright Q

/-- The value of a demand near the coordinates `x`, which belong to the placement `P`. -/
structure Near (tool : Shipped → Cons Flt) (items : List FigItem) (l : Layout Flt) (base : Nat)
    (x : Fin (dim l) → ℝ) (P : Placement) (d : Demand) (gs : List ((Fin (dim l) → ℝ) → ℝ)) : Prop where
  value : ∀ᶠ y in nhds x, ∀ r, rebuild l base (vec y) = .ok r → (d.added tool).Value r (gs.map fun g => fin (g y))
  diff : ∀ g ∈ gs, DifferentiableAt ℝ g x
  tan : ∀ e r Q, rebuild l base (vec (x + e)) = .ok r → PlacedIn items Q r →
    ((∀ g ∈ gs, TanZero fun t => g (x + t • e)) ↔ DemandTan P Q d)
  box : ∀ b, d = .box b → ∀ e r, rebuild l base (vec (x + e)) = .ok r →
    (∀ g ∈ gs, TanZero fun t => g (x + t • e)) → ∀ q, r.getChild b = .ok q → SatisfiedPy ct.box [q] []
  zero : d.Upright P → ∀ g ∈ gs, g x = 0
  label : ∀ a kind twin v, d = .label a kind twin v →
    gs.map (· x) = [labelOffset a twin P kind / (labelEdge a kind).run P - v]

theorem Ran.placedIn_same (h : Ran tool items s ts) {base : Nat} {y : Fin (dim s.layout) → ℝ} {r r' : Prim Flt}
    (hr : rebuild s.layout base (vec y) = .ok r) (hr' : rebuild s.layout base (vec y) = .ok r') : r = r' :=
  Except.ok.inj (hr.symm.trans hr')

/-- Distances to an edge. -/
theorem Ran.near_toLine (h : Ran tool items s ts) (hF : FigOK items) (hT : ToolsFor tool items) {base : Nat}
    {x : Fin (dim s.layout) → ℝ} {r0 : Prim Flt} {P : Placement} (hr0 : rebuild s.layout base (vec x) = .ok r0)
    (hP : PlacedIn items P r0) {sp : Spot} {e : Edge} {rev : Bool} {v : ℝ}
    (hd : .toLine sp e rev v ∈ figDemands items) (hspan : 0 < e.run P) :
    ∃ gs, Near tool items s.layout base x P (.toLine sp e rev v) gs := by
  obtain ⟨T, hTr⟩ := rebuild_mapV s.layout h.ok base
  have get : ∀ {r : Prim Flt} {Q : Placement}, Moves tool items r → PlacedIn items Q r →
      (∃ p, r.getChild sp.key = .ok p ∧ IsPoint p (sp.place Q)) ∧
      ∃ l, r.getChild e.key = .ok l ∧ IsLine l (e.start Q) (e.stop Q) := by
    intro r Q hr hQ
    have hI := h.demandIn hF hr hQ hd
    exact ⟨Spot.get (fun b hb => hI.box b (by simp [Demand.boxes, hb]))
      (fun k hk => hI.point k (by simp [Demand.points, hk])), Edge.get (hI.box e.box (by simp [Demand.boxes]))⟩
  have e0 : r0 = T.mapV (paramVal s.layout base _ x) := Except.ok.inj (hr0.symm.trans (hTr x))
  obtain ⟨⟨p, k1, k2⟩, ln, l1, l2⟩ := get (h.moves hr0) hP
  rw [e0] at k1 l1
  obtain ⟨c, c1, c2⟩ := key_point k1 k2
  obtain ⟨A, B, A1, B1, AB⟩ := key_line l1 l2
  have place : ∀ y r Q, rebuild s.layout base (vec y) = .ok r → PlacedIn items Q r →
      A y = e.start Q ∧ B y = e.stop Q ∧ c y = sp.place Q := by
    intro y r Q hr hQ
    obtain ⟨⟨p, g1, g2⟩, l, g3, g4⟩ := get (h.moves hr) hQ
    have er : r = T.mapV (paramVal s.layout base _ y) := Except.ok.inj (hr.symm.trans (hTr y))
    rw [er] at g1 g3
    obtain ⟨p', m1, m2⟩ := c2 y
    obtain ⟨l', m3, m4⟩ := AB y
    obtain rfl := Except.ok.inj (g1.symm.trans m1)
    obtain rfl := Except.ok.inj (g3.symm.trans m3)
    exact ⟨(isLine_unique m4 g4).1, (isLine_unique m4 g4).2, isPoint_unique m2 g2⟩
  obtain ⟨a0, b0, s0⟩ := place x r0 P hr0 hP
  have hne : A x ≠ B x := by rw [a0, b0]; exact Edge.ne_of_run hspan
  have hct : tool .pointToLineDistance = cstr con.pointToLineDistance :=
    Except.ok.inj ((hT _ hd).symm.trans ct_pointToLineDistance_eq)
  refine ⟨[fun y => (if rev then - leftOf (A y) (B y) (c y) else leftOf (A y) (B y) (c y)) - v], ?_, ?_, ?_, ?_, ?_, ?_⟩
  · refine (near_ne A1 B1 hne).mono fun y hy r hr => ?_
    obtain rfl := Except.ok.inj ((hTr y).symm.trans hr)
    obtain ⟨p', m1, m2⟩ := c2 y
    obtain ⟨l', m3, m4⟩ := AB y
    refine ⟨[p', l'], .cons m1 (.cons m3 .nil), ?_⟩
    have := (ev_ct_pointToLine m2 m4 hy rev v).returns
    simp only [Demand.added, Demand.kind, hct, Demand.params]
    exact this
  · intro g hg
    rw [List.mem_singleton.mp hg]
    have := diff_leftOf A1 B1 c1 hne
    cases rev
    · exact this.sub_const v
    · exact this.fun_neg.sub_const v
  · intro d r Q hr hQ
    obtain ⟨a2, b2, s2⟩ := place (x + d) r Q hr hQ
    simp only [List.mem_singleton, forall_eq]
    have eq : (fun t : ℝ => (if rev then - leftOf (A (x + t • d)) (B (x + t • d)) (c (x + t • d))
          else leftOf (A (x + t • d)) (B (x + t • d)) (c (x + t • d))) - v) =ᶠ[nhds 0]
        fun t => ((1 - t) * (if rev then - e.inward P (sp.place P) else e.inward P (sp.place P)) +
          t * (if rev then - e.inward Q (sp.place Q) else e.inward Q (sp.place Q))) - v := by
      filter_upwards [near_pos (q := e.run Q) hspan] with t ht
      rw [← Edge.run_mix] at ht
      rw [A1.mix, B1.mix, c1.mix, a0, b0, s0, a2, b2, s2, ← Edge.start_mix, ← Edge.stop_mix, Edge.leftOf_run ht,
        Edge.inward_mix]
      cases rev
      · rfl
      · simp only [if_true]; ring
    rw [tanZero_congr eq, tanZero_mix]
    rfl
  · intro b hb; cases hb
  · intro hu g hg
    rw [List.mem_singleton.mp hg]
    simp only [a0, b0, s0, Edge.leftOf_run hspan]
    exact sub_eq_zero.mpr hu
  · intro a kind twin w he; cases he

/-- Label positions. -/
theorem Ran.near_label (h : Ran tool items s ts) (hF : FigOK items) (hT : ToolsFor tool items) {base : Nat}
    {x : Fin (dim s.layout) → ℝ} {r0 : Prim Flt} {P : Placement} (hr0 : rebuild s.layout base (vec x) = .ok r0)
    (hP : PlacedIn items P r0) {a : Str} {kind : AxisKind} {twin : Bool} {v : ℝ}
    (hd : .label a kind twin v ∈ figDemands items) (hspan : 0 < (labelEdge a kind).run P) :
    ∃ gs, Near tool items s.layout base x P (.label a kind twin v) gs := by
  obtain ⟨T, hTr⟩ := rebuild_mapV s.layout h.ok base
  have hbox : (labelEdge a kind).box = a ++ k!"/Frame" := by cases kind <;> rfl
  have get : ∀ {r : Prim Flt} {Q : Placement}, Moves tool items r → PlacedIn items Q r →
      (∃ p, r.getChild (a ++ '/' :: axisLabelKey kind twin) = .ok p ∧
        IsPoint p (Q.point (a ++ '/' :: axisLabelKey kind twin))) ∧
      ∃ l, r.getChild (labelEdge a kind).key = .ok l ∧
        IsLine l ((labelEdge a kind).start Q) ((labelEdge a kind).stop Q) := by
    intro r Q hr hQ
    have hI := h.demandIn hF hr hQ hd
    exact ⟨hI.point _ (by simp [Demand.points]),
      Edge.get (by rw [hbox]; exact hI.box _ (by simp [Demand.boxes]))⟩
  have e0 : r0 = T.mapV (paramVal s.layout base _ x) := Except.ok.inj (hr0.symm.trans (hTr x))
  obtain ⟨⟨p, k1, k2⟩, ln, l1, l2⟩ := get (h.moves hr0) hP
  rw [e0] at k1 l1
  obtain ⟨c, c1, c2⟩ := key_point k1 k2
  obtain ⟨A, B, A1, B1, AB⟩ := key_line l1 l2
  have place : ∀ y r Q, rebuild s.layout base (vec y) = .ok r → PlacedIn items Q r →
      A y = (labelEdge a kind).start Q ∧ B y = (labelEdge a kind).stop Q ∧
        c y = Q.point (a ++ '/' :: axisLabelKey kind twin) := by
    intro y r Q hr hQ
    obtain ⟨⟨p, g1, g2⟩, l, g3, g4⟩ := get (h.moves hr) hQ
    have er : r = T.mapV (paramVal s.layout base _ y) := Except.ok.inj (hr.symm.trans (hTr y))
    rw [er] at g1 g3
    obtain ⟨p', m1, m2⟩ := c2 y
    obtain ⟨l', m3, m4⟩ := AB y
    obtain rfl := Except.ok.inj (g1.symm.trans m1)
    obtain rfl := Except.ok.inj (g3.symm.trans m3)
    exact ⟨(isLine_unique m4 g4).1, (isLine_unique m4 g4).2, isPoint_unique m2 g2⟩
  obtain ⟨a0, b0, s0⟩ := place x r0 P hr0 hP
  have hne : A x ≠ B x := by rw [a0, b0]; exact Edge.ne_of_run hspan
  have hct : tool (.positionAxisLabel kind twin) = labelT kind twin :=
    Except.ok.inj ((hT _ hd).symm.trans (label_eq kind twin))
  have val : ∀ {Q : Placement}, 0 < (labelEdge a kind).run Q →
      along ((labelEdge a kind).start Q) ((labelEdge a kind).stop Q) (Q.point (a ++ '/' :: axisLabelKey kind twin)) /
        dist2 ((labelEdge a kind).start Q) ((labelEdge a kind).stop Q)
        = labelOffset a twin Q kind / (labelEdge a kind).run Q := by
    intro Q hQ
    rw [along_label hQ, Edge.dist_run, abs_of_pos hQ]
  refine ⟨[fun y => along (A y) (B y) (c y) / dist2 (A y) (B y) - v], ?_, ?_, ?_, ?_, ?_, ?_⟩
  · refine (near_ne A1 B1 hne).mono fun y hy r hr => ?_
    have hm := h.moves hr
    have hS := h.solved hm
    obtain ⟨xx, yy, tx, ty, n, ea⟩ := h.stock.axes h.slash ((h.scope hF hd).2.2 (show a ∈ [a] by simp))
    obtain ⟨h1, ax, h2, h3⟩ := hS.getChild ea
    obtain ⟨ea1, _, _⟩ := hS.same.nodes _ _ _ h1 h3
    have hax : ax.ty.IsA .axes := by rw [← ea1]; exact .refl _
    obtain ⟨t, ht, i, hi, ef⟩ := h.stock.box h.slash ((h.scope hF hd).1 (show a ++ k!"/Frame" ∈ [a ++ k!"/Frame"] by simp))
    obtain ⟨at1, q, g1, at2⟩ := hS.getChild ef
    obtain ⟨U, V, W, Z, hq⟩ := hS.quad at1 at2 (unitQuad_isQuad i) (h.loops _ _ at1 (by
      show PrimType.IsA .quadrilateral .polygon
      exact (PrimType.sub_iff _ _).mp (by decide)))
    have er : r = T.mapV (paramVal s.layout base _ y) := Except.ok.inj (hr.symm.trans (hTr y))
    obtain ⟨p', m1, m2⟩ := c2 y
    obtain ⟨l', m3, m4⟩ := AB y
    rw [← er] at m1 m3
    have hFr := part_of_get hm.ok.wf (by decide) h2 g1
    have hL := part_of_get hm.ok.wf (axisLabelKey_noslash kind twin) h2 m1
    obtain ⟨q0, q1, q2, q3, d0, d1, d2, d3, i0, i1, i2, i3⟩ := QuadAt.lines hq
    have key : Ev (labelT kind twin) [ax] [.num (fin v)] [along (A y) (B y) (c y) / dist2 (A y) (B y) - v] := by
      cases kind
      · obtain rfl := Except.ok.inj ((getChild_slash g1 d0).symm.trans m3)
        obtain ⟨z1, z2⟩ := isLine_unique i0 m4
        exact ev_label (kind := .x) hax hFr hq hL m2 (Prod.ext z1 z2) hy v
      · obtain rfl := Except.ok.inj ((getChild_slash g1 d1).symm.trans m3)
        obtain ⟨z1, z2⟩ := isLine_unique i1 m4
        exact ev_label (kind := .y) hax hFr hq hL m2 (Prod.ext z1 z2) hy v
    refine ⟨[ax], .cons h2 .nil, ?_⟩
    have := key.returns
    simp only [Demand.added, Demand.kind, hct, Demand.params]
    exact this
  · intro g hg
    rw [List.mem_singleton.mp hg]
    exact (diff_quot (D := fun y => dist2 (A y) (B y)) (diff_along A1 B1 c1 hne) (diff_dist A1 B1 hne)
      (dist2_pos hne).ne').sub_const v
  · intro d r Q hr hQ
    obtain ⟨a2, b2, s2⟩ := place (x + d) r Q hr hQ
    simp only [List.mem_singleton, forall_eq]
    have eq : (fun t : ℝ => along (A (x + t • d)) (B (x + t • d)) (c (x + t • d)) /
          dist2 (A (x + t • d)) (B (x + t • d)) - v) =ᶠ[nhds 0]
        fun t => ((1 - t) * labelOffset a twin P kind + t * labelOffset a twin Q kind) /
          ((1 - t) * (labelEdge a kind).run P + t * (labelEdge a kind).run Q) - v := by
      filter_upwards [near_pos (q := (labelEdge a kind).run Q) hspan] with t ht
      rw [← Edge.run_mix] at ht
      have := val ht
      rw [labelOffset_mix, Edge.run_mix, Edge.start_mix, Edge.stop_mix] at this
      rw [A1.mix, B1.mix, c1.mix, a0, b0, s0, a2, b2, s2, ← this]
      rfl
    rw [tanZero_congr eq, tanZero_ratio hspan]
    rfl
  · intro b hb; cases hb
  · intro hu g hg
    rw [List.mem_singleton.mp hg]
    simp only [a0, b0, s0, val hspan]
    rw [sub_eq_zero, div_eq_iff hspan.ne']
    cases kind
    · simp only [Demand.Upright, Demand.Holds] at hu
      simp only [labelOffset, labelEdge, Edge.run]
      linarith
    · simp only [Demand.Upright, Demand.Holds] at hu
      simp only [labelOffset, labelEdge, Edge.run]
      linarith
  · intro a' kind' twin' w he
    cases he
    simp only [List.map_cons, List.map_nil, a0, b0, s0, val hspan]

theorem real_list {n : Nat} {gs : List ((Fin n → ℝ) → Flt)}
    (h : ∀ g ∈ gs, ∃ (a : Fin n → ℝ) (c : ℝ), ∀ y, g y = fin (∑ i, a i * y i + c)) :
    ∃ hs : List ((Fin n → ℝ) → ℝ), gs = hs.map (fun g y => fin (g y)) ∧
      ∀ g ∈ hs, ∃ (a : Fin n → ℝ) (c : ℝ), ∀ y, g y = ∑ i, a i * y i + c := by
  induction gs with
  | nil => exact ⟨[], rfl, by simp⟩
  | cons g gs ih =>
    obtain ⟨hs, h1, h2⟩ := ih fun g hg => h g (List.mem_cons_of_mem _ hg)
    obtain ⟨a, c, hg⟩ := h g (by simp)
    refine ⟨(fun y => ∑ i, a i * y i + c) :: hs, by rw [List.map_cons, ← h1]; congr 1; exact funext hg, ?_⟩
    intro g' hg'
    rcases List.mem_cons.mp hg' with rfl | hg'
    · exact ⟨a, c, fun y => rfl⟩
    · exact h2 g' hg'

/-- Affine demands. -/
theorem Ran.near_affine (h : Ran tool items s ts) (hF : FigOK items) (hT : ToolsFor tool items) {base : Nat}
    {x : Fin (dim s.layout) → ℝ} {r0 : Prim Flt} {P : Placement} (hr0 : rebuild s.layout base (vec x) = .ok r0)
    (hP : PlacedIn items P r0) {d : Demand} (hd : d ∈ figDemands items) (haff : d.kind.IsAffine)
    {y1 : Fin (dim s.layout) → ℝ} {r1 : Prim Flt} {P1 : Placement} (hr1 : rebuild s.layout base (vec y1) = .ok r1)
    (hP1 : PlacedIn items P1 r1) (hh : d.Holds P1) :
    ∃ gs, Near tool items s.layout base x P d gs := by
  obtain ⟨T, hTr⟩ := rebuild_mapV s.layout h.ok base
  have hrT : ∀ {y r}, rebuild s.layout base (vec y) = .ok r → r = T.mapV (paramVal s.layout base _ y) := fun hr =>
    Except.ok.inj (hr.symm.trans (hTr _))
  obtain ⟨prims, g1, g2, g3⟩ := Demand.meaning (h.moves hr1).ok.wf (h.demandIn hF (h.moves hr1) hP1 hd)
    (hF.params d hd)
  obtain ⟨v, hv, hz⟩ := satisfiedPy_call (hT d hd) ((g3 (regular_affine haff P1)).mpr hh)
  have hval : (d.added tool).Value r1 v := ⟨prims, g1, hv⟩
  rw [hrT hr1] at hval
  obtain ⟨gs, f1, f2⟩ := value_family (hF.params d hd) (hT d hd)
    (affine_tame affF_lin (optVal_A (paramVal_aff s.layout base _)) haff (hT d hd)) (fun _ _ _ _ _ _ _ => trivial) hval
  obtain ⟨hs, q1, q2⟩ := real_list (gs := gs) (fun g hg => by
    rcases f1 g hg with hb | hg'
    · have := value_unique hval (f2 _)
      have := hz (g _) (by rw [this]; exact List.mem_map.mpr ⟨g, hg, rfl⟩)
      rw [hb] at this
      cases this
    · exact hg')
  have value : ∀ y r, rebuild s.layout base (vec y) = .ok r → (d.added tool).Value r (hs.map fun g => fin (g y)) := by
    intro y r hr
    have := f2 y
    rw [← hrT hr, q1, List.map_map] at this
    exact this
  have zero : ∀ y r, rebuild s.layout base (vec y) = .ok r → ∀ Q, PlacedIn items Q r →
      ((∀ g ∈ hs, g y = 0) ↔ d.Holds Q) := by
    intro y r hr Q hQ
    obtain ⟨prims, g1, g2, g3⟩ := Demand.meaning (h.moves hr).ok.wf (h.demandIn hF (h.moves hr) hQ hd)
      (hF.params d hd)
    rw [← g3 (regular_affine haff Q)]
    have hv := value y r hr
    constructor
    · intro hz
      obtain ⟨qs, q1, q2⟩ := hv
      obtain rfl := prims_unique g1 q1
      refine ⟨tool d.kind, hT d hd, _, q2, fun w hw => ?_⟩
      obtain ⟨g, hg, rfl⟩ := List.mem_map.mp hw
      rw [hz g hg]
    · intro hs' g hg
      obtain ⟨v, hv', hz⟩ := satisfiedPy_call (hT d hd) hs'
      have := value_unique hv ⟨prims, g1, hv'⟩
      exact fin_inj.mp (hz _ (by rw [← this]; exact List.mem_map.mpr ⟨g, hg, rfl⟩))
  have tan : ∀ g ∈ hs, ∀ e, (TanZero fun t => g (x + t • e)) ↔ g (x + e) = 0 := by
    intro g hg e
    obtain ⟨a, c, hg'⟩ := q2 g hg
    have h1 : TanF x e (fun y => fin (g y)) ↔ TanZero fun t => g (x + t • e) := tanF_iff (.of_forall fun t => rfl)
    rw [← h1, tanF_affine (a := a) (c := c) (fun y => by rw [hg']), fin_inj]
  have hup : ∀ Q, d.Upright Q ↔ d.Holds Q := by
    intro Q
    cases d <;> first | exact Iff.rfl | exact absurd haff (by simp [Demand.kind, Shipped.IsAffine])
  have htan : ∀ Q, DemandTan P Q d ↔ d.Holds Q := by
    intro Q
    cases d <;> first | exact Iff.rfl | exact absurd haff (by simp [Demand.kind, Shipped.IsAffine])
  refine ⟨hs, .of_forall value, ?_, ?_, ?_, ?_, ?_⟩
  · intro g hg
    obtain ⟨a, c, hg'⟩ := q2 g hg
    rw [show g = fun y => ∑ i, a i * y i + c from funext hg']
    fun_prop
  · intro e r Q hr hQ
    rw [htan, ← zero _ r hr Q hQ]
    exact forall₂_congr fun g hg => tan g hg e
  · rintro b rfl e r hr hz q hq
    obtain ⟨prims, p1, p2⟩ := value _ _ hr
    obtain rfl : prims = [q] := prims_unique (ks := [b]) p1 (.cons hq .nil)
    refine ⟨tool .box, hT _ hd, _, p2, fun w hw => ?_⟩
    obtain ⟨g, hg, rfl⟩ := List.mem_map.mp hw
    rw [(tan g hg e).mp (hz g hg)]
  · intro hu
    exact (zero _ r0 hr0 P hP).mpr ((hup P).mp hu)
  · rintro a kind twin w rfl
    exact absurd haff (by simp [Demand.kind, Shipped.IsAffine])

/-- All of them. -/
theorem Ran.near (h : Ran tool items s ts) (hF : FigOK items) (hT : ToolsFor tool items) {base : Nat}
    {x : Fin (dim s.layout) → ℝ} {r0 : Prim Flt} {P : Placement} (hr0 : rebuild s.layout base (vec x) = .ok r0)
    (hP : PlacedIn items P r0) {d : Demand} (hd : d ∈ figDemands items) (htwo : d.TwoStep) (hspan : d.Spans P)
    {y1 : Fin (dim s.layout) → ℝ} {r1 : Prim Flt} {P1 : Placement} (hr1 : rebuild s.layout base (vec y1) = .ok r1)
    (hP1 : PlacedIn items P1 r1) (hh : d.Upright P1) :
    ∃ gs, Near tool items s.layout base x P d gs := by
  cases d with
  | toLine sp e rev v => exact h.near_toLine hF hT hr0 hP hd hspan
  | label a kind twin v => exact h.near_label hF hT hr0 hP hd hspan
  | _ => exact h.near_affine hF hT hr0 hP hd htwo hr1 hP1 hh

end MplLayout.Props
