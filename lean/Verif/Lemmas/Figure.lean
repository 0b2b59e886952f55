import Verif.Spec.Figure
import Verif.Props.GridFigure

/-! What the demands of a figure program mean. -/

namespace MplLayout

open Flt Props

/-- The boxes, points and axes that a demand is about are there. -/
structure Demand.In (d : Demand) (P : Placement) (r : Prim Flt) : Prop where
  box : ∀ b ∈ d.boxes, ∃ q, r.getChild b = .ok q ∧ IsRect q (P.box b)
  point : ∀ k ∈ d.points, ∃ p, r.getChild k = .ok p ∧ IsPoint p (P.point k)
  axes : ∀ a ∈ d.axes, ∃ ax, r.getChild a = .ok ax ∧ ax.ty.IsA .axes

theorem Edge.get {e : Edge} {P : Placement} {r : Prim Flt}
    (h : ∃ q, r.getChild e.box = .ok q ∧ IsRect q (P.box e.box)) :
    ∃ l, r.getChild e.key = .ok l ∧ IsLine l (e.start P) (e.stop P) := by
  obtain ⟨q, h1, h2⟩ := h
  obtain ⟨l0, l1, l2, l3, c0, c1, c2, c3, q0, q1, q2, q3⟩ := QuadAt.lines h2
  obtain ⟨b, side⟩ := e
  cases side
  · exact ⟨l0, getChild_slash h1 c0, q0⟩
  · exact ⟨l2, getChild_slash h1 c2, q2⟩
  · exact ⟨l3, getChild_slash h1 c3, q3⟩
  · exact ⟨l1, getChild_slash h1 c1, q1⟩

theorem Spot.get {s : Spot} {P : Placement} {r : Prim Flt}
    (hb : ∀ b ∈ s.boxes, ∃ q, r.getChild b = .ok q ∧ IsRect q (P.box b))
    (hp : ∀ k ∈ s.points, ∃ p, r.getChild k = .ok p ∧ IsPoint p (P.point k)) :
    ∃ p, r.getChild s.key = .ok p ∧ IsPoint p (s.place P) := by
  cases s with
  | point key => exact hp key (by simp [points])
  | first e =>
    obtain ⟨l, h1, h2⟩ := Edge.get (hb e.box (by simp [boxes]))
    obtain ⟨p0, p1, k0, k1, hp0, hp1⟩ := LineAt.points h2
    exact ⟨p0, getChild_slash h1 k0, hp0⟩
  | last e =>
    obtain ⟨l, h1, h2⟩ := Edge.get (hb e.box (by simp [boxes]))
    obtain ⟨p0, p1, k0, k1, hp0, hp1⟩ := LineAt.points h2
    exact ⟨p1, getChild_slash h1 k1, hp1⟩

/-- A part of a node that was found with a longer key. -/
theorem part_of_get {r ax c : Prim Flt} (hw : r.WF) {key k : Str} (hk : '/' ∉ k)
    (h : r.getChild key = .ok ax) (h' : r.getChild (key ++ '/' :: k) = .ok c) : HasPart ax k c := by
  rw [Node.getChild_ok_iff, Node.find_iff_At hw] at h h'
  rw [splitAll_append_slash, splitAll_noslash hk] at h'
  have e : ax.getChild k = .ok c := by
    rw [← Node.find_iff_At hw, Node.find_append, (Node.find_iff_At hw).mpr h] at h'
    rw [Node.getChild_ok_iff, splitAll_noslash hk]
    exact h'
  have hw' : ax.WF := fun p m hm => hw _ _ (Node.At.trans h hm)
  refine ⟨hw _ _ h, ?_⟩
  rw [Node.getChild_ok_iff, Node.find_iff_At hw', splitAll_noslash hk] at e
  cases e with
  | down hm h0 =>
    cases h0
    exact hm

theorem satisfiedPy_ok {c : Cons Flt} {prims : List (Prim Flt)} {ps : List (Param Flt)} :
    SatisfiedPy (.ok c) prims ps ↔ Satisfied c prims ps :=
  ⟨fun ⟨_, e, h⟩ => by cases e; exact h, fun h => ⟨_, rfl, h⟩⟩

variable {d : Demand} {P : Placement} {r : Prim Flt}

theorem sat_row {q q' : Prim Flt} {s s' : Rect} (h : IsRect q s) (h' : IsRect q' s') (hp : s.x0 ≠ s.x1) :
    SatisfiedPy (ct.align true) [q, q'] [] ↔ s.y0 = s'.y0 ∧ s.y1 = s'.y1 := by
  obtain ⟨l0, l1, l2, l3, h0, h1, h2, h3, g0, g1, g2, g3⟩ := quad_resolve h [q']
  obtain ⟨m0, m1, m2, m3, i0, i1, i2, i3, j0, j1, j2, j3⟩ := quad_resolve1 (q0 := q) h' []
  have : EvS (alignT true) [q, q'] [] (s.y0 = s'.y0 ∧ s.y1 = s'.y1) :=
    evS_two (by decide) rfl (.cons h.1 (.cons h'.1 .nil)) rfl (pyMap2 g0 j0) (pyMap2 g2 j2)
      (evS_collinear_h h0 i0 hp) (evS_collinear_h h2 i2 hp.symm)
  exact EvS.satisfied (align_eq true) this

theorem sat_column {q q' : Prim Flt} {s s' : Rect} (h : IsRect q s) (h' : IsRect q' s') (hp : s.y0 ≠ s.y1) :
    SatisfiedPy (ct.align false) [q, q'] [] ↔ s.x0 = s'.x0 ∧ s.x1 = s'.x1 := by
  obtain ⟨l0, l1, l2, l3, h0, h1, h2, h3, g0, g1, g2, g3⟩ := quad_resolve h [q']
  obtain ⟨m0, m1, m2, m3, i0, i1, i2, i3, j0, j1, j2, j3⟩ := quad_resolve1 (q0 := q) h' []
  have : EvS (alignT false) [q, q'] [] (s.x0 = s'.x0 ∧ s.x1 = s'.x1) :=
    evS_two (by decide) rfl (.cons h.1 (.cons h'.1 .nil)) rfl (pyMap2 g3 j3) (pyMap2 g1 j1)
      (evS_collinear_v h3 i3 hp.symm) (evS_collinear_v h1 i1 hp)
  exact EvS.satisfied (align_eq false) this

/-- The primitives are the ones that the constraint expects. -/
def Fit (c : Py (Cons Flt)) (prims : List (Prim Flt)) (ps : List (Param Flt)) : Prop :=
  ∀ c', c = .ok c' → List.Forall₂ (fun (p : Prim Flt) t => p.ty.IsA t) prims c'.value.sig.primTypes ∧
    ps.length = c'.value.sig.paramTypes.length

theorem Fit.of {c : Py (Cons Flt)} {c' : Cons Flt} {prims : List (Prim Flt)} {ps : List (Param Flt)} (e : c = .ok c')
    (h : List.Forall₂ (fun (p : Prim Flt) t => p.ty.IsA t) prims c'.value.sig.primTypes)
    (h' : ps.length = c'.value.sig.paramTypes.length) : Fit c prims ps := by
  intro c'' e'
  rw [e] at e'
  cases e'
  exact ⟨h, h'⟩

theorem sitsOn_rect (side : con.Side) (f b : Rect) :
    SitsOn side (f.x0, f.y0) (f.x1, f.y0) (f.x1, f.y1) (f.x0, f.y1) (b.x0, b.y0) (b.x1, b.y0) (b.x1, b.y1)
      (b.x0, b.y1) ↔ match side with
        | .top => b.y0 = f.y1 ∧ b.x0 = f.x0 ∧ b.x1 = f.x1
        | .bottom => b.y1 = f.y0 ∧ b.x0 = f.x0 ∧ b.x1 = f.x1
        | .left => b.x1 = f.x0 ∧ b.y0 = f.y0 ∧ b.y1 = f.y1
        | .right => b.x0 = f.x1 ∧ b.y0 = f.y0 ∧ b.y1 = f.y1 := by
  cases side <;> simp only [SitsOn, edge, con.Side.opposite, Prod.mk.injEq] <;> constructor <;>
    (intro h; refine ⟨?_, ?_, ?_⟩) <;> simp_all

theorem cells_mem {R C : Nat} {bs : List Str} (h : bs.length = R * C) {r c : Nat} (hr : r < R) (hc : c < C) :
    bs.getD (r * C + c) [] ∈ bs := by
  have hlt : r * C + c < bs.length := by
    rw [h]
    calc r * C + c < r * C + C := by omega
      _ = (r + 1) * C := by ring
      _ ≤ R * C := Nat.mul_le_mul_right C hr
  rw [List.getD_eq_getElem?_getD, List.getElem?_eq_getElem hlt]
  exact List.getElem_mem hlt

theorem cells_prims {R C : Nat} {bs : List Str} {P : Placement} {r : Prim Flt} (h : bs.length = R * C)
    (B : ∀ b ∈ bs, ∃ q, r.getChild b = .ok q ∧ IsRect q (P.box b)) :
    ∃ prims, List.Forall₂ (fun k p => r.getChild k = .ok p) bs prims ∧ IsGrid prims R C (cellOf C bs P) ∧
      List.Forall₂ (fun (p : Prim Flt) t => p.ty.IsA t) prims (List.replicate (R * C) PrimType.quadrilateral) := by
  have : Nonempty (Prim Flt) := ⟨unitQuad 0⟩
  choose! q h1 h2 using B
  refine ⟨bs.map q, ?_, ⟨by rw [List.length_map, h], ?_⟩, ?_⟩
  · rw [List.forall₂_map_right_iff, List.forall₂_same]
    exact h1
  · intro i j hi hj
    have hm := cells_mem h hi hj
    have hlt : i * C + j < bs.length := by
      rw [h]
      calc i * C + j < i * C + C := by omega
        _ = (i + 1) * C := by ring
        _ ≤ R * C := Nat.mul_le_mul_right C hi
    refine ⟨q (bs.getD (i * C + j) []), ?_, h2 _ hm⟩
    rw [List.getElem?_map, List.getD_eq_getElem?_getD, List.getElem?_eq_getElem hlt]
    rfl
  · rw [← h]
    clear h
    induction bs with
    | nil => exact .nil
    | cons b bs ih =>
      exact .cons (h2 b (by simp)).1 (ih (fun b hb => h1 b (by simp [hb])) fun b hb => h2 b (by simp [hb]))

/-- What a demand means for primitives that are in their places. -/
theorem Demand.meaning (hw : r.WF) (h : d.In P r) (hpar : d.ParamOK) :
    ∃ prims, List.Forall₂ (fun k p => r.getChild k = .ok p) d.keys prims ∧ Fit d.kind.build prims d.params ∧
      (d.Regular P → (SatisfiedPy d.kind.build prims d.params ↔ d.Holds P)) := by
  have B := h.box
  have Q := h.point
  have A := h.axes
  cases d with
  | box b =>
    obtain ⟨q, h1, h2⟩ := B b (by simp [boxes])
    exact ⟨_, .cons h1 .nil, .of box_eq (.cons h2.1 .nil) rfl, fun _ => iff_of_true
      ((C33_box h2).mpr ⟨_, _, _, _, rfl, rfl, rfl, rfl⟩) trivial⟩
  | width b v =>
    obtain ⟨q, h1, h2⟩ := B b (by simp [boxes])
    exact ⟨_, .cons h1 .nil, .of ct_width_eq (.cons h2.1 .nil) rfl, fun _ => C34_width h2 v⟩
  | height b v =>
    obtain ⟨q, h1, h2⟩ := B b (by simp [boxes])
    exact ⟨_, .cons h1 .nil, .of ct_height_eq (.cons h2.1 .nil) rfl, fun _ => C34_height h2 v⟩
  | aspect b v =>
    obtain ⟨q, h1, h2⟩ := B b (by simp [boxes])
    refine ⟨_, .cons h1 .nil, .of ct_aspectRatio_eq (.cons h2.1 .nil) rfl, fun _ => ?_⟩
    refine (C41_aspectRatio h2 v).trans ?_
    rw [dist2_h, dist2_v]
    simp only [Holds, ne_eq, Prod.mk.injEq, true_and]
    rw [eq_comm (a := (P.box b).y0)]
  | inner side b c v =>
    obtain ⟨q, h1, h2⟩ := B b (by simp [boxes])
    obtain ⟨q', h1', h2'⟩ := B c (by simp [boxes])
    refine ⟨_, .cons h1 (.cons h1' .nil), .of (ct_margin_eq _ _) ?_ ?_, fun _ => ?_⟩
    · cases side <;> exact .cons h2.1 (.cons h2'.1 .nil)
    · cases side <;> rfl
    · refine (C35_innerMargin h2 h2' side v).trans ?_
      cases side <;> rfl
  | outer side b c v =>
    obtain ⟨q, h1, h2⟩ := B b (by simp [boxes])
    obtain ⟨q', h1', h2'⟩ := B c (by simp [boxes])
    refine ⟨_, .cons h1 (.cons h1' .nil), .of (ct_margin_eq _ _) ?_ ?_, fun _ => ?_⟩
    · cases side <;> exact .cons h2.1 (.cons h2'.1 .nil)
    · cases side <;> rfl
    · refine (C35_outerMargin h2 h2' side v).trans ?_
      cases side <;> rfl
  | row b c =>
    obtain ⟨q, h1, h2⟩ := B b (by simp [boxes])
    obtain ⟨q', h1', h2'⟩ := B c (by simp [boxes])
    exact ⟨_, .cons h1 (.cons h1' .nil), .of (align_eq true) (.cons h2.1 (.cons h2'.1 .nil)) rfl,
      fun hr => sat_row h2 h2' hr⟩
  | column b c =>
    obtain ⟨q, h1, h2⟩ := B b (by simp [boxes])
    obtain ⟨q', h1', h2'⟩ := B c (by simp [boxes])
    exact ⟨_, .cons h1 (.cons h1' .nil), .of (align_eq false) (.cons h2.1 (.cons h2'.1 .nil)) rfl,
      fun hr => sat_column h2 h2' hr⟩
  | length e v =>
    obtain ⟨q, h1, h2⟩ := Edge.get (B e.box (by simp [boxes]))
    exact ⟨_, .cons h1 .nil, .of ct_length_eq (.cons h2.1 .nil) rfl, fun _ => C34_length h2 v⟩
  | xLength e v =>
    obtain ⟨q, h1, h2⟩ := Edge.get (B e.box (by simp [boxes]))
    exact ⟨_, .cons h1 .nil, .of ct_xLength_eq (.cons h2.1 .nil) rfl, fun _ => C34_xLength h2 v⟩
  | yLength e v =>
    obtain ⟨q, h1, h2⟩ := Edge.get (B e.box (by simp [boxes]))
    exact ⟨_, .cons h1 .nil, .of ct_yLength_eq (.cons h2.1 .nil) rfl, fun _ => C34_yLength h2 v⟩
  | lengthAlong e u v =>
    obtain ⟨q, h1, h2⟩ := Edge.get (B e.box (by simp [boxes]))
    exact ⟨_, .cons h1 .nil, .of ct_directedLength_eq (.cons h2.1 .nil) rfl, fun _ => C34_directedLength h2 u v⟩
  | relative e e' v =>
    obtain ⟨q, h1, h2⟩ := Edge.get (B e.box (by simp [boxes]))
    obtain ⟨q', h1', h2'⟩ := Edge.get (B e'.box (by simp [boxes]))
    exact ⟨_, .cons h1 (.cons h1' .nil), .of relativeLength_eq (.cons h2.1 (.cons h2'.1 .nil)) rfl,
      fun _ => C41_relativeLength h2 h2' v⟩
  | collinear e e' =>
    obtain ⟨q, h1, h2⟩ := Edge.get (B e.box (by simp [boxes]))
    obtain ⟨q', h1', h2'⟩ := Edge.get (B e'.box (by simp [boxes]))
    exact ⟨_, .cons h1 (.cons h1' .nil), .of rfl (.cons h2.1 (.cons h2'.1 .nil)) rfl,
      fun hr => satisfiedPy_ok.trans (C36_collinear_partial h2 h2' hr)⟩
  | midX e e' v =>
    obtain ⟨q, h1, h2⟩ := Edge.get (B e.box (by simp [boxes]))
    obtain ⟨q', h1', h2'⟩ := Edge.get (B e'.box (by simp [boxes]))
    exact ⟨_, .cons h1 (.cons h1' .nil), .of ct_midpointXDistance_eq (.cons h2.1 (.cons h2'.1 .nil)) rfl,
      fun _ => C34_midpointXDistance h2 h2' v⟩
  | midY e e' v =>
    obtain ⟨q, h1, h2⟩ := Edge.get (B e.box (by simp [boxes]))
    obtain ⟨q', h1', h2'⟩ := Edge.get (B e'.box (by simp [boxes]))
    exact ⟨_, .cons h1 (.cons h1' .nil), .of ct_midpointYDistance_eq (.cons h2.1 (.cons h2'.1 .nil)) rfl,
      fun _ => C34_midpointYDistance h2 h2' v⟩
  | fix s x y =>
    obtain ⟨p, h1, h2⟩ := Spot.get (s := s) (fun b hb => B b hb) (fun k hk => Q k hk)
    exact ⟨_, .cons h1 .nil, .of ct_fix_eq (.cons h2.1 .nil) rfl, fun _ => C34_fix h2 (x, y)⟩
  | coincident s s' =>
    obtain ⟨p, h1, h2⟩ := Spot.get (s := s) (fun b hb => B b (by simp [boxes, hb])) (fun k hk => Q k (by simp [points, hk]))
    obtain ⟨p', h1', h2'⟩ := Spot.get (s := s') (fun b hb => B b (by simp [boxes, hb])) (fun k hk => Q k (by simp [points, hk]))
    exact ⟨_, .cons h1 (.cons h1' .nil), .of rfl (.cons h2.1 (.cons h2'.1 .nil)) rfl,
      fun _ => satisfiedPy_ok.trans (C32_coincident h2 h2')⟩
  | xDistance s s' v =>
    obtain ⟨p, h1, h2⟩ := Spot.get (s := s) (fun b hb => B b (by simp [boxes, hb])) (fun k hk => Q k (by simp [points, hk]))
    obtain ⟨p', h1', h2'⟩ := Spot.get (s := s') (fun b hb => B b (by simp [boxes, hb])) (fun k hk => Q k (by simp [points, hk]))
    exact ⟨_, .cons h1 (.cons h1' .nil), .of ct_xDistance_eq (.cons h2.1 (.cons h2'.1 .nil)) rfl,
      fun _ => C34_xDistance h2 h2' v⟩
  | yDistance s s' v =>
    obtain ⟨p, h1, h2⟩ := Spot.get (s := s) (fun b hb => B b (by simp [boxes, hb])) (fun k hk => Q k (by simp [points, hk]))
    obtain ⟨p', h1', h2'⟩ := Spot.get (s := s') (fun b hb => B b (by simp [boxes, hb])) (fun k hk => Q k (by simp [points, hk]))
    exact ⟨_, .cons h1 (.cons h1' .nil), .of ct_yDistance_eq (.cons h2.1 (.cons h2'.1 .nil)) rfl,
      fun _ => C34_yDistance h2 h2' v⟩
  | distanceAlong s s' u v =>
    obtain ⟨p, h1, h2⟩ := Spot.get (s := s) (fun b hb => B b (by simp [boxes, hb])) (fun k hk => Q k (by simp [points, hk]))
    obtain ⟨p', h1', h2'⟩ := Spot.get (s := s') (fun b hb => B b (by simp [boxes, hb])) (fun k hk => Q k (by simp [points, hk]))
    exact ⟨_, .cons h1 (.cons h1' .nil), .of ct_directedDistance_eq (.cons h2.1 (.cons h2'.1 .nil)) rfl,
      fun _ => C34_directedDistance h2 h2' u v⟩
  | toLine s e t v =>
    obtain ⟨p, h1, h2⟩ := Spot.get (s := s) (fun b hb => B b (by simp [boxes, hb])) (fun k hk => Q k (by simp [points, hk]))
    obtain ⟨q', h1', h2'⟩ := Edge.get (B e.box (by simp [boxes]))
    exact ⟨_, .cons h1 (.cons h1' .nil), .of ct_pointToLineDistance_eq (.cons h2.1 (.cons h2'.1 .nil)) rfl,
      fun hr => (C39_constraints h2 h2' hr t v).2⟩
  | axisAt a kind side twin =>
    obtain ⟨ax, h1, h2⟩ := A a (by simp [axes])
    obtain ⟨q, h3, h4⟩ := B (a ++ k!"/Frame") (by simp [boxes])
    obtain ⟨q', h5, h6⟩ := B (a ++ '/' :: axisBoxKey kind) (by simp [boxes])
    have hF := part_of_get hw (by decide) h1 h3
    have hB := part_of_get hw (by cases kind <;> decide) h1 h5
    refine ⟨_, .cons h1 .nil, .of (position_eq _ _ _) ?_ ?_, fun _ => ?_⟩
    · cases twin <;> exact .cons h2 .nil
    · cases twin <;> rfl
    cases twin with
    | false =>
      refine (C43_constraint h2 hF h4 hB h6 side).trans ((sitsOn_rect _ _ _).trans ?_)
      simp only [Holds, Bool.false_eq_true, false_implies, and_true]
      cases side <;> rfl
    | true =>
      obtain ⟨q2, h7, h8⟩ := B (a ++ '/' :: twinBoxKey kind) (by simp [boxes])
      have hT := part_of_get hw (by cases kind <;> decide) h1 h7
      refine (C43_constraint_twin h2 hF h4 hB h6 hT h8 side).trans
        (and_congr ((sitsOn_rect _ _ _).trans ?_) ?_)
      · cases side <;> rfl
      · simp only [true_implies]
        refine (sitsOn_rect _ _ _).trans ?_
        cases side <;> rfl
  | thickness b kind p v =>
    obtain ⟨q, h1, h2⟩ := B b (by simp [boxes])
    refine ⟨_, .cons h1 .nil, .of (thickness_eq _) ?_ ?_, fun _ => ?_⟩
    · cases kind <;> exact .cons h2.1 .nil
    · cases kind <;> rfl
    · refine (thickness_sat h2 hpar.1).trans ?_
      cases kind <;> rfl
  | label a kind twin v =>
    obtain ⟨ax, h1, h2⟩ := A a (by simp [axes])
    obtain ⟨q, h3, h4⟩ := B (a ++ k!"/Frame") (by simp [boxes])
    obtain ⟨p, h5, h6⟩ := Q (a ++ '/' :: axisLabelKey kind twin) (by simp [points])
    have hF := part_of_get hw (by decide) h1 h3
    have hL := part_of_get hw (by cases kind <;> cases twin <;> decide) h1 h5
    refine ⟨_, .cons h1 .nil, .of (label_eq _ _) (.cons h2 .nil) rfl, fun hr => ?_⟩
    cases kind
    · exact C44_x h2 hF h4 hr hL h6 v
    · exact C44_y h2 hF h4 hr hL h6 v
  | cells R C bs =>
    obtain ⟨h1, h2, h3⟩ := hpar
    obtain ⟨prims, g1, g2, g3⟩ := cells_prims (R := R) (C := C) h3 B
    refine ⟨prims, g1, .of (rectilinearGrid_eq R C) ?_ rfl, fun hr => C37_rectilinearGrid h1 h2 g2 ?_⟩
    · show List.Forall₂ _ _ (List.replicate (R * C) PrimType.quadrilateral)
      exact g3
    · intro r c hr' hc
      exact hr _ (cells_mem h3 hr' hc)
  | grid R C bs ws hs ms ns =>
    obtain ⟨h1, h2, h3⟩ := hpar
    obtain ⟨prims, g1, g2, g3⟩ := cells_prims (R := R) (C := C) h3 B
    refine ⟨prims, g1, .of (grid_eq (ct_margin_eq true .right) (ct_margin_eq true .bottom) R C) ?_ rfl,
      fun hr => C38_grid h1 h2 g2 ?_ ws hs ms ns⟩
    · show List.Forall₂ _ _ (List.replicate (R * C) PrimType.quadrilateral)
      exact g3
    · intro r c hr' hc
      exact hr _ (cells_mem h3 hr' hc)

end MplLayout
