import Verif.Lemmas.Geometry

/-! Values of the shipped constraints on primitives with real coordinates. -/

namespace MplLayout

open Flt Cons

variable {l l' p p' q q' : Prim Flt} {a b c d a' b' c' d' : ℝ × ℝ}

theorem dot_ex (u : ℝ × ℝ) : Arr.dot (.vec [fin u.1, fin u.2]) con.ex = .ok (.scalar (fin u.1)) := by
  show Except.ok (Arr.scalar (dot2 (fin u.1, fin u.2) (fin 1, fin 0))) = _
  rw [dot2_fin u (1, 0)]
  simp

theorem dot_ey (u : ℝ × ℝ) : Arr.dot (.vec [fin u.1, fin u.2]) con.ey = .ok (.scalar (fin u.2)) := by
  show Except.ok (Arr.scalar (dot2 (fin u.1, fin u.2) (fin 0, fin 1))) = _
  rw [dot2_fin u (0, 1)]
  simp

theorem ev_horizontal (h : IsLine l a b) : Ev ct.horizontal [l] [] [b.2 - a.2] := by
  refine Ev.leaf0 (.cons h.1 .nil) (a := .scalar (fin (b.2 - a.2))) ?_ rfl
  simp only [ct.horizontalA, h.vec, bind, Except.bind]
  exact dot_ey (b.1 - a.1, b.2 - a.2)

theorem ev_vertical (h : IsLine l a b) : Ev ct.vertical [l] [] [b.1 - a.1] := by
  refine Ev.leaf0 (.cons h.1 .nil) (a := .scalar (fin (b.1 - a.1))) ?_ rfl
  simp only [ct.verticalA, h.vec, bind, Except.bind]
  exact dot_ex (b.1 - a.1, b.2 - a.2)

theorem ev_orthogonal (h : IsLine l a b) (h' : IsLine l' c d) : Ev ct.orthogonal [l, l'] []
    [(b.1 - a.1) * (d.1 - c.1) + (b.2 - a.2) * (d.2 - c.2)] := by
  refine Ev.leaf0 (.cons h.1 (.cons h'.1 .nil)) (a := .scalar (fin _)) ?_ rfl
  simp only [ct.orthogonalA, h.vec, h'.vec, bind, Except.bind]
  show Except.ok (Arr.scalar (dot2 (fin (b.1 - a.1), fin (b.2 - a.2))
    (fin (d.1 - c.1), fin (d.2 - c.2)))) = _
  rw [dot2_fin (b.1 - a.1, b.2 - a.2) (d.1 - c.1, d.2 - c.2)]

theorem parallelA_eq (h : IsLine l a b) (h' : IsLine l' c d) : ct.parallelA [l, l'] =
    .ok (.scalar (fin ((b.1 - a.1) * (d.2 - c.2) - (b.2 - a.2) * (d.1 - c.1)))) := by
  simp only [ct.parallelA, h.vec, h'.vec, bind, Except.bind]
  rfl

theorem ev_parallel (h : IsLine l a b) (h' : IsLine l' c d) : Ev ct.parallel [l, l'] []
    [(b.1 - a.1) * (d.2 - c.2) - (b.2 - a.2) * (d.1 - c.1)] :=
  Ev.leaf0 (.cons h.1 (.cons h'.1 .nil)) (parallelA_eq h h') rfl

theorem coincidentA_eq (h : IsPoint p a) (h' : IsPoint q b) :
    ct.coincidentA [p, q] = .ok (.vec [fin (b.1 - a.1), fin (b.2 - a.2)]) := by
  simp only [ct.coincidentA, h.2, h'.2]
  rfl

theorem ev_coincident (h : IsPoint p a) (h' : IsPoint q b) :
    Ev ct.coincident [p, q] [] [b.1 - a.1, b.2 - a.2] :=
  Ev.leaf0 (.cons h.1 (.cons h'.1 .nil)) (coincidentA_eq h h') rfl

theorem ev_coincidentLines (h : IsLine l a b) (h' : IsLine l' c d) {r : Param Flt} {t : Bool}
    (hr : r.truthy = .ok t) : Ev ct.coincidentLines [l, l'] [r]
    (if t then [b.1 - c.1, b.2 - c.2, a.1 - d.1, a.2 - d.2]
      else [a.1 - c.1, a.2 - c.2, b.1 - d.1, b.2 - d.2]) := by
  obtain ⟨p0, p1, g0, g1, hp0, hp1⟩ := LineAt.points h
  obtain ⟨q0, q1, k0, k1, hq0, hq1⟩ := LineAt.points h'
  cases t
  · refine Ev.leaf1 (.cons h.1 (.cons h'.1 .nil)) (a := .vec _) (v := _) ?_ rfl
    simp only [ct.coincidentLinesA, hr, g0, g1, k0, k1, bind, Except.bind, Bool.false_eq_true,
      if_false, coincidentA_eq hq0 hp0, coincidentA_eq hq1 hp1]
    rfl
  · refine Ev.leaf1 (.cons h.1 (.cons h'.1 .nil)) (a := .vec _) (v := _) ?_ rfl
    simp only [ct.coincidentLinesA, hr, g0, g1, k0, k1, bind, Except.bind,
      if_true, coincidentA_eq hq0 hp1, coincidentA_eq hq1 hp0]
    rfl

theorem IsLine.getInt0 (h : IsLine l a b) : ∃ p, l.getInt 0 = .ok p ∧ IsPoint p a := by
  obtain ⟨_, p, q, hc, hp, hq⟩ := h
  refine ⟨p, ?_, hp⟩
  cases l; simp only [Node.children_mk] at hc; subst hc; rfl

theorem isA_point {t : PrimType} (h : t.IsA .point) : t = .point := by
  have := (PrimType.sub_iff _ _).mpr h
  revert this
  cases t <;> decide

theorem ev_collinear (h : IsLine l a b) (h' : IsLine l' c d) : Ev ct.collinear [l, l'] []
    [(b.1 - a.1) * (d.2 - c.2) - (b.2 - a.2) * (d.1 - c.1),
     (b.1 - a.1) * (a.2 - c.2) - (b.2 - a.2) * (a.1 - c.1)] := by
  obtain ⟨p, hp, hp'⟩ := h.getInt0
  obtain ⟨q, hq, hq'⟩ := h'.getInt0
  have hl : primInit (K := Flt) .line ⟨0, []⟩ [k!"Point0", k!"Point1"] [q, p]
      = .ok (.mk .line ⟨0, []⟩ [(k!"Point0", q), (k!"Point1", p)]) := by
    have h1 := isA_point hp'.1
    have h2 := isA_point hq'.1
    cases p; cases q
    simp only [Node.ty_mk] at h1 h2
    subst h1 h2
    rfl
  have hl2 : IsLine (.mk .line ⟨0, []⟩ [(k!"Point0", q), (k!"Point1", p)]) c a :=
    ⟨.refl _, _, _, rfl, hq', hp'⟩
  refine Ev.leaf0 (.cons h.1 (.cons h'.1 .nil)) (a := .vec _) (v := _) ?_ rfl
  simp only [ct.collinearA, hp, hq, hl, parallelA_eq h h', parallelA_eq h hl2, bind, Except.bind]
  rfl

/-! ## Lengths and distances -/

theorem ev_lineVector (h : IsLine l a b) : Ev con.lineVector [l] [] [b.1 - a.1, b.2 - a.2] :=
  Ev.leaf0 (.cons h.1 .nil) h.vec rfl

theorem xLengthA_eq (h : IsLine l a b) :
    con.directedLengthA con.ex [l] = .ok (.scalar (fin (b.1 - a.1))) := by
  simp only [con.directedLengthA, h.vec, bind, Except.bind]
  exact dot_ex (b.1 - a.1, b.2 - a.2)

theorem yLengthA_eq (h : IsLine l a b) :
    con.directedLengthA con.ey [l] = .ok (.scalar (fin (b.2 - a.2))) := by
  simp only [con.directedLengthA, h.vec, bind, Except.bind]
  exact dot_ey (b.1 - a.1, b.2 - a.2)

theorem directedLengthA_eq (h : IsLine l a b) (v : ℝ × ℝ) :
    con.withDirection con.directedLengthA [l] (.arr [fin v.1, fin v.2])
      = .ok (.scalar (fin ((b.1 - a.1) * v.1 + (b.2 - a.2) * v.2))) := by
  have := LineAt.directedLength h (fin v.1, fin v.2)
  simp only [up, fin_sub] at this
  rw [dot2_fin (b.1 - a.1, b.2 - a.2) v] at this
  exact this

theorem directedDistanceA_eq (h : IsPoint p a) (h' : IsPoint q b) (v : ℝ × ℝ) :
    con.directedDistanceA (.vec [fin v.1, fin v.2]) [p, q]
      = .ok (.scalar (fin ((b.1 - a.1) * v.1 + (b.2 - a.2) * v.2))) := by
  have := PointAt.directedDistance h h' (fin v.1, fin v.2)
  simp only [up, fin_sub] at this
  rw [dot2_fin (b.1 - a.1, b.2 - a.2) v] at this
  exact this

theorem ex_eq : (con.ex : Arr Flt) = .vec [fin 1, fin 0] := rfl
theorem ey_eq : (con.ey : Arr Flt) = .vec [fin 0, fin 1] := rfl

theorem xDistanceA_eq (h : IsPoint p a) (h' : IsPoint q b) :
    con.directedDistanceA con.ex [p, q] = .ok (.scalar (fin (b.1 - a.1))) := by
  rw [ex_eq, directedDistanceA_eq h h' (1, 0)]; simp

theorem yDistanceA_eq (h : IsPoint p a) (h' : IsPoint q b) :
    con.directedDistanceA con.ey [p, q] = .ok (.scalar (fin (b.2 - a.2))) := by
  rw [ey_eq, directedDistanceA_eq h h' (0, 1)]; simp

theorem midDistanceA_eq (h : IsLine l a b) (h' : IsLine l' c d) (v : ℝ × ℝ) :
    con.midpointDirectedDistanceA (.vec [fin v.1, fin v.2]) [l, l'] = .ok (.scalar
      (fin (((c.1 + d.1) / 2 - (a.1 + b.1) / 2) * v.1 +
        ((c.2 + d.2) / 2 - (a.2 + b.2) / 2) * v.2))) := by
  have := LineAt.midpointDistance h h' (fin v.1, fin v.2)
  simp only [mid_fin] at this
  simp only [up, fin_sub] at this
  rw [dot2_fin ((c.1 + d.1) / 2 - (a.1 + b.1) / 2, (c.2 + d.2) / 2 - (a.2 + b.2) / 2) v] at this
  exact this

theorem midXA_eq (h : IsLine l a b) (h' : IsLine l' c d) :
    con.midpointDirectedDistanceA con.ex [l, l'] = .ok (.scalar
      (fin ((c.1 + d.1) / 2 - (a.1 + b.1) / 2))) := by
  rw [ex_eq, midDistanceA_eq h h' (1, 0)]; simp

theorem midYA_eq (h : IsLine l a b) (h' : IsLine l' c d) :
    con.midpointDirectedDistanceA con.ey [l, l'] = .ok (.scalar
      (fin ((c.2 + d.2) / 2 - (a.2 + b.2) / 2))) := by
  rw [ey_eq, midDistanceA_eq h h' (0, 1)]; simp

theorem ev_xLength (h : IsLine l a b) : Ev con.xLength [l] [] [b.1 - a.1] :=
  Ev.leaf0 (.cons h.1 .nil) (xLengthA_eq h) rfl
theorem ev_yLength (h : IsLine l a b) : Ev con.yLength [l] [] [b.2 - a.2] :=
  Ev.leaf0 (.cons h.1 .nil) (yLengthA_eq h) rfl

/-! ## Compounds -/

/-- Keys of the form `arg0/Line{i}` of one quadrilateral. -/
theorem quad_resolve {q : Prim Flt} (h : IsQuad q a b c d) (rest : List (Prim Flt)) :
    ∃ l0 l1 l2 l3, IsLine l0 a b ∧ IsLine l1 b c ∧ IsLine l2 c d ∧ IsLine l3 d a ∧
      resolve (q :: rest) k!"arg0/Line0" = .ok l0 ∧ resolve (q :: rest) k!"arg0/Line1" = .ok l1 ∧
      resolve (q :: rest) k!"arg0/Line2" = .ok l2 ∧ resolve (q :: rest) k!"arg0/Line3" = .ok l3 := by
  obtain ⟨l0, l1, l2, l3, g0, g1, g2, g3, h0, h1, h2, h3⟩ := QuadAt.lines h
  exact ⟨l0, l1, l2, l3, h0, h1, h2, h3, (resolve_arg0 q rest _).trans g0,
    (resolve_arg0 q rest _).trans g1, (resolve_arg0 q rest _).trans g2,
    (resolve_arg0 q rest _).trans g3⟩

theorem quad_resolve1 {q0 q : Prim Flt} (h : IsQuad q a b c d) (rest : List (Prim Flt)) :
    ∃ l0 l1 l2 l3, IsLine l0 a b ∧ IsLine l1 b c ∧ IsLine l2 c d ∧ IsLine l3 d a ∧
      resolve (q0 :: q :: rest) k!"arg1/Line0" = .ok l0 ∧
      resolve (q0 :: q :: rest) k!"arg1/Line1" = .ok l1 ∧
      resolve (q0 :: q :: rest) k!"arg1/Line2" = .ok l2 ∧
      resolve (q0 :: q :: rest) k!"arg1/Line3" = .ok l3 := by
  obtain ⟨l0, l1, l2, l3, g0, g1, g2, g3, h0, h1, h2, h3⟩ := QuadAt.lines h
  exact ⟨l0, l1, l2, l3, h0, h1, h2, h3, (resolve_arg1 q0 q rest _).trans g0,
    (resolve_arg1 q0 q rest _).trans g1, (resolve_arg1 q0 q rest _).trans g2,
    (resolve_arg1 q0 q rest _).trans g3⟩

theorem pyMap1 {α β : Type} {f : α → Py β} {x : α} {y : β} (h : f x = .ok y) :
    pyMap f [x] = .ok [y] := by simp [pyMap, h, bind, Except.bind]

theorem pyMap2 {α β : Type} {f : α → Py β} {x x' : α} {y y' : β} (h : f x = .ok y)
    (h' : f x' = .ok y') : pyMap f [x, x'] = .ok [y, y'] := by
  simp [pyMap, h, h', bind, Except.bind]

/-- The tree of `Box()`. -/
noncomputable def boxT : Cons Flt :=
  .mk { name := k!"Box", assem := compoundAssem 0 }
    ⟨[[k!"arg0/Line0"], [k!"arg0/Line2"], [k!"arg0/Line3"], [k!"arg0/Line1"]],
      fun _ => .ok [[], [], [], []], ⟨[.quadrilateral], [], 0⟩⟩
    [(k!"HorizontalBottom", ct.horizontal), (k!"HorizontalTop", ct.horizontal),
     (k!"VerticalLeft", ct.vertical), (k!"VerticalRight", ct.vertical)]

theorem box_eq : (ct.box : Py (Cons Flt)) = .ok boxT := rfl

theorem ev_box (h : IsQuad q a b c d) :
    Ev boxT [q] [] [b.2 - a.2, d.2 - c.2, a.1 - d.1, c.1 - b.1] := by
  obtain ⟨l0, l1, l2, l3, h0, h1, h2, h3, g0, g1, g2, g3⟩ := quad_resolve h []
  exact Ev.compound (vs := [[b.2 - a.2], [d.2 - c.2], [a.1 - d.1], [c.1 - b.1]])
    (by decide) rfl rfl (.cons h.1 .nil) rfl
    (.cons (pyMap1 g0) (ev_horizontal h0) <| .cons (pyMap1 g2) (ev_horizontal h2) <|
      .cons (pyMap1 g3) (ev_vertical h3) <| .cons (pyMap1 g1) (ev_vertical h1) <| .nil _)

/-- A compound with a single child without parameters. -/
def oneT (cls : ConsClass Flt) (key : Str) (child : Cons Flt) (ks : List Str)
    (ty : List PrimType) : Cons Flt :=
  .mk cls ⟨[ks], fun _ => .ok [[]], ⟨ty, [], 0⟩⟩ [(key, child)]

theorem ev_one {name : Str} {key : Str} {cn : Str} {ctypes : List PrimType}
    {f : List (Prim Flt) → Py (Arr Flt)} {ks : List Str} {ty : List PrimType}
    {prims cps : List (Prim Flt)} {x : ℝ}
    (hacc : List.Forall₂ (fun (p : Prim Flt) t => p.ty.IsA t) prims ty)
    (hk : pyMap (resolve prims) ks = .ok cps) (hcl : ks.length = ctypes.length)
    (hc : Ev (con.leaf0 cn ctypes 1 f) cps [] [x]) :
    let T := oneT { name := name, assem := compoundAssem 0 } key (con.leaf0 cn ctypes 1 f) ks ty
    Ev T prims [] [x] ∧ ∀ y : ℝ, Ev (cstr T) prims [.num (fin y)] [x - y] := by
  intro T
  have h1 : Ev T prims [] [x] :=
    Ev.compound (vs := [[x]]) (by simp) rfl rfl hacc rfl (.cons hk hc (.nil _))
  refine ⟨h1, fun y => ?_⟩
  refine h1.cstr_num (v := [x]) ?_ ?_ ?_ y
  · intro kc hm
    simp only [T, oneT, Node.children_mk, List.mem_singleton] at hm
    subst hm
    rfl
  · refine ⟨rfl, rfl, ?_⟩
    intro pss e
    cases e
    exact ⟨le_rfl, hcl, leaf_consistent _ _ _ rfl, trivial⟩
  · refine ⟨fun own ho => ?_, fun pss e => ?_⟩
    · have : Except.ok (Arr.vec []) = Except.ok own := ho
      cases this
      rfl
    · cases e
      refine ⟨fun cps' hcps => leaf_sized _ _ _ _ fun b hb => ?_, trivial⟩
      rw [hk] at hcps
      cases hcps
      have := hc.ev
      have h2 : (con.leaf0 cn ctypes 1 f).eval cps [] = .ok b.atleast1d := leaf0_eval hb
      rw [h2] at this
      have := Except.ok.inj this
      rw [this]
      rfl

theorem oneT_transformConstraint {cls : ConsClass Flt} {key cn : Str} {ctypes : List PrimType}
    {f : List (Prim Flt) → Py (Arr Flt)} {ks : List Str} {ty : List PrimType} (hkey : key ≠ []) :
    transformConstraint (oneT cls key (con.leaf0 cn ctypes 1 f) ks ty)
      = .ok (cstr (oneT cls key (con.leaf0 cn ctypes 1 f) ks ty)) := by
  refine transformConstraint_eq ?_ ?_
  · exact Node.WF_mk.mpr ⟨by simp, by
      intro k c hm
      simp only [List.mem_singleton, Prod.mk.injEq] at hm
      rw [hm.2]; exact leaf_WF _ _⟩
  · refine Node.KeysNE_mk.mpr ⟨by simpa using hkey, ?_⟩
    intro k c hm
    simp only [List.mem_singleton, Prod.mk.injEq] at hm
    rw [hm.2]; exact KeysNE_leaf rfl

/-- The tree of `Width()`. -/
noncomputable def widthT : Cons Flt :=
  oneT { name := k!"Width", assem := compoundAssem 0 } k!"Width" con.xLength [k!"arg0/Line0"]
    [.quadrilateral]
/-- The tree of `Height()`. -/
noncomputable def heightT : Cons Flt :=
  oneT { name := k!"Height", assem := compoundAssem 0 } k!"Height" con.yLength [k!"arg0/Line1"]
    [.quadrilateral]

theorem width_eq : (con.width : Py (Cons Flt)) = .ok widthT := rfl
theorem height_eq : (con.height : Py (Cons Flt)) = .ok heightT := rfl
theorem ct_width_eq : (ct.width : Py (Cons Flt)) = .ok (cstr widthT) := by
  simp only [ct.width, width_eq, bind, Except.bind]
  exact oneT_transformConstraint (by decide)
theorem ct_height_eq : (ct.height : Py (Cons Flt)) = .ok (cstr heightT) := by
  simp only [ct.height, height_eq, bind, Except.bind]
  exact oneT_transformConstraint (by decide)

theorem ev_width (h : IsQuad q a b c d) : Ev widthT [q] [] [b.1 - a.1] ∧
    ∀ y : ℝ, Ev (cstr widthT) [q] [.num (fin y)] [b.1 - a.1 - y] := by
  obtain ⟨l0, l1, l2, l3, h0, h1, h2, h3, g0, g1, g2, g3⟩ := quad_resolve h []
  exact ev_one (.cons h.1 .nil) (pyMap1 g0) rfl (ev_xLength h0)

theorem ev_height (h : IsQuad q a b c d) : Ev heightT [q] [] [c.2 - b.2] ∧
    ∀ y : ℝ, Ev (cstr heightT) [q] [.num (fin y)] [c.2 - b.2 - y] := by
  obtain ⟨l0, l1, l2, l3, h0, h1, h2, h3, g0, g1, g2, g3⟩ := quad_resolve h []
  exact ev_one (.cons h.1 .nil) (pyMap1 g1) rfl (ev_yLength h1)

/-- The tree of `OuterMargin(side)` / `InnerMargin(side)`. -/
noncomputable def marginT (outer : Bool) (side : con.Side) : Cons Flt :=
  let cls : ConsClass Flt :=
    { name := if outer then k!"OuterMargin" else k!"InnerMargin", assem := compoundAssem 0 }
  match side with
  | .left => oneT cls k!"LeftMargin" con.midpointXDistance
      (if outer then [k!"arg1/Line1", k!"arg0/Line3"] else [k!"arg1/Line3", k!"arg0/Line3"])
      [.quadrilateral, .quadrilateral]
  | .right => oneT cls k!"RightMargin" con.midpointXDistance
      (if outer then [k!"arg0/Line1", k!"arg1/Line3"] else [k!"arg0/Line1", k!"arg1/Line1"])
      [.quadrilateral, .quadrilateral]
  | .bottom => oneT cls k!"BottomMargin" con.midpointYDistance
      (if outer then [k!"arg1/Line2", k!"arg0/Line0"] else [k!"arg1/Line0", k!"arg0/Line0"])
      [.quadrilateral, .quadrilateral]
  | .top => oneT cls k!"TopMargin" con.midpointYDistance
      (if outer then [k!"arg0/Line2", k!"arg1/Line0"] else [k!"arg0/Line2", k!"arg1/Line2"])
      [.quadrilateral, .quadrilateral]

theorem margin_eq (outer : Bool) (side : con.Side) :
    (con.margin outer side : Py (Cons Flt)) = .ok (marginT outer side) := by
  cases outer <;> cases side <;> rfl

theorem ct_margin_eq (outer : Bool) (side : con.Side) :
    (ct.margin outer side : Py (Cons Flt)) = .ok (cstr (marginT outer side)) := by
  simp only [ct.margin, margin_eq, bind, Except.bind]
  cases outer <;> cases side <;> exact oneT_transformConstraint (by decide)

/-- Midpoint abscissas / ordinates that a margin compares: from the first to the second. -/
noncomputable def marginVal (outer : Bool) (side : con.Side) (a b c d a' b' c' d' : ℝ × ℝ) : ℝ :=
  match outer, side with
  | true, .left => (d.1 + a.1) / 2 - (b'.1 + c'.1) / 2
  | false, .left => (d.1 + a.1) / 2 - (d'.1 + a'.1) / 2
  | true, .right => (d'.1 + a'.1) / 2 - (b.1 + c.1) / 2
  | false, .right => (b'.1 + c'.1) / 2 - (b.1 + c.1) / 2
  | true, .bottom => (a.2 + b.2) / 2 - (c'.2 + d'.2) / 2
  | false, .bottom => (a.2 + b.2) / 2 - (a'.2 + b'.2) / 2
  | true, .top => (a'.2 + b'.2) / 2 - (c.2 + d.2) / 2
  | false, .top => (c'.2 + d'.2) / 2 - (c.2 + d.2) / 2

theorem ev_midX (h : IsLine l a b) (h' : IsLine l' c d) :
    Ev con.midpointXDistance [l, l'] [] [(c.1 + d.1) / 2 - (a.1 + b.1) / 2] :=
  Ev.leaf0 (.cons h.1 (.cons h'.1 .nil)) (midXA_eq h h') rfl
theorem ev_midY (h : IsLine l a b) (h' : IsLine l' c d) :
    Ev con.midpointYDistance [l, l'] [] [(c.2 + d.2) / 2 - (a.2 + b.2) / 2] :=
  Ev.leaf0 (.cons h.1 (.cons h'.1 .nil)) (midYA_eq h h') rfl

theorem ev_margin (h : IsQuad q a b c d) (h' : IsQuad q' a' b' c' d') (outer : Bool)
    (side : con.Side) :
    Ev (marginT outer side) [q, q'] [] [marginVal outer side a b c d a' b' c' d'] ∧
    ∀ y : ℝ, Ev (cstr (marginT outer side)) [q, q'] [.num (fin y)]
      [marginVal outer side a b c d a' b' c' d' - y] := by
  obtain ⟨l0, l1, l2, l3, h0, h1, h2, h3, g0, g1, g2, g3⟩ := quad_resolve h [q']
  obtain ⟨m0, m1, m2, m3, i0, i1, i2, i3, j0, j1, j2, j3⟩ := quad_resolve1 (q0 := q) h' []
  have hacc : List.Forall₂ (fun (p : Prim Flt) t => p.ty.IsA t) [q, q']
    [.quadrilateral, .quadrilateral] := .cons h.1 (.cons h'.1 .nil)
  cases outer <;> cases side
  · exact ev_one hacc (pyMap2 j0 g0) rfl (ev_midY i0 h0)
  · exact ev_one hacc (pyMap2 g2 j2) rfl (ev_midY h2 i2)
  · exact ev_one hacc (pyMap2 j3 g3) rfl (ev_midX i3 h3)
  · exact ev_one hacc (pyMap2 g1 j1) rfl (ev_midX h1 i1)
  · exact ev_one hacc (pyMap2 j2 g0) rfl (ev_midY i2 h0)
  · exact ev_one hacc (pyMap2 g2 j0) rfl (ev_midY h2 i0)
  · exact ev_one hacc (pyMap2 j1 g3) rfl (ev_midX i1 h3)
  · exact ev_one hacc (pyMap2 g1 j3) rfl (ev_midX h1 i3)

/-! ## Constraints made from leaves -/

section
variable {K : Type} [PyNum K]

theorem ct_fix_eq : (ct.fix : Py (Cons K)) = .ok (cstr con.coordinate) :=
  transformConstraint_leaf0 _ _ _ _
theorem ct_xDistance_eq : (ct.xDistance : Py (Cons K)) = .ok (cstr con.xDistance) :=
  transformConstraint_leaf0 _ _ _ _
theorem ct_yDistance_eq : (ct.yDistance : Py (Cons K)) = .ok (cstr con.yDistance) :=
  transformConstraint_leaf0 _ _ _ _
theorem ct_length_eq : (ct.length : Py (Cons K)) = .ok (cstr con.length) :=
  transformConstraint_leaf0 _ _ _ _
theorem ct_xLength_eq : (ct.xLength : Py (Cons K)) = .ok (cstr con.xLength) :=
  transformConstraint_leaf0 _ _ _ _
theorem ct_yLength_eq : (ct.yLength : Py (Cons K)) = .ok (cstr con.yLength) :=
  transformConstraint_leaf0 _ _ _ _
theorem ct_midpointXDistance_eq : (ct.midpointXDistance : Py (Cons K)) = .ok (cstr con.midpointXDistance) :=
  transformConstraint_leaf0 _ _ _ _
theorem ct_midpointYDistance_eq : (ct.midpointYDistance : Py (Cons K)) = .ok (cstr con.midpointYDistance) :=
  transformConstraint_leaf0 _ _ _ _
theorem ct_angle_eq : (ct.angle : Py (Cons K)) = .ok (cstr con.angle) :=
  transformConstraint_leaf0 _ _ _ _
theorem ct_aspectRatio_eq : (ct.aspectRatio : Py (Cons K)) = .ok (cstr con.aspectRatio) :=
  transformConstraint_leaf0 _ _ _ _
theorem ct_directedDistance_eq : (ct.directedDistance : Py (Cons K)) = .ok (cstr con.directedDistance) :=
  transformConstraint_leaf1 _ _ _ _ _
theorem ct_directedLength_eq : (ct.directedLength : Py (Cons K)) = .ok (cstr con.directedLength) :=
  transformConstraint_leaf1 _ _ _ _ _
theorem ct_pointOnLineDistance_eq : (ct.pointOnLineDistance : Py (Cons K)) = .ok (cstr con.pointOnLineDistance) :=
  transformConstraint_leaf1 _ _ _ _ _
theorem ct_pointToLineDistance_eq : (ct.pointToLineDistance : Py (Cons K)) = .ok (cstr con.pointToLineDistance) :=
  transformConstraint_leaf1 _ _ _ _ _
theorem ct_relativePointOnLineDistance_eq : (ct.relativePointOnLineDistance : Py (Cons K)) = .ok (cstr con.relativePointOnLineDistance) :=
  transformConstraint_leaf1 _ _ _ _ _

end

theorem ev_ct_xLength (h : IsLine l a b) (v : ℝ) :
    Ev (cstr con.xLength) [l] [.num (fin v)] [b.1 - a.1 - v] :=
  ct_leaf0 (v := [b.1 - a.1]) (.cons h.1 .nil) (xLengthA_eq h) rfl rfl v
theorem ev_ct_yLength (h : IsLine l a b) (v : ℝ) :
    Ev (cstr con.yLength) [l] [.num (fin v)] [b.2 - a.2 - v] :=
  ct_leaf0 (v := [b.2 - a.2]) (.cons h.1 .nil) (yLengthA_eq h) rfl rfl v
theorem ev_ct_length (h : IsLine l a b) (v : ℝ) :
    Ev (cstr con.length) [l] [.num (fin v)] [dist2 a b - v] :=
  ct_leaf0 (v := [dist2 a b]) (.cons h.1 .nil) h.length rfl rfl v
theorem ev_ct_directedLength (h : IsLine l a b) (u : ℝ × ℝ) (v : ℝ) :
    Ev (cstr con.directedLength) [l] [.arr [fin u.1, fin u.2], .num (fin v)]
      [(b.1 - a.1) * u.1 + (b.2 - a.2) * u.2 - v] :=
  ct_leaf1 (v := [(b.1 - a.1) * u.1 + (b.2 - a.2) * u.2]) (.cons h.1 .nil)
    (directedLengthA_eq h u) rfl rfl v
theorem ev_ct_directedDistance (h : IsPoint p a) (h' : IsPoint q b) (u : ℝ × ℝ) (v : ℝ) :
    Ev (cstr con.directedDistance) [p, q] [.arr [fin u.1, fin u.2], .num (fin v)]
      [(b.1 - a.1) * u.1 + (b.2 - a.2) * u.2 - v] :=
  ct_leaf1 (v := [(b.1 - a.1) * u.1 + (b.2 - a.2) * u.2]) (.cons h.1 (.cons h'.1 .nil))
    (a := .scalar (fin ((b.1 - a.1) * u.1 + (b.2 - a.2) * u.2)))
    (by exact directedDistanceA_eq h h' u) rfl rfl v
theorem ev_ct_xDistance (h : IsPoint p a) (h' : IsPoint q b) (v : ℝ) :
    Ev (cstr con.xDistance) [p, q] [.num (fin v)] [b.1 - a.1 - v] :=
  ct_leaf0 (v := [b.1 - a.1]) (.cons h.1 (.cons h'.1 .nil)) (xDistanceA_eq h h') rfl rfl v
theorem ev_ct_yDistance (h : IsPoint p a) (h' : IsPoint q b) (v : ℝ) :
    Ev (cstr con.yDistance) [p, q] [.num (fin v)] [b.2 - a.2 - v] :=
  ct_leaf0 (v := [b.2 - a.2]) (.cons h.1 (.cons h'.1 .nil)) (yDistanceA_eq h h') rfl rfl v
theorem ev_ct_midX (h : IsLine l a b) (h' : IsLine l' c d) (v : ℝ) :
    Ev (cstr con.midpointXDistance) [l, l'] [.num (fin v)]
      [(c.1 + d.1) / 2 - (a.1 + b.1) / 2 - v] :=
  ct_leaf0 (v := [(c.1 + d.1) / 2 - (a.1 + b.1) / 2]) (.cons h.1 (.cons h'.1 .nil))
    (midXA_eq h h') rfl rfl v
theorem ev_ct_midY (h : IsLine l a b) (h' : IsLine l' c d) (v : ℝ) :
    Ev (cstr con.midpointYDistance) [l, l'] [.num (fin v)]
      [(c.2 + d.2) / 2 - (a.2 + b.2) / 2 - v] :=
  ct_leaf0 (v := [(c.2 + d.2) / 2 - (a.2 + b.2) / 2]) (.cons h.1 (.cons h'.1 .nil))
    (midYA_eq h h') rfl rfl v
theorem ev_ct_fix (h : IsPoint p a) (v : ℝ × ℝ) :
    Ev (cstr con.coordinate) [p] [.arr [fin v.1, fin v.2]] [a.1 - v.1, a.2 - v.2] :=
  ct_leaf0_arr (v := [a.1, a.2]) (.cons h.1 .nil) (PointAt.coord h) rfl rfl [v.1, v.2] rfl

end MplLayout
