import Verif.Spec.Drawing
import Verif.Lemmas.Shapes

/-! Lemmas about drawing. -/

namespace MplLayout

open Flt Cons

variable {q q' ax frame axis p : Prim Flt} {a b c d a' b' c' d' : ℝ × ℝ}

theorem HasPart.getChild {K : Type} {n c : Prim K} {k : Str} (h : HasPart n k c) (hk : '/' ∉ k) :
    n.getChild k = .ok c := by
  rw [Node.getChild_ok_iff, splitAll_noslash hk]
  have := dictGet_of_mem (β := Prim K) h.1 h.2
  simp [Node.find, this]

theorem HasPart.getChild2 {K : Type} {n c : Prim K} {k : Str} (h : HasPart n k c) (hk : '/' ∉ k)
    (s : Str) : n.getChild (k ++ '/' :: s) = match c.find (splitAll s) with
      | some m => .ok m
      | none => .error (.keyError (k ++ '/' :: s)) := by
  rw [Node.getChild_eq', splitAll_append_slash, splitAll_noslash hk]
  have := dictGet_of_mem (β := Prim K) h.1 h.2
  simp only [List.cons_append, List.nil_append, Node.find, this, Option.bind_some]
  cases c.find (splitAll s) <;> rfl

/-! ## Axis positions -/

/-- Residual of `CoincidentOutwardFaces(side)`. -/
noncomputable def faceVal (side : con.Side) (a b c d a' b' c' d' : ℝ × ℝ) : List ℝ :=
  let e := edge side a b c d
  let f := edge side.opposite a' b' c' d'
  [e.2.1 - f.1.1, e.2.2 - f.1.2, e.1.1 - f.2.1, e.1.2 - f.2.2]

/-- The tree of `CoincidentOutwardFaces(side)`. -/
noncomputable def facesT (side : con.Side) : Cons Flt :=
  .mk { name := k!"CoincidentOutwardFaces", assem := compoundAssem 0 }
    ⟨[match side with
      | .bottom => [k!"arg0/Line0", k!"arg1/Line2"]
      | .top => [k!"arg0/Line2", k!"arg1/Line0"]
      | .left => [k!"arg0/Line3", k!"arg1/Line1"]
      | .right => [k!"arg0/Line1", k!"arg1/Line3"]],
      fun _ => .ok [[.bool true]], ⟨[.quadrilateral, .quadrilateral], [], 0⟩⟩
    [(k!"CoincidentLines", ct.coincidentLines)]

theorem faces_eq (side : con.Side) :
    (ct.coincidentOutwardFaces side : Py (Cons Flt)) = .ok (facesT side) := by
  cases side <;> rfl

theorem ev_faces (h : IsQuad q a b c d) (h' : IsQuad q' a' b' c' d') (side : con.Side) :
    Ev (facesT side) [q, q'] [] (faceVal side a b c d a' b' c' d') := by
  obtain ⟨l0, l1, l2, l3, h0, h1, h2, h3, g0, g1, g2, g3⟩ := quad_resolve h [q']
  obtain ⟨m0, m1, m2, m3, i0, i1, i2, i3, j0, j1, j2, j3⟩ := quad_resolve1 (q0 := q) h' []
  have hacc : List.Forall₂ (fun (p : Prim Flt) t => p.ty.IsA t) [q, q']
    [.quadrilateral, .quadrilateral] := .cons h.1 (.cons h'.1 .nil)
  have ht : Param.truthy (.bool true : Param Flt) = .ok true := rfl
  cases side
  · exact Ev.compound (vs := [_]) (by simp) rfl rfl hacc rfl
      (.cons (pyMap2 g0 j2) (ev_coincidentLines h0 i2 ht) (.nil _))
  · exact Ev.compound (vs := [_]) (by simp) rfl rfl hacc rfl
      (.cons (pyMap2 g2 j0) (ev_coincidentLines h2 i0 ht) (.nil _))
  · exact Ev.compound (vs := [_]) (by simp) rfl rfl hacc rfl
      (.cons (pyMap2 g3 j1) (ev_coincidentLines h3 i1 ht) (.nil _))
  · exact Ev.compound (vs := [_]) (by simp) rfl rfl hacc rfl
      (.cons (pyMap2 g1 j3) (ev_coincidentLines h1 i3 ht) (.nil _))

theorem faceVal_zero (side : con.Side) :
    (∀ x ∈ faceVal side a b c d a' b' c' d', x = 0) ↔ SitsOn side a b c d a' b' c' d' := by
  simp only [faceVal, SitsOn, List.mem_cons, List.not_mem_nil, or_false, forall_eq_or_imp,
    forall_eq, sub_eq_zero, Prod.ext_iff]
  tauto

/-- Class names of the two constraints. -/
def positionName (kind : AxisKind) : Str :=
  match kind with | .x => k!"PositionXAxis" | .y => k!"PositionYAxis"

/-- The tree of `PositionXAxis(side, twin)` / `PositionYAxis(side, twin)`. -/
noncomputable def positionT (kind : AxisKind) (side : con.Side) (twin : Bool) : Cons Flt :=
  let cls : ConsClass Flt :=
    { name := positionName kind, assem := compoundAssem 0 }
  if twin then
    .mk cls ⟨[[k!"arg0/Frame", k!"arg0/" ++ axisBoxKey kind],
        [k!"arg0/Frame", k!"arg0/" ++ twinBoxKey kind]], fun _ => .ok [[], []], ⟨[.axes], [], 0⟩⟩
      [(k!"AlignOutside", facesT side), (k!"TwinAlignOutside", facesT side.opposite)]
  else
    .mk cls ⟨[[k!"arg0/Frame", k!"arg0/" ++ axisBoxKey kind]], fun _ => .ok [[]],
      ⟨[.axes], [], 0⟩⟩ [(k!"AlignOutside", facesT side)]

theorem position_eq (kind : AxisKind) (side : con.Side) (twin : Bool) :
    (ct.positionAxis kind side twin : Py (Cons Flt)) = .ok (positionT kind side twin) := by
  cases kind <;> cases side <;> cases twin <;> rfl

theorem axisBoxKey_noslash (kind : AxisKind) : '/' ∉ axisBoxKey kind := by
  cases kind <;> decide
theorem twinBoxKey_noslash (kind : AxisKind) : '/' ∉ twinBoxKey kind := by
  cases kind <;> decide
theorem axisLabelKey_noslash (kind : AxisKind) (t : Bool) : '/' ∉ axisLabelKey kind t := by
  cases kind <;> cases t <;> decide

theorem ev_position (hax : ax.ty.IsA .axes) (hF : HasPart ax k!"Frame" q)
    (h : IsQuad q a b c d) {kind : AxisKind} (hA : HasPart ax (axisBoxKey kind) q')
    (h' : IsQuad q' a' b' c' d') (side : con.Side) :
    Ev (positionT kind side false) [ax] [] (faceVal side a b c d a' b' c' d') := by
  have g0 : resolve [ax] k!"arg0/Frame" = .ok q :=
    (resolve_arg0 ax [] k!"Frame").trans (hF.getChild (by decide))
  have g1 : resolve [ax] (k!"arg0/" ++ axisBoxKey kind) = .ok q' :=
    (resolve_arg0 ax [] _).trans (hA.getChild (axisBoxKey_noslash kind))
  have := Ev.compound (cls := { name := positionName kind, assem := compoundAssem 0 })
    (sig := ⟨[.axes], [], 0⟩) (cp := fun _ => .ok [[]])
    (cs := [(k!"AlignOutside", facesT side)]) (vs := [faceVal side a b c d a' b' c' d'])
    (params := []) (by simp) rfl rfl (.cons hax .nil) rfl (.cons (pyMap2 g0 g1) (ev_faces h h' side) (.nil _))
  simpa [positionT] using this

theorem ev_position_twin (hax : ax.ty.IsA .axes) (hF : HasPart ax k!"Frame" q)
    (h : IsQuad q a b c d) {kind : AxisKind} (hA : HasPart ax (axisBoxKey kind) q')
    (h' : IsQuad q' a' b' c' d') {qt : Prim Flt} {at' bt ct' dt : ℝ × ℝ}
    (hT : HasPart ax (twinBoxKey kind) qt) (ht : IsQuad qt at' bt ct' dt) (side : con.Side) :
    Ev (positionT kind side true) [ax] [] (faceVal side a b c d a' b' c' d' ++
      faceVal side.opposite a b c d at' bt ct' dt) := by
  have g0 : resolve [ax] k!"arg0/Frame" = .ok q :=
    (resolve_arg0 ax [] k!"Frame").trans (hF.getChild (by decide))
  have g1 : resolve [ax] (k!"arg0/" ++ axisBoxKey kind) = .ok q' :=
    (resolve_arg0 ax [] _).trans (hA.getChild (axisBoxKey_noslash kind))
  have g2 : resolve [ax] (k!"arg0/" ++ twinBoxKey kind) = .ok qt :=
    (resolve_arg0 ax [] _).trans (hT.getChild (twinBoxKey_noslash kind))
  have := Ev.compound (cls := { name := positionName kind, assem := compoundAssem 0 })
    (sig := ⟨[.axes], [], 0⟩) (cp := fun _ => .ok [[], []])
    (cs := [(k!"AlignOutside", facesT side), (k!"TwinAlignOutside", facesT side.opposite)])
    (vs := [faceVal side a b c d a' b' c' d', faceVal side.opposite a b c d at' bt ct' dt])
    (params := []) (by simp) rfl rfl (.cons hax .nil) rfl
    (.cons (pyMap2 g0 g1) (ev_faces h h' side)
      (.cons (pyMap2 g0 g2) (ev_faces h ht side.opposite) (.nil _)))
  simpa [positionT] using this

theorem norm1_fin (v : List ℝ) :
    norm1 (v.map fin) = fin (Real.sqrt (v.map (fun x => x * x)).sum) := by
  have key : ∀ (w : List ℝ) (s : ℝ),
      ((w.map fin).map fun x => x * x).foldl (· + ·) (fin s)
        = fin (s + (w.map (fun x => x * x)).sum) := by
    intro w
    induction w with
    | nil => intro s; simp
    | cons x w ih =>
      intro s
      simp only [List.map_cons, List.foldl_cons, fin_mul, fin_add, ih, List.sum_cons]
      congr 1; ring
  have hn : 0 ≤ (v.map (fun x => x * x)).sum := by
    apply List.sum_nonneg
    intro x hx
    obtain ⟨y, _, rfl⟩ := List.mem_map.mp hx
    exact mul_self_nonneg y
  have : Arr.sumList ((v.map fin).map fun x => x * x) = fin (v.map (fun x => x * x)).sum := by
    have := key v 0
    rw [zero_add] at this
    exact this
  rw [norm1, this, fin_sqrt hn]

theorem sum_sq_zero (v : List ℝ) : (v.map (fun x => x * x)).sum = 0 ↔ ∀ x ∈ v, x = 0 := by
  induction v with
  | nil => simp
  | cons x v ih =>
    have hn : 0 ≤ (v.map (fun x => x * x)).sum := by
      apply List.sum_nonneg
      intro x hx
      obtain ⟨y, _, rfl⟩ := List.mem_map.mp hx
      exact mul_self_nonneg y
    simp only [List.map_cons, List.sum_cons, List.mem_cons, forall_eq_or_imp]
    rw [add_eq_zero_iff_of_nonneg (mul_self_nonneg x) hn, ih, mul_self_eq_zero]

/-- Distance between the sides, as computed. -/
noncomputable def faceDist (side : con.Side) (a b c d a' b' c' d' : ℝ × ℝ) : ℝ :=
  Real.sqrt ((faceVal side a b c d a' b' c' d').map (fun x => x * x)).sum

theorem faceDist_nonneg (side : con.Side) : 0 ≤ faceDist side a b c d a' b' c' d' :=
  Real.sqrt_nonneg _

theorem faceDist_zero (side : con.Side) :
    faceDist side a b c d a' b' c' d' = 0 ↔ SitsOn side a b c d a' b' c' d' := by
  rw [← faceVal_zero, ← sum_sq_zero, faceDist, Real.sqrt_eq_zero]
  apply List.sum_nonneg
  intro x hx
  obtain ⟨y, _, rfl⟩ := List.mem_map.mp hx
  exact mul_self_nonneg y

theorem argmin_spec {α : Type} (best : α × ℝ) (l : List (α × ℝ)) : ∃ m ∈ best :: l,
    argmin (best.1, fin best.2) (l.map fun x => (x.1, fin x.2)) = (m.1, fin m.2) ∧
    ∀ x ∈ best :: l, m.2 ≤ x.2 := by
  induction l generalizing best with
  | nil => exact ⟨best, by simp, rfl, by simp⟩
  | cons y l ih =>
    have hlt : PyNum.lt (fin y.2) (fin best.2) = decide (y.2 < best.2) := rfl
    simp only [List.map_cons, argmin, hlt]
    by_cases h : y.2 < best.2
    · obtain ⟨m, hm, e, hle⟩ := ih y
      refine ⟨m, List.mem_cons_of_mem _ hm, ?_, ?_⟩
      · simpa [h] using e
      · intro x hx
        rcases List.mem_cons.mp hx with rfl | hx
        · exact (hle y (by simp)).trans h.le
        · exact hle x hx
    · obtain ⟨m, hm, e, hle⟩ := ih best
      refine ⟨m, ?_, ?_, ?_⟩
      · rcases List.mem_cons.mp hm with rfl | hm <;> simp [*]
      · simpa [h] using e
      · intro x hx
        simp only [List.mem_cons] at hx
        rcases hx with rfl | rfl | hx
        · exact hle _ (by simp)
        · exact (hle best (by simp)).trans (not_lt.mp h)
        · exact hle x (by simp [hx])

/-- The candidates with their distances, in the order of the code. -/
noncomputable def faceList (a b c d a' b' c' d' : ℝ × ℝ) : List (con.Side × ℝ) :=
  [(con.Side.top, faceDist .top a b c d a' b' c' d'),
     (.left, faceDist .left a b c d a' b' c' d'), (.right, faceDist .right a b c d a' b' c' d')]

theorem findAxisPosition_argmin (h : IsQuad frame a b c d) (h' : IsQuad axis a' b' c' d')
    {m : con.Side × ℝ} (e : argmin (con.Side.bottom, fin (faceDist .bottom a b c d a' b' c' d'))
      ((faceList a b c d a' b' c' d').map fun x => (x.1, fin x.2)) = (m.1, fin m.2)) :
    findAxisPosition frame axis = .ok (m.1, !decide (m.2 ≤ 1 / 100000000)) := by
  obtain ⟨l0, l1, l2, l3, g0, g1, g2, g3, h0, h1, h2, h3⟩ := QuadAt.lines h
  obtain ⟨m0, m1, m2, m3, j0, j1, j2, j3, i0, i1, i2, i3⟩ := QuadAt.lines h'
  have ht : Param.truthy (.bool true : Param Flt) = .ok true := rfl
  have e0 := (ev_coincidentLines (h0 : IsLine _ _ _) (i2 : IsLine _ _ _) ht).returns
  have e2 := (ev_coincidentLines (h2 : IsLine _ _ _) (i0 : IsLine _ _ _) ht).returns
  have e3 := (ev_coincidentLines (h3 : IsLine _ _ _) (i1 : IsLine _ _ _) ht).returns
  have e1 := (ev_coincidentLines (h1 : IsLine _ _ _) (i3 : IsLine _ _ _) ht).returns
  have hs : (1 : Flt) / ((100000000 : Nat) : Flt) = fin (1 / 100000000) := by
    rw [one_eq, fin_natCast, fin_div (by norm_num)]; norm_num
  unfold Returns at e0 e1 e2 e3
  simp only [findAxisPosition, g0, g1, g2, g3, j0, j1, j2, j3, e0, e1, e2, e3, bind, Except.bind,
    norm1_fin, hs]
  have e' : argmin (con.Side.bottom, fin (faceDist .bottom a b c d a' b' c' d'))
    [(con.Side.top, fin (faceDist .top a b c d a' b' c' d')),
     (.left, fin (faceDist .left a b c d a' b' c' d')),
     (.right, fin (faceDist .right a b c d a' b' c' d'))] = (m.1, fin m.2) := e
  simp only [faceDist, faceVal, edge, con.Side.opposite] at e'
  simp only [if_true]
  rw [e']
  rfl

theorem argmin_first {α : Type} (best : α × ℝ) (l : List (α × ℝ)) (h : ∀ x ∈ l, best.2 ≤ x.2) :
    argmin (best.1, fin best.2) (l.map fun x => (x.1, fin x.2)) = (best.1, fin best.2) := by
  induction l with
  | nil => rfl
  | cons y l ih =>
    have hlt : PyNum.lt (fin y.2) (fin best.2) = decide (y.2 < best.2) := rfl
    have hy := not_lt.mpr (h y (by simp))
    simp only [List.map_cons, argmin, hlt, hy, decide_false, Bool.false_eq_true, if_false]
    exact ih fun x hx => h x (by simp [hx])

/-- Ties are decided in favour of the bottom. -/
theorem findAxisPosition_bottom (h : IsQuad frame a b c d) (h' : IsQuad axis a' b' c' d')
    (hs : SitsOn .bottom a b c d a' b' c' d') :
    findAxisPosition frame axis = .ok (.bottom, false) := by
  have h0 := (faceDist_zero .bottom).mpr hs
  have := findAxisPosition_argmin h h' (argmin_first (con.Side.bottom, faceDist .bottom a b c d a' b' c' d') _ (by
    intro x hx
    show faceDist .bottom a b c d a' b' c' d' ≤ x.2
    rw [h0]
    simp only [faceList, List.mem_cons, List.not_mem_nil, or_false] at hx
    rcases hx with rfl | rfl | rfl <;> exact faceDist_nonneg _))
  rw [this, h0]
  norm_num

theorem findAxisPosition_eq (h : IsQuad frame a b c d) (h' : IsQuad axis a' b' c' d') :
    ∃ m : con.Side × ℝ, findAxisPosition frame axis
      = .ok (m.1, !decide (m.2 ≤ 1 / 100000000)) ∧
      m.2 = faceDist m.1 a b c d a' b' c' d' ∧
      ∀ side, m.2 ≤ faceDist side a b c d a' b' c' d' := by
  obtain ⟨m, hm, e, hle⟩ := argmin_spec (con.Side.bottom, faceDist .bottom a b c d a' b' c' d')
    (faceList a b c d a' b' c' d')
  refine ⟨m, findAxisPosition_argmin h h' e, ?_, ?_⟩
  · simp only [faceList, List.mem_cons, List.not_mem_nil, or_false] at hm
    rcases hm with rfl | rfl | rfl | rfl <;> rfl
  · intro side
    simp only [faceList, List.mem_cons, List.not_mem_nil, or_false, forall_eq_or_imp, forall_eq] at hle
    obtain ⟨k0, k1, k2, k3⟩ := hle
    cases side
    · exact k0
    · exact k1
    · exact k2
    · exact k3

end MplLayout

namespace MplLayout

open Flt

/-! ## `update_subplots` -/

theorem mem_pyMap_flatten {α β : Type} {f : α → Py (List β)} {xs : List α} {yss : List (List β)}
    (h : pyMap f xs = .ok yss) (y : β) :
    y ∈ yss.flatten ↔ ∃ x ∈ xs, ∃ ys, f x = .ok ys ∧ y ∈ ys := by
  induction xs generalizing yss with
  | nil => simp only [pyMap, Except.ok.injEq] at h; subst h; simp
  | cons x xs ih =>
    simp only [pyMap, bind, Except.bind] at h
    cases hx : f x with
    | error e => simp [hx] at h
    | ok ys =>
      cases hr : pyMap f xs with
      | error e => simp [hx, hr] at h
      | ok rest =>
        simp only [hx, hr, Except.ok.injEq] at h
        subst h
        simp only [List.flatten_cons, List.mem_append, ih hr, List.mem_cons, exists_eq_or_imp, hx,
          Except.ok.injEq, exists_eq_left']

theorem pyMap_total {α β : Type} {f : α → Py β} {xs : List α} (h : ∀ x ∈ xs, ∃ y, f x = .ok y) :
    ∃ ys, pyMap f xs = .ok ys := by
  induction xs with
  | nil => exact ⟨[], rfl⟩
  | cons x xs ih =>
    obtain ⟨y, hy⟩ := h x (by simp)
    obtain ⟨ys, hys⟩ := ih fun x hx => h x (by simp [hx])
    exact ⟨y :: ys, by simp [pyMap, hy, hys, bind, Except.bind]⟩

variable {root q frame : Prim Flt} {a b c d o : ℝ × ℝ}

theorem QuadAt.corners {K : Type} {q : Prim K} {a b c d : K × K} (h : QuadAt q a b c d) :
    ∃ p p', q.getChild k!"Line0/Point0" = .ok p ∧ p.value.arr = [a.1, a.2] ∧
      q.getChild k!"Line1/Point1" = .ok p' ∧ p'.value.arr = [c.1, c.2] := by
  obtain ⟨l0, l1, l2, l3, g0, g1, g2, g3, h0, h1, h2, h3⟩ := QuadAt.lines h
  obtain ⟨p0, p1, k0, k1, hp0, hp1⟩ := LineAt.points h0
  obtain ⟨q0, q1, m0, m1, hq0, hq1⟩ := LineAt.points h1
  refine ⟨p0, q1, ?_, hp0.2, ?_, hq1.2⟩
  · have : k!"Line0/Point0" = k!"Line0" ++ '/' :: k!"Point0" := rfl
    rw [this, Node.getChild_ok_iff, splitAll_append_slash, Node.find_append,
      (Node.getChild_ok_iff.mp g0)]
    exact Node.getChild_ok_iff.mp k0
  · have : k!"Line1/Point1" = k!"Line1" ++ '/' :: k!"Point1" := rfl
    rw [this, Node.getChild_ok_iff, splitAll_append_slash, Node.find_append,
      (Node.getChild_ok_iff.mp g1)]
    exact Node.getChild_ok_iff.mp m1

theorem widthAndHeight_eq (h : IsQuad q a b c d) :
    widthAndHeight q = .ok (fin (c.1 - a.1), fin (c.2 - a.2)) := by
  obtain ⟨p, p', g, hp, g', hp'⟩ := QuadAt.corners h
  simp only [widthAndHeight, g, g', hp, hp', unpack2, bind, Except.bind]
  rfl

theorem rectFromBox_eq (h : IsQuad q a b c d) {w e : ℝ} (hw : w ≠ 0) (he : e ≠ 0) :
    rectFromBox q (.vec [fin o.1, fin o.2]) (.vec [fin w, fin e]) = .ok
      (fin ((a.1 - o.1) / w), fin ((a.2 - o.2) / e), fin ((c.1 - o.1) / w - (a.1 - o.1) / w),
        fin ((c.2 - o.2) / e - (a.2 - o.2) / e)) := by
  obtain ⟨p, p', g, hp, g', hp'⟩ := QuadAt.corners h
  have s1 : ∀ u : ℝ × ℝ, Arr.sub (.vec [fin u.1, fin u.2]) (.vec [fin o.1, fin o.2])
      = .ok (.vec [fin (u.1 - o.1), fin (u.2 - o.2)]) := fun u => rfl
  have s2 : ∀ u : ℝ × ℝ, Arr.div (.vec [fin u.1, fin u.2]) (.vec [fin w, fin e])
      = .ok (.vec [fin (u.1 / w), fin (u.2 / e)]) := by
    intro u
    show Except.ok (Arr.vec [fin u.1 / fin w, fin u.2 / fin e]) = _
    rw [fin_div hw, fin_div he]
  simp only [rectFromBox, g, g', hp, hp', up, s1, s2 (a.1 - o.1, a.2 - o.2),
    s2 (c.1 - o.1, c.2 - o.2), unpack2, bind, Except.bind, fin_sub]

theorem getChild_slash {K : Type} {n m c : Prim K} {key k : Str} (h : n.getChild key = .ok m)
    (h' : m.getChild k = .ok c) : n.getChild (key ++ '/' :: k) = .ok c := by
  rw [Node.getChild_ok_iff, splitAll_append_slash, Node.find_append, Node.getChild_ok_iff.mp h]
  exact Node.getChild_ok_iff.mp h'

theorem keyLabel (kind : AxisKind) : kind.pre ++ k!"AxisLabel" = axisLabelKey kind false := by
  cases kind <;> rfl
theorem keyBox (kind : AxisKind) : kind.pre ++ k!"Axis" = axisBoxKey kind := by
  cases kind <;> rfl

theorem HasPart.mem {K : Type} {n c : Prim K} {k : Str} (h : HasPart n k c) : k ∈ n.keys :=
  List.mem_map.mpr ⟨(k, c), h.2, rfl⟩

theorem HasPart.unique {K : Type} {n c c' : Prim K} {k : Str} (h : HasPart n k c)
    (h' : HasPart n k c') : c = c' := by
  have h1 := dictGet_of_mem (β := Prim K) h.1 h.2
  have h2 := dictGet_of_mem (β := Prim K) h'.1 h'.2
  exact Option.some.inj (h1.symm.trans h2)

/-- What one axis of an axes contributes. -/
theorem updateAxis_spec {ax : Prim Flt} {key : Str} (hax : root.getChild key = .ok ax)
    (hfr : IsQuad frame a b c d) (kind : AxisKind)
    (hbox : axisBoxKey kind ∈ ax.keys → ∃ q a' b' c' d', HasPart ax (axisBoxKey kind) q ∧
        IsQuad q a' b' c' d')
    (hlab : axisLabelKey kind false ∈ ax.keys → ∃ p l, HasPart ax (axisLabelKey kind false) p ∧
        IsPoint p l) {w e : ℝ} (hw : w ≠ 0) (he : e ≠ 0) (i : Nat) :
    ∃ cs, updateAxis root (.vec [fin w, fin e]) key i frame kind = .ok cs ∧
      ∀ x, x ∈ cs ↔
        (∃ p l, HasPart ax (axisLabelKey kind false) p ∧ IsPoint p l ∧
          x = .setLabelCoords i kind (fin (l.1 / w)) (fin (l.2 / e))) ∨
        (∃ q side warn, HasPart ax (axisBoxKey kind) q ∧
          findAxisPosition frame q = .ok (side, warn) ∧ x = .setTicksPosition i kind side) := by
  have cl := Node.contains_noslash ax (axisLabelKey_noslash kind false)
  have cb := Node.contains_noslash ax (axisBoxKey_noslash kind)
  have hL : ∃ ls, labelCalls root ax (.vec [fin w, fin e]) key i kind = .ok ls ∧
      ∀ x, x ∈ ls ↔ ∃ p l, HasPart ax (axisLabelKey kind false) p ∧ IsPoint p l ∧
          x = .setLabelCoords i kind (fin (l.1 / w)) (fin (l.2 / e)) := by
    by_cases hm : axisLabelKey kind false ∈ ax.keys
    · obtain ⟨p, l, hp, hl⟩ := hlab hm
      have g := getChild_slash hax (hp.getChild (axisLabelKey_noslash kind false))
      have g' : root.getChild (key ++ k!"/" ++ axisLabelKey kind false) = .ok p := by
        rw [List.append_assoc]; exact g
      have s2 : Arr.div (.vec p.value.arr) (.vec [fin w, fin e])
          = .ok (.vec [fin (l.1 / w), fin (l.2 / e)]) := by
        rw [hl.2]
        show Except.ok (Arr.vec [fin l.1 / fin w, fin l.2 / fin e]) = _
        rw [fin_div hw, fin_div he]
      refine ⟨[.setLabelCoords i kind (fin (l.1 / w)) (fin (l.2 / e))], ?_, ?_⟩
      · simp only [labelCalls, keyLabel, cl, hm, decide_true, if_true, g', s2, unpack2, bind,
          Except.bind]
      · intro x
        simp only [List.mem_singleton]
        constructor
        · rintro rfl; exact ⟨p, l, hp, hl, rfl⟩
        · rintro ⟨p', l', hp', hl', rfl⟩
          have := hp.unique hp'
          subst this
          have := hl.2.symm.trans hl'.2
          simp only [up, List.cons.injEq, fin.injEq, and_true] at this
          rw [this.1, this.2]
    · refine ⟨[], by simp [labelCalls, keyLabel, cl, hm, bind, Except.bind], fun x => ?_⟩
      simp only [List.not_mem_nil, false_iff]
      rintro ⟨p, l, hp, _⟩
      exact hm hp.mem
  have hB : ∃ ls, tickCalls root ax key i frame kind = .ok ls ∧
      ∀ x, x ∈ ls ↔ ∃ q side warn, HasPart ax (axisBoxKey kind) q ∧
          findAxisPosition frame q = .ok (side, warn) ∧ x = .setTicksPosition i kind side := by
    by_cases hm : axisBoxKey kind ∈ ax.keys
    · obtain ⟨q, a', b', c', d', hq, hq'⟩ := hbox hm
      have g := getChild_slash hax (hq.getChild (axisBoxKey_noslash kind))
      have g' : root.getChild (key ++ k!"/" ++ axisBoxKey kind) = .ok q := by
        rw [List.append_assoc]; exact g
      obtain ⟨m, hm', -, -⟩ := findAxisPosition_eq hfr hq'
      refine ⟨[.setTicksPosition i kind m.1], ?_, ?_⟩
      · simp only [tickCalls, keyBox, cb, hm, decide_true, if_true, g', hm', bind, Except.bind]
      · intro x
        simp only [List.mem_singleton]
        constructor
        · rintro rfl; exact ⟨q, _, _, hq, hm', rfl⟩
        · rintro ⟨q', s, wn, hq'', hs, rfl⟩
          have := hq.unique hq''
          subst this
          rw [hm'] at hs
          cases hs
          rfl
    · refine ⟨[], by simp [tickCalls, keyBox, cb, hm, bind, Except.bind], fun x => ?_⟩
      simp only [List.not_mem_nil, false_iff]
      rintro ⟨q, _, _, hq, _⟩
      exact hm hq.mem
  obtain ⟨ls, hls, hls'⟩ := hL
  obtain ⟨bs, hbs, hbs'⟩ := hB
  refine ⟨ls ++ bs, ?_, fun x => by rw [List.mem_append, hls', hbs']⟩
  simp only [updateAxis, hax, hls, hbs, bind, Except.bind]

/-- What one axes contributes. -/
theorem updateAxes_spec {key : Str} {ax : Prim Flt} (hax : root.getChild key = .ok ax)
    (hF : HasPart ax k!"Frame" frame) (hfr : IsQuad frame a b c d)
    (hk : ∀ kind, (axisBoxKey kind ∈ ax.keys → ∃ q a' b' c' d', HasPart ax (axisBoxKey kind) q ∧
        IsQuad q a' b' c' d') ∧
      (axisLabelKey kind false ∈ ax.keys → ∃ p l, HasPart ax (axisLabelKey kind false) p ∧
        IsPoint p l)) {w e : ℝ} (hw : w ≠ 0) (he : e ≠ 0) (i : Nat) :
    ∃ cs, updateAxes root (.vec [fin o.1, fin o.2]) (.vec [fin w, fin e]) (key, i) = .ok cs ∧
      ∀ x, x ∈ cs ↔
        x = .setPosition i (fin ((a.1 - o.1) / w), fin ((a.2 - o.2) / e),
          fin ((c.1 - o.1) / w - (a.1 - o.1) / w), fin ((c.2 - o.2) / e - (a.2 - o.2) / e)) ∨
        ∃ kind, (∃ p l, HasPart ax (axisLabelKey kind false) p ∧ IsPoint p l ∧
          x = .setLabelCoords i kind (fin (l.1 / w)) (fin (l.2 / e))) ∨
        (∃ q side warn, HasPart ax (axisBoxKey kind) q ∧
          findAxisPosition frame q = .ok (side, warn) ∧ x = .setTicksPosition i kind side) := by
  obtain ⟨xs, hx, hx'⟩ := updateAxis_spec hax hfr .x (hk .x).1 (hk .x).2 hw he i
  obtain ⟨ys, hy, hy'⟩ := updateAxis_spec hax hfr .y (hk .y).1 (hk .y).2 hw he i
  have g : root.getChild (key ++ k!"/Frame") = .ok frame :=
    getChild_slash hax (hF.getChild (by decide))
  refine ⟨_, by simp only [updateAxes, g, rectFromBox_eq hfr hw he, hx, hy, bind, Except.bind]; rfl,
    fun x => ?_⟩
  rw [List.mem_cons, List.mem_append, hx', hy']
  apply or_congr Iff.rfl
  constructor
  · rintro (h | h)
    · exact ⟨.x, h⟩
    · exact ⟨.y, h⟩
  · rintro ⟨(_ | _), h⟩
    · exact .inl h
    · exact .inr h


/-- What axes number `i` with the given key contributes to a figure with origin `o` and size `w` × `e`. -/
def AxesCall (root : Prim Flt) (o : ℝ × ℝ) (w e : ℝ) (key : Str) (i : Nat) (x : DrawCall Flt) : Prop :=
  ∃ ax frame a b c d, root.getChild key = .ok ax ∧ HasPart ax k!"Frame" frame ∧
    IsQuad frame a b c d ∧
    (x = .setPosition i (fin ((a.1 - o.1) / w), fin ((a.2 - o.2) / e),
          fin ((c.1 - o.1) / w - (a.1 - o.1) / w), fin ((c.2 - o.2) / e - (a.2 - o.2) / e)) ∨
        ∃ kind, (∃ p l, HasPart ax (axisLabelKey kind false) p ∧ IsPoint p l ∧
          x = .setLabelCoords i kind (fin (l.1 / w)) (fin (l.2 / e))) ∨
        (∃ q side warn, HasPart ax (axisBoxKey kind) q ∧
          findAxisPosition frame q = .ok (side, warn) ∧ x = .setTicksPosition i kind side))

theorem IsPoint.inj {p : Prim Flt} {a b : ℝ × ℝ} (h : IsPoint p a) (h' : IsPoint p b) : a = b := by
  have := h.2.symm.trans h'.2
  simp only [up, List.cons.injEq, fin.injEq, and_true] at this
  exact Prod.ext this.1 this.2

theorem IsLine.inj {l : Prim Flt} {a b a' b' : ℝ × ℝ} (h : IsLine l a b) (h' : IsLine l a' b') :
    a = a' ∧ b = b' := by
  obtain ⟨_, p, q, hc, hp, hq⟩ := h
  obtain ⟨_, p', q', hc', hp', hq'⟩ := h'
  rw [hc] at hc'
  simp only [List.cons.injEq, Prod.mk.injEq, true_and, and_true] at hc'
  obtain ⟨rfl, rfl⟩ := hc'
  exact ⟨IsPoint.inj hp hp', IsPoint.inj hq hq'⟩

theorem IsQuad.inj {q : Prim Flt} {a b c d a' b' c' d' : ℝ × ℝ} (h : IsQuad q a b c d)
    (h' : IsQuad q a' b' c' d') : a = a' ∧ b = b' ∧ c = c' ∧ d = d' := by
  obtain ⟨_, l0, l1, l2, l3, hc, h0, h1, h2, h3⟩ := h
  obtain ⟨_, m0, m1, m2, m3, hc', i0, i1, i2, i3⟩ := h'
  rw [hc] at hc'
  simp only [List.cons.injEq, Prod.mk.injEq, true_and, and_true] at hc'
  obtain ⟨rfl, rfl, rfl, rfl⟩ := hc'
  exact ⟨(IsLine.inj h0 i0).1, (IsLine.inj h0 i0).2, (IsLine.inj h2 i2).1, (IsLine.inj h2 i2).2⟩

theorem updateSubplots_spec {figKey : Str} {fq : Prim Flt} {A B C D : ℝ × ℝ}
    (hf : root.getChild figKey = .ok fq) (hq : IsQuad fq A B C D) (hw : C.1 ≠ A.1)
    (he : C.2 ≠ A.2) {axs : List (Str × Nat)}
    (hax : ∀ kv ∈ axs, ∃ a b c d, AxesShape root kv.1 a b c d) :
    ∃ rest, updateSubplots root figKey axs
      = .ok (.setSize (fin (C.1 - A.1)) (fin (C.2 - A.2)) :: rest) ∧
      ∀ x, x ∈ rest ↔ ∃ kv ∈ axs, AxesCall root A (C.1 - A.1) (C.2 - A.2) kv.1 kv.2 x := by
  have hw' := sub_ne_zero.mpr hw
  have he' := sub_ne_zero.mpr he
  obtain ⟨p, p', g, hp, g', hp'⟩ := QuadAt.corners hq
  have key : ∀ kv ∈ axs, ∃ cs, updateAxes root (.vec [fin A.1, fin A.2])
      (.vec [fin (C.1 - A.1), fin (C.2 - A.2)]) kv = .ok cs ∧
      ∀ x, x ∈ cs ↔ AxesCall root A (C.1 - A.1) (C.2 - A.2) kv.1 kv.2 x := by
    intro kv hkv
    obtain ⟨a, b, c, d, ax, frame, h1, h2, h3, h4⟩ := hax kv hkv
    obtain ⟨cs, hcs, hcs'⟩ := updateAxes_spec (o := A) h1 h2 h3 h4 hw' he' kv.2
    refine ⟨cs, hcs, fun x => ?_⟩
    rw [hcs']
    constructor
    · intro h; exact ⟨ax, frame, a, b, c, d, h1, h2, h3, h⟩
    · rintro ⟨ax', frame', a', b', c', d', g1, g2, g3, h⟩
      rw [h1] at g1
      cases g1
      have := h2.unique g2
      subst this
      obtain ⟨rfl, rfl, rfl, rfl⟩ := IsQuad.inj h3 g3
      exact h
  obtain ⟨css, hcss⟩ := pyMap_total (f := updateAxes root (.vec [fin A.1, fin A.2])
      (.vec [fin (C.1 - A.1), fin (C.2 - A.2)])) (xs := axs)
    fun kv hkv => (key kv hkv).imp fun _ h => h.1
  refine ⟨css.flatten, ?_, fun x => ?_⟩
  · simp only [updateSubplots, hf, g, widthAndHeight_eq hq, hp, up, hcss, bind, Except.bind]
  · rw [mem_pyMap_flatten hcss]
    constructor
    · rintro ⟨kv, hkv, ys, hys, hx⟩
      obtain ⟨cs, hcs, hcs'⟩ := key kv hkv
      rw [hcs] at hys
      cases hys
      exact ⟨kv, hkv, (hcs' x).mp hx⟩
    · rintro ⟨kv, hkv, hx⟩
      obtain ⟨cs, hcs, hcs'⟩ := key kv hkv
      exact ⟨kv, hkv, cs, hcs, (hcs' x).mpr hx⟩

/-! ## Axis labels -/

/-- The frame line along which the label of an axis is placed. -/
def labelLine (kind : AxisKind) : Str := match kind with | .x => k!"Line0" | .y => k!"Line1"
/-- Class names. -/
def labelName (kind : AxisKind) : Str :=
  match kind with | .x => k!"PositionXAxisLabel" | .y => k!"PositionYAxisLabel"

/-- The tree of `PositionXAxisLabel(twin)` / `PositionYAxisLabel(twin)`. -/
noncomputable def labelT (kind : AxisKind) (twin : Bool) : Cons Flt :=
  .mk { name := labelName kind, assem := compoundAssem 1 }
    ⟨[[k!"arg0/" ++ axisLabelKey kind twin, k!"arg0/Frame/" ++ labelLine kind]], ct.labelParams,
      ⟨[.axes], [.float], 0⟩⟩
    [(k!"RelativePointOnLineDistance", cstr con.relativePointOnLineDistance)]

theorem label_eq (kind : AxisKind) (twin : Bool) :
    (ct.positionAxisLabel kind twin : Py (Cons Flt)) = .ok (labelT kind twin) := by
  simp only [ct.positionAxisLabel, ct_relativePointOnLineDistance_eq, bind, Except.bind]
  cases kind <;> cases twin <;> rfl

/-- The tree of `XAxisThickness()` / `YAxisThickness()`. -/
noncomputable def thicknessT (kind : AxisKind) : Cons Flt :=
  match kind with
  | .x => .mk { name := k!"XAxisThickness", axisKind := some .x, assem := compoundAssem 1 }
      ⟨[[k!"arg0/Line1"]], ct.axisThicknessParams, ⟨[.quadrilateral], [.xAxis], 0⟩⟩
      [(k!"Height", cstr con.yLength)]
  | .y => .mk { name := k!"YAxisThickness", axisKind := some .y, assem := compoundAssem 1 }
      ⟨[[k!"arg0/Line0"]], ct.axisThicknessParams, ⟨[.quadrilateral], [.yAxis], 0⟩⟩
      [(k!"Height", cstr con.xLength)]

theorem thickness_eq (kind : AxisKind) :
    (ct.axisThickness kind : Py (Cons Flt)) = .ok (thicknessT kind) := by
  cases kind
  · simp only [ct.axisThickness, ct_yLength_eq, bind, Except.bind]; rfl
  · simp only [ct.axisThickness, ct_xLength_eq, bind, Except.bind]; rfl

end MplLayout
