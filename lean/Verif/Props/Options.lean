import Verif.Spec.Options
import Verif.Spec.Figure
import Verif.Lemmas.Constructions
import Verif.Props.LayoutUpdate

/-!
# C95: constructor options
-/

namespace MplLayout.Props

open MplLayout

theorem Cons.as_same (c : Cons Flt) (cls : ConsClass Flt) (h : cls.assem = c.ty.assem) :
    (c.as cls).SameAs c := by
  cases c with
  | mk t v cs =>
    have h1 : ∀ key, (Node.mk cls v cs : Cons Flt).iterFlat key =
        (key, Node.mk cls v cs) :: (((Node.mk t v cs : Cons Flt).iterFlat key).drop 1) := by
      intro key
      simp [Node.iterFlat]
    have h2 : ∀ key, (Node.mk t v cs : Cons Flt).iterFlat key =
        (key, Node.mk t v cs) :: (((Node.mk t v cs : Cons Flt).iterFlat key).drop 1) := by
      intro key
      simp [Node.iterFlat]
    have hres : ∀ (as : List (Cons Flt)) pss qss,
        Cons.residuals (Node.mk cls v cs :: as) pss qss = Cons.residuals (Node.mk t v cs :: as) pss qss := by
      intro as pss qss
      cases pss with
      | nil => rfl
      | cons p pss =>
        cases qss with
        | nil => rfl
        | cons q qss =>
          simp only [Cons.residuals, Cons.assemAtleast1d, Node.ty_mk]
          rw [h]
          rfl
    have hk : ∀ keys, Cons.rootPrimKeys (Cons.as (.mk t v cs) cls) keys =
        Cons.rootPrimKeys (.mk t v cs) keys := fun keys => by
      simp only [Cons.as, Node.value_mk, Node.children_mk, Cons.rootPrimKeys]
    have hp : ∀ params, Cons.rootParams (Cons.as (.mk t v cs) cls) params =
        Cons.rootParams (.mk t v cs) params := fun keys => by
      simp only [Cons.as, Node.value_mk, Node.children_mk, Cons.rootParams]
    refine ⟨rfl, fun prims params => ?_, hk, hp⟩
    have hf : ∀ root keys ps, Cons.assemFromTree (Cons.as (.mk t v cs) cls) root keys ps =
        Cons.assemFromTree (.mk t v cs) root keys ps := by
      intro root keys ps
      simp only [Cons.assemFromTree, Cons.as, Node.value_mk, Node.children_mk]
      rw [h1, h2]
      simp only [List.map_cons]
      congr 1
      funext pss
      rw [hres]
      rfl
    simp only [Cons.call, hk, hp, hf]
    simp only [Cons.validatePrims, Cons.validateParams, Cons.as, Node.value_mk]
    rfl

theorem side_spec (s : Str) : (∀ d, s = sideName d → opt.side s = .ok d) ∧
    ((∀ d, s ≠ sideName d) → opt.side s = .error .valueError) := by
  refine ⟨?_, fun h => ?_⟩
  · rintro d rfl
    cases d <;> decide
  · unfold opt.side
    rw [if_neg (show s ≠ k!"left" from h .left), if_neg (show s ≠ k!"right" from h .right),
      if_neg (show s ≠ k!"bottom" from h .bottom), if_neg (show s ≠ k!"top" from h .top)]

/-- C95: margins, outward faces, dimensions and axis labels accept exactly the documented names, for
which they make the constraints whose meaning is stated elsewhere (C34, C35, C43, C44); any other
string is refused with a `ValueError`. -/
theorem C95_names (outer : Bool) (twin : Bool) :
    Accepts (K := Flt) (opt.marginConstraint outer) sideName (fun d c => ct.margin outer d = .ok c) ∧
    Accepts (K := Flt) (opt.margin outer) sideName
      (fun d c => ∃ c', con.margin outer d = .ok c' ∧ c.SameAs c') ∧
    Accepts (K := Flt) opt.coincidentOutwardFaces sideName
      (fun d c => ct.coincidentOutwardFaces d = .ok c) ∧
    Accepts (K := Flt) opt.rectangleDim (fun w : Bool => if w then k!"width" else k!"height")
      (fun w c => ∃ c' : Cons Flt, (if w then con.width else con.height) = .ok c' ∧ c.SameAs c') ∧
    Accepts (K := Flt) (opt.positionAxisLabel · twin) axisName
      (fun a c => ∃ c', ct.positionAxisLabel a twin = .ok c' ∧ c.SameAs c') := by
  have hs := fun s => (side_spec s).1
  refine ⟨⟨fun d => ?_, fun s h => ?_⟩, ⟨fun d => ?_, fun s h => ?_⟩, ⟨fun d => ?_, fun s h => ?_⟩,
    ⟨fun w => ?_, fun s h => ?_⟩, ⟨fun a => ?_, fun s h => ?_⟩⟩
  · have e : opt.marginConstraint (K := Flt) outer (sideName d) = ct.margin outer d := by
      simp only [opt.marginConstraint, hs _ d rfl, ct.margin, bind, Except.bind]
    exact ⟨_, e.trans (ct_margin_eq _ _), ct_margin_eq _ _⟩
  · simp only [opt.marginConstraint, (side_spec s).2 h, bind, Except.bind]
  · obtain ⟨c, hc⟩ : ∃ c : Cons Flt, con.margin outer d = .ok c := ⟨_, margin_eq _ _⟩
    refine ⟨c.as { c.ty with name := k!"Margin" }, ?_, c, hc, Cons.as_same _ _ rfl⟩
    simp only [opt.margin, hs _ d rfl, bind, Except.bind, hc]
  · simp only [opt.margin, (side_spec s).2 h, bind, Except.bind]
  · obtain ⟨c, hc⟩ : ∃ c : Cons Flt, ct.coincidentOutwardFaces d = .ok c := ⟨_, faces_eq _⟩
    refine ⟨c, ?_, hc⟩
    simp only [opt.coincidentOutwardFaces, hs _ d rfl, bind, Except.bind, hc]
  · simp only [opt.coincidentOutwardFaces, (side_spec s).2 h, bind, Except.bind]
  · cases w with
    | true =>
      obtain ⟨c, hc⟩ : ∃ c : Cons Flt, con.width = .ok c := ⟨_, width_eq⟩
      refine ⟨c.as { c.ty with name := k!"RectangleDim" }, ?_, c, hc, Cons.as_same _ _ rfl⟩
      simp only [opt.rectangleDim, if_true, hc, bind, Except.bind]
    | false =>
      obtain ⟨c, hc⟩ : ∃ c : Cons Flt, con.height = .ok c := ⟨_, height_eq⟩
      refine ⟨c.as { c.ty with name := k!"RectangleDim" }, ?_, c, hc, Cons.as_same _ _ rfl⟩
      rw [opt.rectangleDim, if_neg (by decide), if_pos (by decide), hc]
      rfl
  · rw [opt.rectangleDim, if_neg (by simpa using h true), if_neg (by simpa using h false)]
    rfl
  · obtain ⟨c, hc⟩ : ∃ c : Cons Flt, ct.positionAxisLabel a twin = .ok c := ⟨_, label_eq _ _⟩
    refine ⟨c.as { c.ty with name := k!"PositionAxisLabel" }, ?_, c, hc, Cons.as_same _ _ rfl⟩
    cases a with
    | x =>
      show opt.positionAxisLabel k!"x" twin = _
      simp only [opt.positionAxisLabel, if_true, bind, Except.bind, hc]
    | y =>
      show opt.positionAxisLabel k!"y" twin = _
      rw [opt.positionAxisLabel.eq_def, if_neg (by decide), if_pos rfl]
      simp only [bind, Except.bind, hc]
  · show opt.positionAxisLabel s twin = _
    rw [opt.positionAxisLabel.eq_def, if_neg (show s ≠ k!"x" from h .x),
      if_neg (show s ≠ k!"y" from h .y)]
    rfl

/-- C95: `opposite_side` exchanges the opposite sides, under both kinds of names, and refuses all other
strings. -/
theorem C95_opposite :
    (∀ d, opt.oppositeSide (sideName d) = .ok (sideName d.opposite)) ∧
    (∀ d, opt.oppositeSide (lineOf d) = .ok (lineOf d.opposite)) ∧
    (∀ s t, opt.oppositeSide s = .ok t → opt.oppositeSide t = .ok s ∧ s ≠ t) ∧
    (∀ s, (∀ d, s ≠ sideName d) → (∀ d, s ≠ lineOf d) → opt.oppositeSide s = .error .valueError) := by
  refine ⟨by intro d; cases d <;> decide, by intro d; cases d <;> decide, ?_, ?_⟩
  · intro s t h
    unfold opt.oppositeSide at h
    split_ifs at h <;> cases h <;> subst_vars <;> decide
  · intro s h h'
    unfold opt.oppositeSide
    rw [if_neg (show s ≠ k!"bottom" from h .bottom), if_neg (show s ≠ k!"top" from h .top),
      if_neg (show s ≠ k!"left" from h .left), if_neg (show s ≠ k!"right" from h .right),
      if_neg (show s ≠ k!"Line0" from h' .bottom), if_neg (show s ≠ k!"Line2" from h' .top),
      if_neg (show s ≠ k!"Line1" from h' .right), if_neg (show s ≠ k!"Line3" from h' .left)]

/-- C95: grids accept a tuple of two numbers (and make the grids of C37, C38); a number, the default
shape and tuples of any other length are refused with a `ValueError`; a list, unless the grid is
empty, with a `TypeError`. -/
theorem C95_shapes :
    (∀ r c, opt.rectilinearGrid (K := Flt) (.tuple [r, c]) = ct.rectilinearGrid r c) ∧
    (∀ r c, opt.grid (K := Flt) (.tuple [r, c]) = ct.grid r c) ∧
    (∀ r c, ∃ g : Cons Flt, ct.grid r c = .ok g) ∧
    (∀ n, opt.grid (K := Flt) (.int n) = .error .valueError ∧
      opt.rectilinearGrid (K := Flt) (.int n) = .error .valueError) ∧
    (∀ ns, ns.length ≠ 2 → opt.grid (K := Flt) (.tuple ns) = .error .valueError ∧
      opt.rectilinearGrid (K := Flt) (.tuple ns) = .error .valueError) ∧
    (∀ r c, 0 < r → 0 < c → opt.grid (K := Flt) (.list [r, c]) = .error .typeError ∧
      opt.rectilinearGrid (K := Flt) (.list [r, c]) = .error .typeError) := by
  refine ⟨fun r c => rfl, fun r c => ?_, fun r c => ⟨_, grid_eq (ct_margin_eq true .right)
    (ct_margin_eq true .bottom) _ _⟩, fun n => ⟨rfl, rfl⟩, fun ns hn => ?_, fun r c hr hc => ?_⟩
  · have h1 : opt.rectilinearGrid (K := Flt) (.tuple [r, c]) = .ok (rectGridT r c) :=
      rectilinearGrid_eq r c
    simp only [opt.grid, opt.arrayShape, opt.unpack2, bind, Except.bind, h1, opt.strides]
  · match ns, hn with
    | [], _ => exact ⟨rfl, rfl⟩
    | [a], _ => exact ⟨rfl, rfl⟩
    | [a, b], h => exact absurd rfl h
    | a :: b :: c :: ns, _ => exact ⟨rfl, rfl⟩
  · have : opt.rectilinearGrid (K := Flt) (.list [r, c]) = .error .typeError := by
      simp only [opt.rectilinearGrid, opt.arrayShape, opt.unpack2, bind, Except.bind, opt.strides,
        hr, hc, and_self, decide_true, if_true]
    refine ⟨?_, this⟩
    simp only [opt.grid, opt.arrayShape, opt.unpack2, bind, Except.bind, this]

theorem pyMap_const_ok {α β : Type} {x : β} (as : List α) :
    pyMap (fun _ => (.ok x : Py β)) as = .ok (List.replicate as.length x) := by
  induction as with
  | nil => rfl
  | cons a as ih => simp only [pyMap, ih, bind, Except.bind, List.length_cons, List.replicate_succ]

/-- C95: `OuterMarginArray((n,), side)` with at least two quadrilaterals accepts exactly the side
names, and makes the array of C38. -/
theorem C95_marginArray_partial (n : Nat) (hn : 2 ≤ n) :
    Accepts (K := Flt) (opt.outerMarginArray (.tuple [n])) sideName
      (fun d c => ct.outerMarginArray n d = .ok c) := by
  refine ⟨fun d => ?_, fun s h => ?_⟩
  · have e : opt.marginConstraint (K := Flt) true (sideName d) = .ok (cstr (marginT true d)) := by
      simp only [opt.marginConstraint, (side_spec _).1 d rfl, bind, Except.bind]
      exact ct_margin_eq true d
    refine ⟨_, ?_, outerMarginArray_eq (ct_margin_eq true d) n⟩
    rw [← outerMarginArray_eq (ct_margin_eq true d) n]
    simp only [opt.outerMarginArray, opt.unpack1, e, pyMap_const_ok, bind, Except.bind,
      ct.outerMarginArray, ct_margin_eq, List.length_range]
  · obtain ⟨m, rfl⟩ : ∃ m, n = m + 2 := ⟨n - 2, by omega⟩
    have e : opt.marginConstraint (K := Flt) true s = .error .valueError := by
      simp only [opt.marginConstraint, (side_spec s).2 h, bind, Except.bind]
    have : List.range (m + 2 - 1) = 0 :: (List.range m).map Nat.succ := by
      rw [show m + 2 - 1 = m + 1 from rfl, List.range_succ_eq_map]
    simp only [opt.outerMarginArray, opt.unpack1, this, e, pyMap, bind, Except.bind]

/-- C95 fails for `OuterMarginArray`: with at most one quadrilateral any string is taken as a side,
and the documented integer shape is refused. -/
theorem C95_marginArray_counterexample :
    (∀ n s, n ≤ 1 → ∃ c : Cons Flt, opt.outerMarginArray (.tuple [n]) s = .ok c) ∧
    (∀ n s, opt.outerMarginArray (K := Flt) (.int n) s = .error .typeError) := by
  refine ⟨fun n s hn => ?_, fun n s => rfl⟩
  interval_cases n <;> exact ⟨_, rfl⟩

/-- C95: `PositionAxis(axis, side, twin)` with a documented axis accepts exactly the side names (all
four, for either axis), and does what `PositionXAxis` and `PositionYAxis` do (C43). -/
theorem C95_positionAxis_partial (a : AxisKind) (twin : Bool) :
    Accepts (K := Flt) (opt.positionAxis (axisName a) · twin) sideName
      (fun d c => ∃ c', ct.positionAxis a d twin = .ok c' ∧ c.SameAs c') := by
  refine ⟨fun d => ?_, fun s h => ?_⟩
  · refine ⟨(positionT a d twin).as { (positionT a d twin).ty with name := k!"PositionAxis" }, ?_, _,
      position_eq a d twin, Cons.as_same _ _ rfl⟩
    cases a <;> cases d <;> cases twin <;> rfl
  · simp only [opt.positionAxis, opt.coincidentOutwardFaces, (side_spec s).2 h, bind, Except.bind]

/-- C95: `AxisThickness` of a documented axis does what `XAxisThickness` and `YAxisThickness` do. -/
theorem C95_thickness_partial (a : AxisKind) :
    ∃ c c' : Cons Flt, opt.axisThickness (axisName a) = .ok c ∧ ct.axisThickness a = .ok c' ∧
      c.SameAs c' := by
  refine ⟨(thicknessT a).as { (thicknessT a).ty with name := k!"AxisThickness", axisKind := none },
    _, ?_, thickness_eq a, Cons.as_same _ _ rfl⟩
  cases a <;> rfl

/-- C95 fails for `AxisThickness`: every string but `'x'`, also `'X'`, is taken for `'y'`. -/
theorem C95_thickness_counterexample (s : Str) (h : s ≠ k!"x") :
    opt.axisThickness (K := Flt) s = opt.axisThickness k!"y" := by
  rw [opt.axisThickness, if_neg h]
  rfl

/-! ### Counterexamples with layouts -/

attribute [local instance] exampleNum

/-- An axes with an x axis below its frame. -/
def exAxesPrim : Prim Rat :=
  .mk .axes ⟨90, []⟩ [(k!"Frame", exRect 0 0 2 3), (k!"XAxis", exRect 0 (-1) 2 0),
    (k!"XAxisLabel", .mk .point ⟨91, [1, -1]⟩ [])]

/-- The layout of `layout.add_prim(axes, 'ax')`, `layout.add_constraint(c, ('ax',), (), 'P')`. -/
def positionLayout (c : Py (Cons Rat)) : Py (Layout Rat) := do
  let c ← c
  let (l, r) := (Layout.empty 0).addPrim exAxesPrim k!"ax"
  r
  let (l, r) := l.addConstraint c [k!"ax"] [] k!"P"
  r
  .ok l

/-- C95 fails for `PositionAxis`: an undocumented axis is accepted, and so is the constraint in a
layout; only the residual fails, with a `KeyError`. -/
theorem C95_positionAxis_counterexample :
    ((positionLayout (opt.positionAxis k!"x" k!"bottom" false)).bind
      fun l => l.residual l.prim) = .ok [0, 0, 0, 0] ∧
    (positionLayout (opt.positionAxis k!"z" k!"bottom" false)) matches .ok _ ∧
    ((positionLayout (opt.positionAxis k!"z" k!"bottom" false)).bind
      fun l => l.residual l.prim) matches .error (.keyError _) := by
  refine ⟨?_, ?_, ?_⟩ <;> decide +kernel

/-- The program of `thickOps` with `c` in place of `XAxisThickness()`. -/
def thickWith (c : Py (Cons Rat)) : List (LayoutOp Rat) :=
  [.addPrim (exRect 0 0 2 3) k!"ax",
   .addConstraint (c.toOption.getD ct.coincident) [k!"ax"] [.none] k!"T"]

/-- C95 fails for `AxisThickness`: `AxisThickness('x')` in place of `XAxisThickness()` is accepted and
has the same residual, but `update_layout_constraints` passes over it. -/
theorem C95_refresh_counterexample :
    let after (c : Py (Cons Rat)) := ((updateLayoutConstraints ((Layout.empty 0).run (thickWith c))
      [(k!"ax", exAxes)]).bind fun l => l.residual l.prim)
    after (ct.axisThickness .x) = .ok [3 - 3 / 5] ∧ after (opt.axisThickness k!"x") = .ok [3 - 0] := by
  constructor <;> decide +kernel

/-- Some concrete values. -/
example : opt.side k!"left" = .ok .left ∧ opt.side k!"Left" = .error .valueError ∧
    opt.oppositeSide k!"Line1" = .ok k!"Line3" := by decide

end MplLayout.Props
