import Verif.Props.Refresh

/-!
# C81: the two passes of the tutorial, with any number of axes

The program of `examples/tutorial.ipynb` without the constraints on the axis labels (they are not
affine): axis boxes on chosen sides, thicknesses linked to `matplotlib`, margins from the outermost
boxes to the figure; solve, draw, measure, update the layout, solve and draw again.
-/

namespace MplLayout.Props

open Solver Flt

/-- What the program asks of one axes: the sides of its axes, and its margins to the figure. -/
structure TutAxes where
  key : Str
  xtop : Bool
  yright : Bool
  margin : con.Side → ℝ

/-- The side of the frame on which an axis is. -/
def TutAxes.side (a : TutAxes) : AxisKind → con.Side
  | .x => if a.xtop then .top else .bottom
  | .y => if a.yright then .right else .left

/-- The outermost box on a side. -/
def TutAxes.outer (a : TutAxes) (s : con.Side) : Str :=
  if s = a.side .x then k!"/XAxis" else if s = a.side .y then k!"/YAxis" else k!"/Frame"

/-- The distance of the frame from the figure on a side: the margin, and the thickness of the axis on
that side, if there is one. -/
def TutAxes.pad (a : TutAxes) (th : AxisKind → ℝ) (s : con.Side) : ℝ :=
  a.margin s + if s = a.side .x then th .x else if s = a.side .y then th .y else 0

/-- The place of the frame in a figure of size `W × H`, if the axes have the thicknesses `th`. -/
def TutAxes.frame (a : TutAxes) (W H : ℝ) (th : AxisKind → ℝ) : Rect :=
  ⟨a.pad th .left, a.pad th .bottom, W - a.pad th .right, H - a.pad th .top⟩

/-- The place of an axis box. -/
def TutAxes.box (a : TutAxes) (W H : ℝ) (th : AxisKind → ℝ) : AxisKind → Rect
  | .x =>
    let f := a.frame W H th
    if a.xtop then ⟨f.x0, f.y1, f.x1, f.y1 + th .x⟩ else ⟨f.x0, f.y0 - th .x, f.x1, f.y0⟩
  | .y =>
    let f := a.frame W H th
    if a.yright then ⟨f.x1, f.y0, f.x1 + th .y, f.y1⟩ else ⟨f.x0 - th .y, f.y0, f.x0, f.y1⟩

/-- As an axes of the README program. -/
def TutAxes.spec (a : TutAxes) : AxesSpec :=
  ⟨a.key, true, true, false, false, a.margin .left, a.margin .right, a.margin .bottom, a.margin .top⟩

/-- The constraint objects of the program. -/
structure TutTools where
  box : Cons Flt
  fix : Cons Flt
  xLength : Cons Flt
  yLength : Cons Flt
  position : AxisKind → con.Side → Cons Flt
  thickness : AxisKind → Cons Flt
  margin : con.Side → Cons Flt

/-- They are what the classes `Box`, `Fix`, `XLength`, `YLength`, `PositionXAxis`, `PositionYAxis`,
`XAxisThickness`, `YAxisThickness` and `InnerMargin` make. -/
structure TutTools.OK (t : TutTools) : Prop where
  box : ct.box = .ok t.box
  fix : ct.fix = .ok t.fix
  xLength : ct.xLength = .ok t.xLength
  yLength : ct.yLength = .ok t.yLength
  position : ∀ kind side, ct.positionAxis kind side false = .ok (t.position kind side)
  thickness : ∀ kind, ct.axisThickness kind = .ok (t.thickness kind)
  margin : ∀ side, ct.margin false side = .ok (t.margin side)

/-- The constraints on the figure. -/
def tutFigCons (t : TutTools) (W H : ℝ) : List (Added Flt) :=
  [⟨t.box, [k!"Figure"], []⟩,
   ⟨t.fix, [k!"Figure/Line0/Point0"], [.arr [fin 0, fin 0]]⟩,
   ⟨t.xLength, [k!"Figure/Line0"], [.num (fin W)]⟩,
   ⟨t.yLength, [k!"Figure/Line1"], [.num (fin H)]⟩]

/-- The constraints on an axes, when the thickness constraints are given the parameters `m`. -/
def tutAxesCons (t : TutTools) (m : Str → AxisKind → Param Flt) (a : TutAxes) : List (Added Flt) :=
  [⟨t.box, [a.key ++ k!"/Frame"], []⟩, ⟨t.box, [a.key ++ k!"/XAxis"], []⟩,
   ⟨t.box, [a.key ++ k!"/YAxis"], []⟩,
   ⟨t.position .x (a.side .x), [a.key], []⟩, ⟨t.position .y (a.side .y), [a.key], []⟩,
   ⟨t.thickness .x, [a.key ++ k!"/XAxis"], [m a.key .x]⟩,
   ⟨t.thickness .y, [a.key ++ k!"/YAxis"], [m a.key .y]⟩,
   ⟨t.margin .left, [a.key ++ a.outer .left, k!"Figure"], [.num (fin (a.margin .left))]⟩,
   ⟨t.margin .right, [a.key ++ a.outer .right, k!"Figure"], [.num (fin (a.margin .right))]⟩,
   ⟨t.margin .bottom, [a.key ++ a.outer .bottom, k!"Figure"], [.num (fin (a.margin .bottom))]⟩,
   ⟨t.margin .top, [a.key ++ a.outer .top, k!"Figure"], [.num (fin (a.margin .top))]⟩]

/-- `layout.add_constraint(constraint, prim_keys, param)`. -/
def addAll (cs : List (Added Flt)) : List (Stmt Flt) := cs.map fun c => .addConstraint c.c c.primKeys c.param []

/-- The program (`examples/tutorial.ipynb`, steps 1 to 3): a figure with its constraints, and axes with
both axis boxes and their constraints. -/
def tutProg (t : TutTools) (W H : ℝ) (specs : List TutAxes) (m : Str → AxisKind → Param Flt) :
    List (Stmt Flt) :=
  ([.make (.quadrilateral .default none), .addPrim 0 k!"Figure"] ++ addAll (tutFigCons t W H)) ++
  (specs.zipIdx 1).flatMap fun ai =>
    [.make (.axes .default none true true false false), .addPrim ai.2 ai.1.key] ++
      addAll (tutAxesCons t m ai.1)

/-- A drawing of the axes in a figure of size `W × H`, when their axes have the thicknesses `th`: the
size of the figure, the places of the frames as fractions of the figure, and, if the frame has a
positive size and the thicknesses are not negative, the sides of the ticks. -/
structure Drawn (W H : ℝ) (specs : List TutAxes) (th : Str → AxisKind → ℝ) (calls : List (DrawCall Flt)) :
    Prop where
  size : ∀ w h, .setSize w h ∈ calls ↔ w = fin W ∧ h = fin H
  frame : ∀ i a, specs[i]? = some a → ∀ rect, .setPosition i rect ∈ calls ↔
    rect = (fin (a.pad (th a.key) .left / W), fin (a.pad (th a.key) .bottom / H),
      fin ((W - a.pad (th a.key) .left - a.pad (th a.key) .right) / W),
      fin ((H - a.pad (th a.key) .bottom - a.pad (th a.key) .top) / H))
  ticks : ∀ i a, specs[i]? = some a → (a.frame W H (th a.key)).Positive → (∀ kind, 0 ≤ th a.key kind) →
    ∀ kind s, .setTicksPosition i kind s ∈ calls ↔ s = a.side kind

/-! ## Executing the program -/

theorem Does.nil (s : Session Flt) : Does s [] [] s := ⟨rfl, rfl, by simp [Session.outcomes]⟩

/-- Adding constraints that are accepted. -/
theorem Does.addAll {ts : List (AxesSpec × Nat)} (cs : List (Added Flt)) : ∀ {s : Session Flt}, Built ts s →
    (∀ s : Session Flt, Built ts s → ∀ c ∈ cs, (LayoutOp.addConstraint c.c c.primKeys c.param []).Sensible ∧
      (∃ prims, List.Forall₂ (fun k p => s.layout.prim.getChild k = .ok p) c.primKeys prims ∧
        List.Forall₂ (fun (p : Prim Flt) t => p.ty.IsA t) prims c.c.value.sig.primTypes) ∧
      c.param.length = c.c.value.sig.paramTypes.length) →
    ∃ s', Does s (addAll cs) cs s' ∧ Built ts s' := by
  induction cs with
  | nil => intro s hb _; exact ⟨s, .nil s, hb⟩
  | cons c cs ih =>
    intro s hb h
    obtain ⟨h1, h2, h3⟩ := h s hb c (by simp)
    obtain ⟨s1, d1, b1⟩ := Does.constraint hb h1 h2 h3
    obtain ⟨s2, d2, b2⟩ := ih b1 fun s hs c hc => h s hs c (by simp [hc])
    exact ⟨s2, d1.append d2, b2⟩

/-- A key below an axes. -/
theorem Built.part {s : Session Flt} {ts : List (AxesSpec × Nat)} (hb : Built ts s)
    {t : AxesSpec × Nat} (ht : t ∈ ts) (hk : '/' ∉ t.1.key) {k : Str} {p : Prim Flt} (hs : '/' ∉ k)
    (hp : (k, p) ∈ (axesTree t.1.xaxis t.1.yaxis t.1.twinx t.1.twiny t.2 : Prim Flt).children) :
    s.layout.prim.getChild (t.1.key ++ '/' :: k) = .ok p := by
  have h1 : s.layout.prim.At [t.1.key] (axesTree t.1.xaxis t.1.yaxis t.1.twinx t.1.twiny t.2) := by
    rw [hb.prim]
    exact .down (List.mem_cons_of_mem _ (List.mem_map.mpr ⟨t, ht, rfl⟩)) (.here _)
  rw [Node.getChild_ok_iff, Node.find_iff_At hb.inv.prim, splitAll_append_slash,
    splitAll_noslash hk, splitAll_noslash hs]
  exact At_child h1 hp

theorem axesTree_tut (n : Nat) : (axesTree true true false false n : Prim Flt).children =
    [(k!"Frame", unitQuad (n + 21)), (k!"XAxis", unitQuad (n + 1)), (k!"XAxisLabel", mkPoint (n + 10) 0 0),
      (k!"YAxis", unitQuad (n + 11)), (k!"YAxisLabel", mkPoint (n + 20) 0 0)] := rfl

/-- The identity of the frame or an axis box. -/
def tutId (n : Nat) : Option AxisKind → Nat
  | none => n + 21
  | some .x => n + 1
  | some .y => n + 11

/-- The key of the frame or an axis box. -/
def tutKey : Option AxisKind → Str
  | none => k!"/Frame"
  | some .x => k!"/XAxis"
  | some .y => k!"/YAxis"

theorem Built.tut {s : Session Flt} {ts : List (AxesSpec × Nat)} (hb : Built ts s)
    {a : TutAxes} {n : Nat} (ht : (a.spec, n) ∈ ts) (hk : '/' ∉ a.key) (o : Option AxisKind) :
    s.layout.prim.getChild (a.key ++ tutKey o) = .ok (unitQuad (tutId n o)) := by
  cases o with
  | none => exact hb.part ht hk (k := k!"Frame") (by decide) (by simp [axesTree_tut, TutAxes.spec, tutId])
  | some kind =>
    cases kind
    · exact hb.part ht hk (k := k!"XAxis") (by decide) (by simp [axesTree_tut, TutAxes.spec, tutId])
    · exact hb.part ht hk (k := k!"YAxis") (by decide) (by simp [axesTree_tut, TutAxes.spec, tutId])

/-- The box that `outer` names. -/
def TutAxes.outerBox (a : TutAxes) (s : con.Side) : Option AxisKind :=
  if s = a.side .x then some .x else if s = a.side .y then some .y else none

theorem TutAxes.outer_key (a : TutAxes) (s : con.Side) : a.outer s = tutKey (a.outerBox s) := by
  unfold outer outerBox
  split
  · rfl
  · split <;> rfl

theorem unitQuad_get (n : Nat) :
    (unitQuad n : Prim Flt).getChild k!"Line0" = .ok (mkLine ⟨n + 5, []⟩ (mkPoint (n + 1) 0 0) (mkPoint (n + 2) 1 0)) ∧
    (unitQuad n : Prim Flt).getChild k!"Line1" = .ok (mkLine ⟨n + 6, []⟩ (mkPoint (n + 2) 1 0) (mkPoint (n + 3) 1 1)) := by
  rw [unitQuad_eq]
  exact ⟨rfl, rfl⟩

/-- What a parameter of a thickness constraint is here: nothing, or an axis that can be measured. -/
def Thick (p : Param Flt) (v : ℝ) : Prop :=
  ct.axisThicknessParams [p] = .ok [[.num (fin v)]] ∧
    (p = .none ∨ ∃ a t, p = .axis a ∧ (ct.getAxisThickness a).1 = .ok t)

theorem does_tut_fig {t : TutTools} (hT : t.OK) (W H : ℝ) :
    ∃ s', Does Session.start ([.make (.quadrilateral .default none), .addPrim 0 k!"Figure"] ++
      addAll (tutFigCons t W H)) (tutFigCons t W H) s' ∧ Built [] s' := by
  have h1 : (Session.start : Session Flt).step (.make (.quadrilateral .default none))
      = (⟨10, [], [unitQuad 1], Layout.empty 0⟩, .ok ()) := by
    have : (Session.start : Session Flt).eval (.quadrilateral .default none) 1 = .ok (unitQuad 1, 10) := by
      show newQuadrilateral (K := Flt) none none 1 = .ok (unitQuad 1, 1 + 9)
      exact newQuadrilateral_none_ok 1
    simp only [Session.step, show (Session.start : Session Flt).next = 1 from rfl, this]
    rfl
  have d1 := Does.quiet h1 (by intro c ks ps key e; cases e)
  let l1 : Layout Flt := ((Layout.empty 0 : Layout Flt).addPrim (unitQuad 1) k!"Figure").1
  have h2 : (⟨10, [], [unitQuad 1], Layout.empty 0⟩ : Session Flt).step (.addPrim 0 k!"Figure")
      = (⟨10, [], [unitQuad 1], l1⟩, .ok ()) := rfl
  have d2 := Does.quiet h2 (by intro c ks ps key e; cases e)
  have b2 : Built [] (⟨10, [], [unitQuad 1], l1⟩ : Session Flt) := by
    refine ⟨?_, rfl, rfl, .nil, by simp, by simp, Nat.le_refl _⟩
    exact (Layout.Inv.empty 0).addPrim (unitQuad_WF 1) k!"Figure"
  obtain ⟨s3, d3, b3⟩ := Does.addAll (tutFigCons t W H) b2 (by
    intro s hb c hc
    have g0 := getChild_slash hb.figure (k := k!"Line0") (unitQuad_get 1).1
    have g1 := getChild_slash hb.figure (k := k!"Line1") (unitQuad_get 1).2
    have g2 := getChild_slash g0 (k := k!"Point0") (c := mkPoint 2 0 0) rfl
    have hf : t.fix = cstr con.coordinate := by
      have := hT.fix; rw [ct_fix_eq] at this; exact (Except.ok.inj this).symm
    have hx : t.xLength = cstr con.xLength := by
      have := hT.xLength; rw [ct_xLength_eq] at this; exact (Except.ok.inj this).symm
    have hy : t.yLength = cstr con.yLength := by
      have := hT.yLength; rw [ct_yLength_eq] at this; exact (Except.ok.inj this).symm
    have hB : t.box = boxT := by
      have := hT.box; rw [box_eq] at this; exact (Except.ok.inj this).symm
    simp only [tutFigCons, List.mem_cons, List.not_mem_nil, or_false] at hc
    rcases hc with rfl | rfl | rfl | rfl
    · exact ⟨⟨.box, hT.box, trivial, trivial⟩, ⟨_, .cons hb.figure .nil, by
        rw [hB]; exact .cons (.refl _) .nil⟩, by rw [hB]; rfl⟩
    · exact ⟨⟨.fix, hT.fix, trivial, trivial⟩, ⟨_, .cons g2 .nil, by
        rw [hf]; exact .cons (.refl _) .nil⟩, by rw [hf]; rfl⟩
    · exact ⟨⟨.xLength, hT.xLength, trivial, trivial⟩, ⟨_, .cons g0 .nil, by
        rw [hx]; exact .cons (.refl _) .nil⟩, by rw [hx]; rfl⟩
    · exact ⟨⟨.yLength, hT.yLength, trivial, trivial⟩, ⟨_, .cons g1 .nil, by
        rw [hy]; exact .cons (.refl _) .nil⟩, by rw [hy]; rfl⟩)
  exact ⟨s3, d1.append (d2.append d3), b3⟩

theorem does_tut_axes {t : TutTools} (hT : t.OK) {m : Str → AxisKind → Param Flt}
    {th : Str → AxisKind → ℝ} {s : Session Flt} {ts : List (AxesSpec × Nat)}
    (hb : Built ts s) {a : TutAxes} (hm : ∀ kind, Thick (m a.key kind) (th a.key kind))
    (h1 : '/' ∉ a.key) (h2 : a.key ≠ k!"Figure") (h3 : a.key ∉ ts.map (·.1.key)) :
    ∃ s', Does s ([.make (.axes .default none true true false false), .addPrim (ts.length + 1) a.key] ++
      addAll (tutAxesCons t m a)) (tutAxesCons t m a) s' ∧ Built (ts ++ [(a.spec, s.next)]) s' := by
  obtain ⟨s2, d2, b2⟩ := does_newAxes hb (a := a.spec) h1 h2 h3
  have hmem : (a.spec, s.next) ∈ ts ++ [(a.spec, s.next)] := by simp
  obtain ⟨s3, d3, b3⟩ := Does.addAll (tutAxesCons t m a) b2 (by
    intro s' hb' c hc
    have hB : t.box = boxT := by
      have := hT.box; rw [box_eq] at this; exact (Except.ok.inj this).symm
    have hP : ∀ kind side, t.position kind side = positionT kind side false := fun kind side => by
      have := hT.position kind side; rw [position_eq] at this; exact (Except.ok.inj this).symm
    have hH : ∀ kind, t.thickness kind = thicknessT kind := fun kind => by
      have := hT.thickness kind; rw [thickness_eq] at this; exact (Except.ok.inj this).symm
    have hM : ∀ side, t.margin side = cstr (marginT false side) := fun side => by
      have := hT.margin side; rw [ct_margin_eq] at this; exact (Except.ok.inj this).symm
    have box : ∀ o, c = ⟨t.box, [a.key ++ tutKey o], []⟩ → (LayoutOp.addConstraint c.c c.primKeys c.param []).Sensible ∧
        (∃ prims, List.Forall₂ (fun k p => s'.layout.prim.getChild k = .ok p) c.primKeys prims ∧
          List.Forall₂ (fun (p : Prim Flt) t => p.ty.IsA t) prims c.c.value.sig.primTypes) ∧
        c.param.length = c.c.value.sig.paramTypes.length := by
      rintro o rfl
      exact ⟨⟨.box, hT.box, trivial, trivial⟩, ⟨_, .cons (hb'.tut hmem h1 o) .nil, by
        rw [hB]; exact .cons (.refl _) .nil⟩, by rw [hB]; rfl⟩
    have pos : ∀ kind side, c = ⟨t.position kind side, [a.key], []⟩ →
        (LayoutOp.addConstraint c.c c.primKeys c.param []).Sensible ∧
        (∃ prims, List.Forall₂ (fun k p => s'.layout.prim.getChild k = .ok p) c.primKeys prims ∧
          List.Forall₂ (fun (p : Prim Flt) t => p.ty.IsA t) prims c.c.value.sig.primTypes) ∧
        c.param.length = c.c.value.sig.paramTypes.length := by
      rintro kind side rfl
      exact ⟨⟨.positionAxis kind side false, hT.position kind side, trivial, trivial⟩,
        ⟨_, .cons (hb'.axes hmem h1).1 .nil, by
          simp only [hP]
          cases kind <;> exact .cons (.refl _) .nil⟩, by simp only [hP]; cases kind <;> rfl⟩
    have thk : ∀ kind, c = ⟨t.thickness kind, [a.key ++ tutKey (some kind)], [m a.key kind]⟩ →
        (LayoutOp.addConstraint c.c c.primKeys c.param []).Sensible ∧
        (∃ prims, List.Forall₂ (fun k p => s'.layout.prim.getChild k = .ok p) c.primKeys prims ∧
          List.Forall₂ (fun (p : Prim Flt) t => p.ty.IsA t) prims c.c.value.sig.primTypes) ∧
        c.param.length = c.c.value.sig.paramTypes.length := by
      rintro kind rfl
      refine ⟨⟨.axisThickness kind, hT.thickness kind, trivial, ?_⟩,
        ⟨_, .cons (hb'.tut hmem h1 (some kind)) .nil, by
          simp only [hH]
          cases kind <;> exact .cons (.refl _) .nil⟩, by simp only [hH]; cases kind <;> rfl⟩
      intro p hp
      rw [List.mem_singleton.mp hp]
      exact (hm kind).2
    have mar : ∀ side, c = ⟨t.margin side, [a.key ++ a.outer side, k!"Figure"], [.num (fin (a.margin side))]⟩ →
        (LayoutOp.addConstraint c.c c.primKeys c.param []).Sensible ∧
        (∃ prims, List.Forall₂ (fun k p => s'.layout.prim.getChild k = .ok p) c.primKeys prims ∧
          List.Forall₂ (fun (p : Prim Flt) t => p.ty.IsA t) prims c.c.value.sig.primTypes) ∧
        c.param.length = c.c.value.sig.paramTypes.length := by
      rintro side rfl
      refine ⟨⟨.margin false side, hT.margin side, trivial, ?_⟩,
        ⟨_, .cons (by rw [a.outer_key]; exact hb'.tut hmem h1 _) (.cons hb'.figure .nil), by
          simp only [hM]
          cases side <;> exact .cons (.refl _) (.cons (.refl _) .nil)⟩, by
          simp only [hM]; cases side <;> rfl⟩
      intro p hp
      rw [List.mem_singleton.mp hp]
      trivial
    simp only [tutAxesCons, List.mem_cons, List.not_mem_nil, or_false] at hc
    rcases hc with h | h | h | h | h | h | h | h | h | h | h
    · exact box none h
    · exact box (some .x) h
    · exact box (some .y) h
    · exact pos _ _ h
    · exact pos _ _ h
    · exact thk .x h
    · exact thk .y h
    all_goals exact mar _ h)
  exact ⟨s3, d2.append d3, b3⟩

theorem does_tut_all {t : TutTools} (hT : t.OK) {m : Str → AxisKind → Param Flt}
    {th : Str → AxisKind → ℝ} (specs : List TutAxes) : ∀ {s : Session Flt}
    {ts : List (AxesSpec × Nat)}, Built ts s → (∀ a ∈ specs, '/' ∉ a.key ∧ a.key ≠ k!"Figure") →
    (∀ a ∈ specs, ∀ kind, Thick (m a.key kind) (th a.key kind)) →
    (ts.map (·.1.key) ++ specs.map (·.key)).Nodup →
    ∃ s' ts', Does s ((specs.zipIdx (ts.length + 1)).flatMap fun ai =>
        [.make (.axes .default none true true false false), .addPrim ai.2 ai.1.key] ++
          addAll (tutAxesCons t m ai.1))
      (specs.flatMap (tutAxesCons t m)) s' ∧ Built ts' s' ∧ ts'.map (·.1) = ts.map (·.1) ++ specs.map (·.spec) := by
  induction specs with
  | nil =>
    intro s ts hb _ _ _
    exact ⟨s, ts, .nil s, hb, by simp⟩
  | cons a specs ih =>
    intro s ts hb hk hm hn
    obtain ⟨s1, d1, b1⟩ := does_tut_axes hT hb (hm a (by simp)) (hk a (by simp)).1 (hk a (by simp)).2 (by
      intro hm
      rw [List.nodup_append] at hn
      exact hn.2.2 _ hm _ (by simp) rfl)
    obtain ⟨s', ts', d2, b2, e⟩ := ih b1 (fun x hx => hk x (by simp [hx])) (fun x hx => hm x (by simp [hx]))
      (by simpa [TutAxes.spec] using hn)
    refine ⟨s', ts', ?_, b2, by simpa using e⟩
    simp only [List.length_append, List.length_cons, List.length_nil] at d2
    rw [List.zipIdx_cons, List.flatMap_cons, List.flatMap_cons]
    exact d1.append d2

/-- The constraints of the program, each with its class. -/
theorem tut_shipped {t : TutTools} (hT : t.OK) {W H : ℝ} {specs : List TutAxes}
    {m : Str → AxisKind → Param Flt} {th : Str → AxisKind → ℝ}
    (hm : ∀ a ∈ specs, ∀ kind, Thick (m a.key kind) (th a.key kind)) {c : Added Flt}
    (hc : c ∈ tutFigCons t W H ∨ ∃ a ∈ specs, c ∈ tutAxesCons t m a) :
    ∃ s : Shipped, s.build = .ok c.c ∧ s.SizeOK ∧ s.ParamsOK c.param ∧ s.IsAffine := by
  have one : ∀ x : ℝ, ∀ p ∈ [Param.num (fin x)], p.ArrayLike := by
    intro x p hp
    rw [List.mem_singleton.mp hp]
    trivial
  rcases hc with hc | ⟨a, ha, hc⟩
  · simp only [tutFigCons, List.mem_cons, List.not_mem_nil, or_false] at hc
    rcases hc with rfl | rfl | rfl | rfl
    · exact ⟨.box, hT.box, trivial, trivial, trivial⟩
    · exact ⟨.fix, hT.fix, trivial, trivial, trivial⟩
    · exact ⟨.xLength, hT.xLength, trivial, trivial, trivial⟩
    · exact ⟨.yLength, hT.yLength, trivial, trivial, trivial⟩
  · have thk : ∀ kind, ∀ p ∈ [m a.key kind], p = .none ∨ ∃ a t, p = .axis a ∧
        (ct.getAxisThickness a).1 = .ok t := by
      intro kind p hp
      rw [List.mem_singleton.mp hp]
      exact (hm a ha kind).2
    simp only [tutAxesCons, List.mem_cons, List.not_mem_nil, or_false] at hc
    rcases hc with rfl | rfl | rfl | rfl | rfl | rfl | rfl | rfl | rfl | rfl | rfl
    · exact ⟨.box, hT.box, trivial, trivial, trivial⟩
    · exact ⟨.box, hT.box, trivial, trivial, trivial⟩
    · exact ⟨.box, hT.box, trivial, trivial, trivial⟩
    · exact ⟨.positionAxis .x (a.side .x) false, hT.position .x (a.side .x), trivial, trivial, trivial⟩
    · exact ⟨.positionAxis .y (a.side .y) false, hT.position .y (a.side .y), trivial, trivial, trivial⟩
    · exact ⟨.axisThickness .x, hT.thickness .x, trivial, thk .x, trivial⟩
    · exact ⟨.axisThickness .y, hT.thickness .y, trivial, thk .y, trivial⟩
    all_goals exact ⟨.margin false _, hT.margin _, trivial, one _, trivial⟩

theorem plain_tut {t : TutTools} (hT : t.OK) (W H : ℝ) {specs : List TutAxes}
    {m : Str → AxisKind → Param Flt} {th : Str → AxisKind → ℝ}
    (hm : ∀ a ∈ specs, ∀ kind, Thick (m a.key kind) (th a.key kind))
    (hk : ∀ a ∈ specs, '/' ∉ a.key) : Plain (tutProg t W H specs m) := by
  have add : ∀ {cs : List (Added Flt)} {st : Stmt Flt}, st ∈ addAll cs →
      (∀ c ∈ cs, ∃ s : Shipped, s.build = .ok c.c ∧ s.SizeOK ∧ s.ParamsOK c.param ∧ s.IsAffine) →
      st.TopLevel ∧ st.Finite ∧ st.Affine := by
    intro cs st hst h
    obtain ⟨c, hc, rfl⟩ := List.mem_map.mp hst
    exact ⟨trivial, trivial, by simp, h c hc⟩
  intro st hst
  rcases List.mem_append.mp hst with hst | hst
  · rcases List.mem_append.mp hst with hst | hst
    · simp only [List.mem_cons, List.not_mem_nil, or_false] at hst
      rcases hst with rfl | rfl
      · exact ⟨trivial, (fun xs e => nomatch e), trivial⟩
      · exact ⟨(by decide : '/' ∉ k!"Figure"), trivial, trivial⟩
    · exact add hst fun c hc => tut_shipped hT hm (.inl hc)
  · obtain ⟨⟨a, i⟩, hai, hst⟩ := List.mem_flatMap.mp hst
    have ha := List.fst_mem_of_mem_zipIdx hai
    rcases List.mem_append.mp hst with hst | hst
    · simp only [List.mem_cons, List.not_mem_nil, or_false] at hst
      rcases hst with rfl | rfl
      · exact ⟨trivial, (fun xs e => nomatch e), trivial⟩
      · exact ⟨hk a ha, trivial, trivial⟩
    · exact add hst fun c hc => tut_shipped (W := W) (H := H) hT hm (.inr ⟨a, ha, hc⟩)

/-! ## What the constraints mean -/

/-- The rectangle of the frame or of an axis box. -/
def TutAxes.rect (a : TutAxes) (W H : ℝ) (th : AxisKind → ℝ) : Option AxisKind → Rect
  | none => a.frame W H th
  | some kind => a.box W H th kind

/-- The corners of a rectangle satisfy `SitsOn` for a side. -/
def RectOn (s : con.Side) (f b : Rect) : Prop :=
  SitsOn s (f.x0, f.y0) (f.x1, f.y0) (f.x1, f.y1) (f.x0, f.y1) (b.x0, b.y0) (b.x1, b.y0) (b.x1, b.y1)
    (b.x0, b.y1)

/-- The places satisfy what the program asks for. -/
theorem tut_places (a : TutAxes) (W H : ℝ) (th : AxisKind → ℝ) :
    (∀ kind, RectOn (a.side kind) (a.frame W H th) (a.box W H th kind)) ∧
    (∀ kind, Rect.across (a.box W H th kind) kind = th kind) ∧
    ∀ s, innerGap s (a.rect W H th (a.outerBox s)) ⟨0, 0, W, H⟩ = a.margin s := by
  obtain ⟨key, xt, yr, mg⟩ := a
  refine ⟨fun kind => ?_, fun kind => ?_, fun s => ?_⟩
  · cases kind <;> cases xt <;> cases yr <;>
      simp [RectOn, SitsOn, edge, con.Side.opposite, TutAxes.side, TutAxes.box]
  · cases kind <;> cases xt <;> cases yr <;> simp [Rect.across, TutAxes.box]
  · cases s <;> cases xt <;> cases yr <;>
      simp [innerGap, TutAxes.rect, TutAxes.outerBox, TutAxes.side, TutAxes.box, TutAxes.frame, TutAxes.pad] <;>
      ring

theorem rect_ext {r s : Rect} (h0 : r.x0 = s.x0) (h1 : r.y0 = s.y0) (h2 : r.x1 = s.x1) (h3 : r.y1 = s.y1) :
    r = s := by
  cases r; cases s
  simp_all

/-- They are the only ones that do. -/
theorem tut_places_unique (a : TutAxes) {W H : ℝ} {th : AxisKind → ℝ} {R : Option AxisKind → Rect}
    (h1 : ∀ kind, RectOn (a.side kind) (R none) (R (some kind)))
    (h2 : ∀ kind, Rect.across (R (some kind)) kind = th kind)
    (h3 : ∀ s, innerGap s (R (a.outerBox s)) ⟨0, 0, W, H⟩ = a.margin s) :
    R = a.rect W H th := by
  obtain ⟨key, xt, yr, mg⟩ := a
  have x1 := h1 .x
  have y1 := h1 .y
  have x2 := h2 .x
  have y2 := h2 .y
  have l := h3 .left
  have r := h3 .right
  have b := h3 .bottom
  have t := h3 .top
  have hf : R none = TutAxes.rect ⟨key, xt, yr, mg⟩ W H th none ∧
      R (some .x) = TutAxes.rect ⟨key, xt, yr, mg⟩ W H th (some .x) ∧
      R (some .y) = TutAxes.rect ⟨key, xt, yr, mg⟩ W H th (some .y) := by
    clear h1 h2 h3
    cases xt <;> cases yr <;>
      simp only [TutAxes.side, TutAxes.outerBox, RectOn, SitsOn, edge, con.Side.opposite, Rect.across, innerGap,
        Prod.mk.injEq, if_true, if_false, Bool.false_eq_true, reduceCtorEq] at x1 y1 x2 y2 l r b t <;>
      simp only [TutAxes.rect, TutAxes.frame, TutAxes.box, TutAxes.pad, TutAxes.side, if_true, if_false,
        Bool.false_eq_true, reduceCtorEq] <;>
      obtain ⟨⟨_, _⟩, _, _⟩ := x1 <;> obtain ⟨⟨_, _⟩, _, _⟩ := y1 <;>
      refine ⟨?_, ?_, ?_⟩ <;> apply rect_ext <;> simp only <;> linarith
  funext o
  rcases o with _ | _ | _
  · exact hf.1
  · exact hf.2.1
  · exact hf.2.2

/-- The program with any parameters for the thickness constraints that amount to the thicknesses
`th`: every call succeeds, solving succeeds, and the axes are drawn at the right places. -/
theorem tut_core (num : Numerics Flt) (hnum : Exact num) {t : TutTools} (hT : t.OK) {W H : ℝ}
    (hW : W ≠ 0) (hH : H ≠ 0) {specs : List TutAxes}
    (hkeys : ∀ a ∈ specs, '/' ∉ a.key ∧ k!"Axes" <:+: a.key) (hnd : (specs.map (·.key)).Nodup)
    {m : Str → AxisKind → Param Flt} {th : Str → AxisKind → ℝ}
    (hm : ∀ a ∈ specs, ∀ kind, Thick (m a.key kind) (th a.key kind))
    (base : Nat) (e f : ℝ) (maxIter : Int) (hmax : 1 ≤ maxIter) :
    (∀ o ∈ (Session.start : Session Flt).outcomes (tutProg t W H specs m), o = .ok ()) ∧
    ∃ r info calls,
      solve num ((Session.start : Session Flt).run (tutProg t W H specs m)).layout base (fin e) (fin f) maxIter
        k!"newton" = .ok (r, info) ∧
      r.keys = k!"Figure" :: specs.map (·.key) ∧
      updateSubplots r k!"Figure" (specs.map (·.key)).zipIdx = .ok calls ∧ Drawn W H specs th calls := by
  have hnf : ∀ a ∈ specs, '/' ∉ a.key ∧ a.key ≠ k!"Figure" := by
    intro x hx
    refine ⟨(hkeys x hx).1, fun e => ?_⟩
    have := (hkeys x hx).2
    rw [e] at this
    exact absurd this (by decide)
  obtain ⟨s1, d1, b1⟩ := does_tut_fig hT W H
  obtain ⟨s2, ts, d2, b2, hts⟩ := does_tut_all hT (m := m) (th := th) specs b1 hnf hm (by simpa using hnd)
  have d : Does Session.start (tutProg t W H specs m) (tutFigCons t W H ++ specs.flatMap (tutAxesCons t m)) s2 :=
    d1.append d2
  refine ⟨d.ok, ?_⟩
  have hp : Plain (tutProg t W H specs m) := plain_tut hT W H hm fun x hx => (hkeys x hx).1
  have hts : ts.map (·.1) = specs.map (·.spec) := hts
  have mem_ts : ∀ {a : TutAxes}, a ∈ specs → ∃ n, (a.spec, n) ∈ ts := by
    intro a ha
    have : a.spec ∈ ts.map (·.1) := by rw [hts]; exact List.mem_map_of_mem ha
    obtain ⟨⟨_, n⟩, hu, rfl⟩ := List.mem_map.mp this
    exact ⟨n, hu⟩
  have of_ts : ∀ {u : AxesSpec × Nat}, u ∈ ts → ∃ a ∈ specs, u.1 = a.spec := by
    intro u hu
    have : u.1 ∈ specs.map (·.spec) := by rw [← hts]; exact List.mem_map_of_mem hu
    obtain ⟨a, ha, e⟩ := List.mem_map.mp this
    exact ⟨a, ha, e.symm⟩
  have hok : PrimOK s2.layout.prim := by rw [← d.run]; exact (plain_ok hp).primOK
  have hfin : s2.layout.prim.Finite := by rw [← d.run]; exact plain_finite hp
  have hloops : ∀ p m, s2.layout.prim.At p m → m.ty.IsA .polygon → ∃ pts, ClosedLoop m pts := by
    rw [← d.run]
    obtain ⟨heap, hh⟩ := (plain_ok hp).heap
    exact hh.layout.loops
  -- the intended places
  let back : AxesSpec → TutAxes := fun s => (specs.find? fun a => a.key = s.key).getD ⟨[], true, true, fun _ => 0⟩
  have hback : ∀ a ∈ specs, back a.spec = a := by
    intro a ha
    show (specs.find? fun b => b.key = a.key).getD _ = a
    have : specs.find? (fun b => b.key = a.key) = some a := by
      cases h : specs.find? (fun b => b.key = a.key) with
      | none =>
        rw [List.find?_eq_none] at h
        exact absurd (h a ha) (by simp)
      | some b =>
        have hb := List.mem_of_find?_eq_some h
        have hk := List.find?_some h
        simp only [decide_eq_true_eq] at hk
        rw [List.inj_on_of_nodup_map hnd hb ha hk]
    rw [this]; rfl
  let tbl : List (Nat × Rect) := (1, ⟨0, 0, W, H⟩) :: ts.flatMap fun u =>
    let a := back u.1
    [(tutId u.2 (some .x), a.rect W H (th a.key) (some .x)), (tutId u.2 (some .y), a.rect W H (th a.key) (some .y)),
      (tutId u.2 none, a.rect W H (th a.key) none)]
  have hts' : ∀ u ∈ ts, frameId u.1.xaxis u.1.yaxis u.1.twinx u.1.twiny u.2 = u.2 + 21 := by
    intro u hu
    obtain ⟨a, _, ea⟩ := of_ts hu
    rw [ea]
    rfl
  have htbl : tbl.Pairwise fun a b => a.1 + 9 ≤ b.1 := by
    rw [List.pairwise_cons]
    refine ⟨?_, ?_⟩
    · intro x hx
      obtain ⟨u, hu, hx⟩ := List.mem_flatMap.mp hx
      have := b2.low u hu
      simp only [List.mem_cons, List.not_mem_nil, or_false] at hx
      rcases hx with rfl | rfl | rfl <;> simp only [tutId] <;> omega
    · rw [List.pairwise_flatMap]
      refine ⟨fun u _ => ?_, ?_⟩
      · simp [tutId]
      · refine (List.Pairwise.and_mem.mp b2.sep).imp ?_
        intro u v ⟨hu, hv, h⟩ x hx y hy
        rw [hts' u hu] at h
        simp only [List.mem_cons, List.not_mem_nil, or_false] at hx hy
        rcases hx with rfl | rfl | rfl <;> rcases hy with rfl | rfl | rfl <;> simp only [tutId] <;> omega
  have hS := place_solved tbl hok hfin
  have gfig : (s2.layout.prim.mapV (place tbl)).getChild k!"Figure"
      = .ok ((unitQuad 1).mapV (place tbl)) := by
    rw [Node.getChild_mapV, b2.figure]; rfl
  have rfig : IsRect ((unitQuad 1).mapV (place tbl)) ⟨0, 0, W, H⟩ := place_quad htbl (List.mem_cons_self ..)
  have hsat : ∀ c ∈ tutFigCons t W H ++ specs.flatMap (tutAxesCons t m),
      ∃ v, c.Value (s2.layout.prim.mapV (place tbl)) v ∧ Zeros v := by
    intro c hc
    rcases List.mem_append.mp hc with hc | hc
    · obtain ⟨l0, l1, l2, l3, c0, c1, c2, c3, q0, q1, q2, q3⟩ := QuadAt.lines rfig
      obtain ⟨p0, p1, k0, k1, hp0, hp1⟩ := LineAt.points q0
      have g0 := getChild_slash gfig (k := k!"Line0") c0
      have g1 := getChild_slash gfig (k := k!"Line1") c1
      have g2 := getChild_slash g0 (k := k!"Point0") k0
      simp only [tutFigCons, List.mem_cons, List.not_mem_nil, or_false] at hc
      rcases hc with rfl | rfl | rfl | rfl
      · exact value_of_sat hT.box (.cons gfig .nil) ((C33_box rfig).mpr ⟨_, _, _, _, rfl, rfl, rfl, rfl⟩)
      · exact value_of_sat hT.fix (.cons g2 .nil) ((C34_fix hp0 (0, 0)).mpr rfl)
      · exact value_of_sat hT.xLength (.cons g0 .nil) ((C34_xLength q0 W).mpr (by simp))
      · exact value_of_sat hT.yLength (.cons g1 .nil) ((C34_yLength q1 H).mpr (by simp))
    · obtain ⟨a, ha, hc⟩ := List.mem_flatMap.mp hc
      obtain ⟨n, hn⟩ := mem_ts ha
      have hk := (hkeys a ha).1
      have gb : ∀ o, (s2.layout.prim.mapV (place tbl)).getChild (a.key ++ tutKey o)
          = .ok ((unitQuad (tutId n o)).mapV (place tbl)) := by
        intro o
        rw [Node.getChild_mapV, b2.tut hn hk o]; rfl
      have rb : ∀ o, IsRect ((unitQuad (tutId n o)).mapV (place tbl)) (a.rect W H (th a.key) o) := by
        intro o
        refine place_quad htbl (List.mem_cons_of_mem _ (List.mem_flatMap.mpr ⟨_, hn, ?_⟩))
        simp only [hback a ha]
        rcases o with _ | _ | _ <;> simp
      have gax : (s2.layout.prim.mapV (place tbl)).getChild a.key
          = .ok ((axesTree true true false false n).mapV (place tbl)) := by
        have h : s2.layout.prim.getChild a.key = .ok (axesTree true true false false n) := (b2.axes hn hk).1
        rw [Node.getChild_mapV, h]; rfl
      have hkn : ((axesTree true true false false n : Prim Flt).mapV (place tbl)).keys.Nodup := by
        rw [Node.keys_mapV, axesTree_keys]; exact axesKeys_nodup _ _ _ _
      have hch : ((axesTree true true false false n : Prim Flt).mapV (place tbl)).children =
          [(k!"Frame", (unitQuad (n + 21)).mapV (place tbl)), (k!"XAxis", (unitQuad (n + 1)).mapV (place tbl)),
            (k!"XAxisLabel", (mkPoint (n + 10) 0 0).mapV (place tbl)),
            (k!"YAxis", (unitQuad (n + 11)).mapV (place tbl)),
            (k!"YAxisLabel", (mkPoint (n + 20) 0 0).mapV (place tbl))] := rfl
      have hF : HasPart ((axesTree true true false false n : Prim Flt).mapV (place tbl)) k!"Frame"
          ((unitQuad (tutId n none)).mapV (place tbl)) := ⟨hkn, by rw [hch]; simp [tutId]⟩
      have hX : ∀ kind, HasPart ((axesTree true true false false n : Prim Flt).mapV (place tbl)) (axisBoxKey kind)
          ((unitQuad (tutId n (some kind))).mapV (place tbl)) := fun kind => ⟨hkn, by
            rw [hch]; cases kind <;> simp [tutId, axisBoxKey]⟩
      obtain ⟨pl1, pl2, pl3⟩ := tut_places a W H (th a.key)
      have box : ∀ o, ∃ v, (⟨t.box, [a.key ++ tutKey o], []⟩ : Added Flt).Value
          (s2.layout.prim.mapV (place tbl)) v ∧ Zeros v := fun o =>
        value_of_sat hT.box (.cons (gb o) .nil) ((C33_box (rb o)).mpr ⟨_, _, _, _, rfl, rfl, rfl, rfl⟩)
      have pos : ∀ kind, ∃ v, (⟨t.position kind (a.side kind), [a.key], []⟩ : Added Flt).Value
          (s2.layout.prim.mapV (place tbl)) v ∧ Zeros v := fun kind =>
        value_of_sat (hT.position kind _) (.cons gax .nil)
          ((C43_constraint (.refl _) hF (rb none) (hX kind) (rb (some kind)) _).mpr (pl1 kind))
      have thk : ∀ kind, ∃ v, (⟨t.thickness kind, [a.key ++ tutKey (some kind)], [m a.key kind]⟩ : Added Flt).Value
          (s2.layout.prim.mapV (place tbl)) v ∧ Zeros v := fun kind =>
        value_of_sat (hT.thickness kind) (.cons (gb (some kind)) .nil)
          ((thickness_sat (rb (some kind)) (hm a ha kind).1).mpr (pl2 kind))
      have mar : ∀ side, ∃ v, (⟨t.margin side, [a.key ++ a.outer side, k!"Figure"],
          [.num (fin (a.margin side))]⟩ : Added Flt).Value
          (s2.layout.prim.mapV (place tbl)) v ∧ Zeros v := by
        intro side
        rw [a.outer_key]
        exact value_of_sat (hT.margin side) (.cons (gb _) (.cons gfig .nil))
          ((C35_innerMargin (rb _) rfig side _).mpr (pl3 side))
      simp only [tutAxesCons, List.mem_cons, List.not_mem_nil, or_false] at hc
      rcases hc with rfl | rfl | rfl | rfl | rfl | rfl | rfl | rfl | rfl | rfl | rfl
      · exact box none
      · exact box (some .x)
      · exact box (some .y)
      · exact pos .x
      · exact pos .y
      · exact thk .x
      · exact thk .y
      all_goals exact mar _
  -- the solution
  obtain ⟨r, info, e1, hrok, hst, hrf, hall⟩ := C68_solved num hnum _ hp s2.layout (by rw [d.run]) _ hS.okB hS.same
    hS.fin (by rw [d.cons]; exact hsat) (by rw [d.cons]; simp [tutFigCons]) base e f maxIter hmax
  rw [d.cons] at hall
  have hSol : Solved s2.layout.prim r := ⟨hok, hrok, hst, hrf⟩
  have asks : ∀ {c : Py (Cons Flt)} {c' : Cons Flt} {ks : List Str} {ps : List (Param Flt)}, c = .ok c' →
      (⟨c', ks, ps⟩ : Added Flt) ∈ tutFigCons t W H ++ specs.flatMap (tutAxesCons t m) →
      Asks (tutFigCons t W H ++ specs.flatMap (tutAxesCons t m)) c ks ps := fun h hm => ⟨_, h, hm⟩
  have hkr : r.keys = k!"Figure" :: specs.map (·.key) := by
    obtain ⟨_, h, _⟩ := hst.nodes [] s2.layout.prim r (.here _) (.here _)
    rw [← h, b2.prim]
    have : ts.map (·.1.key) = specs.map (·.key) := by
      have := congrArg (List.map AxesSpec.key) hts
      rw [List.map_map, List.map_map] at this
      exact this
    simp only [Node.keys, Node.children, List.map_cons, List.map_map]
    exact congrArg _ this
  -- the figure
  obtain ⟨at1, fig', f3, at2⟩ := hSol.getChild b2.figure
  obtain ⟨A, B, C, D, hq⟩ := hSol.quad at1 at2 (unitQuad_isQuad 1)
    (hloops _ _ at1 ((PrimType.sub_iff _ _).mp (by decide)))
  have hbox' : SatisfiedPy ct.box [fig'] [] :=
    asks_satisfied hall (asks hT.box (by simp [tutFigCons])) (.cons f3 .nil)
  rw [C33_box hq] at hbox'
  obtain ⟨x0, y0, x1, y1, rfl, rfl, rfl, rfl⟩ := hbox'
  have hfig : x0 = 0 ∧ y0 = 0 ∧ x1 = W ∧ y1 = H := by
    obtain ⟨l0, l1, l2, l3, c0, c1, c2, c3, q0, q1, q2, q3⟩ := QuadAt.lines hq
    obtain ⟨p0, p1, k0, k1, hp0, hp1⟩ := LineAt.points q0
    have g0 := getChild_slash f3 (k := k!"Line0") c0
    have g1 := getChild_slash f3 (k := k!"Line1") c1
    have g2 := getChild_slash g0 (k := k!"Point0") k0
    have n0 := (C34_fix hp0 (0, 0)).mp (asks_satisfied hall (asks hT.fix (by simp [tutFigCons])) (.cons g2 .nil))
    have n1 := (C34_xLength q0 W).mp (asks_satisfied hall (asks hT.xLength (by simp [tutFigCons])) (.cons g0 .nil))
    have n2 := (C34_yLength q1 H).mp (asks_satisfied hall (asks hT.yLength (by simp [tutFigCons])) (.cons g1 .nil))
    simp only [Prod.mk.injEq] at n0 n1 n2
    refine ⟨n0.1, n0.2, ?_, ?_⟩ <;> linarith
  obtain ⟨rfl, rfl, rfl, rfl⟩ := hfig
  have hfr : IsRect fig' ⟨0, 0, x1, y1⟩ := hq
  -- the axes
  have hshape : ∀ a ∈ specs, ∃ A' B' C' D', AxesShape r a.key A' B' C' D' := by
    intro a ha
    obtain ⟨n, hn⟩ := mem_ts ha
    exact hSol.axes hloops (axesTree_shape (b2.axes hn (hkeys a ha).1).1)
  have hax : ∀ a ∈ specs, ∃ (ax : Prim Flt) (Q : Option AxisKind → Prim Flt), r.getChild a.key = .ok ax ∧
      ax.ty.IsA .axes ∧ HasPart ax k!"Frame" (Q none) ∧ (∀ kind, HasPart ax (axisBoxKey kind) (Q (some kind))) ∧
      (∀ o, IsRect (Q o) (a.rect x1 y1 (th a.key) o)) ∧
      let f := a.rect x1 y1 (th a.key) none
      AxesShape r a.key (f.x0, f.y0) (f.x1, f.y0) (f.x1, f.y1) (f.x0, f.y1) := by
    intro a ha
    obtain ⟨n, hn⟩ := mem_ts ha
    have hk := (hkeys a ha).1
    obtain ⟨A', B', C', D', ax, frame, h1, h2, h3, h4⟩ := hshape a ha
    obtain ⟨at3, ax', h1', at4⟩ := hSol.getChild (b2.axes hn hk).1
    obtain rfl : ax' = ax := by
      have : r.getChild a.key = .ok ax' := h1'
      rw [h1] at this
      exact (Except.ok.inj this).symm
    obtain ⟨ety, ekeys, _⟩ := hSol.same.nodes _ _ _ at3 at4
    have hkin : ∀ kind, axisBoxKey kind ∈ ax'.keys := by
      intro kind
      rw [← ekeys, axesTree_keys]
      show axisBoxKey kind ∈ axesKeys true true false false
      cases kind <;> decide
    choose q qa qb qc qd hq1 hq2 using fun kind => (h4 kind).1 (hkin kind)
    let Q : Option AxisKind → Prim Flt := fun o => match o with | none => frame | some kind => q kind
    have gQ : ∀ o, r.getChild (a.key ++ tutKey o) = .ok (Q o) := by
      intro o
      rcases o with _ | _ | _
      · exact getChild_slash h1 (h2.getChild (by decide))
      · exact getChild_slash h1 ((hq1 .x).getChild (by decide))
      · exact getChild_slash h1 ((hq1 .y).getChild (by decide))
    have hin : ∀ c ∈ tutAxesCons t m a, c ∈ tutFigCons t x1 y1 ++ specs.flatMap (tutAxesCons t m) := fun c hc =>
      List.mem_append_right _ (List.mem_flatMap.mpr ⟨a, ha, hc⟩)
    have qQ : ∀ o, ∃ a b c d, IsQuad (Q o) a b c d := by
      intro o
      rcases o with _ | kind
      · exact ⟨_, _, _, _, h3⟩
      · exact ⟨_, _, _, _, hq2 kind⟩
    have rQ : ∀ o, ∃ R, IsRect (Q o) R := by
      intro o
      obtain ⟨_, _, _, _, hq⟩ := qQ o
      have hb : SatisfiedPy ct.box [Q o] [] :=
        asks_satisfied hall (asks hT.box (hin ⟨t.box, [a.key ++ tutKey o], []⟩ (by
          rcases o with _ | _ | _ <;> simp [tutAxesCons, tutKey]))) (.cons (gQ o) .nil)
      rw [C33_box hq] at hb
      obtain ⟨u0, v0, u1, v1, rfl, rfl, rfl, rfl⟩ := hb
      exact ⟨⟨u0, v0, u1, v1⟩, hq⟩
    choose R hR using rQ
    have hty : ax'.ty.IsA .axes := by rw [← ety]; exact .refl _
    have e1 : ∀ kind, RectOn (a.side kind) (R none) (R (some kind)) := fun kind =>
      (C43_constraint hty h2 (hR none) (hq1 kind) (hR (some kind)) _).mp
        (asks_satisfied hall (asks (hT.position kind (a.side kind)) (hin _ (by
          cases kind <;> simp [tutAxesCons]))) (.cons h1 .nil))
    have e2 : ∀ kind, Rect.across (R (some kind)) kind = th a.key kind := fun kind =>
      (thickness_sat (hR (some kind)) (hm a ha kind).1).mp
        (asks_satisfied hall (asks (hT.thickness kind)
          (hin ⟨t.thickness kind, [a.key ++ tutKey (some kind)], [m a.key kind]⟩ (by
            cases kind <;> simp [tutAxesCons, tutKey]))) (.cons (gQ (some kind)) .nil))
    have e3 : ∀ s, innerGap s (R (a.outerBox s)) ⟨0, 0, x1, y1⟩ = a.margin s := fun s =>
      (C35_innerMargin (hR (a.outerBox s)) hfr s _).mp
        (asks_satisfied hall (asks (hT.margin s)
          (hin ⟨t.margin s, [a.key ++ tutKey (a.outerBox s), k!"Figure"], [.num (fin (a.margin s))]⟩ (by
            rw [← a.outer_key]; cases s <;> simp [tutAxesCons]))) (.cons (gQ _) (.cons f3 .nil)))
    have := tut_places_unique a e1 e2 e3
    subst this
    exact ⟨ax', Q, h1, hty, h2, hq1, hR, ax', Q none, h1, h2, hR none, h4⟩
  have hmem : ∀ {kv : Str × Nat}, kv ∈ (specs.map (·.key)).zipIdx → ∃ a, specs[kv.2]? = some a ∧ a.key = kv.1 := by
    intro kv hkv
    rw [List.mem_zipIdx_iff_getElem?, List.getElem?_map] at hkv
    cases h : specs[kv.2]? with
    | none => rw [h] at hkv; simp at hkv
    | some a => rw [h] at hkv; exact ⟨a, rfl, by simpa using hkv⟩
  have hall' : ∀ kv ∈ (specs.map (·.key)).zipIdx, ∃ a b c d, AxesShape r kv.1 a b c d := by
    intro kv hkv
    obtain ⟨a, ha, ek⟩ := hmem hkv
    rw [← ek]
    exact hshape a (List.mem_of_getElem? ha)
  have hids : (((specs.map (·.key)).zipIdx).map Prod.snd).Nodup := by
    rw [List.zipIdx_map_snd]
    exact List.nodup_range'
  obtain ⟨calls, g1, g2, g3⟩ := C62_positions (root := r) (figKey := k!"Figure") f3 hq hW hH hall' hids
  rw [d.run]
  refine ⟨r, info, calls, e1, hkr, g1, ⟨?_, ?_, ?_⟩⟩
  · intro w h
    simp only [g2, sub_zero]
  · intro i a hi rect
    have ha := List.mem_of_getElem? hi
    obtain ⟨ax, Q, j1, j2, j3, j4, j5, hsh⟩ := hax a ha
    rw [g3 a.key i _ _ _ _ (by rw [List.mem_zipIdx_iff_getElem?]; simp [hi]) hsh]
    have hrep : Reproduces (0, 0) (x1, y1) (a.pad (th a.key) .left / x1, a.pad (th a.key) .bottom / y1,
        (x1 - a.pad (th a.key) .left - a.pad (th a.key) .right) / x1,
        (y1 - a.pad (th a.key) .bottom - a.pad (th a.key) .top) / y1)
        ((a.rect x1 y1 (th a.key) none).x0, (a.rect x1 y1 (th a.key) none).y0)
        ((a.rect x1 y1 (th a.key) none).x1, (a.rect x1 y1 (th a.key) none).y1) := by
      refine ⟨?_, ?_, ?_, ?_⟩ <;> simp only [TutAxes.rect, TutAxes.frame] <;> field_simp <;> ring
    constructor
    · rintro ⟨pos, rfl, hpos⟩
      rw [reproduces_unique hW hH hpos hrep]
      rfl
    · rintro rfl
      exact ⟨_, rfl, hrep⟩
  · intro i a hi hpos hth kind sd
    have ha := List.mem_of_getElem? hi
    obtain ⟨ax, Q, j1, j2, j3, j4, j5, -⟩ := hax a ha
    obtain ⟨_, calls', k1, k2⟩ := C43_drawn_partial (twin := false) (side := a.side kind) f3 hq hW hH hall'
      (key := a.key) (i := i) (by rw [List.mem_zipIdx_iff_getElem?]; simp [hi]) hids j1 j2 j3 (j5 none) hpos
      (j4 kind) (j5 (some kind)) (by
        have h0 := hth .x
        have h1 := hth .y
        obtain ⟨p1, p2⟩ := hpos
        constructor <;> cases kind <;> simp only [TutAxes.rect, TutAxes.box] <;> split <;> simp only <;> linarith)
      (by simp) ((C43_constraint j2 j3 (j5 none) (j4 kind) (j5 (some kind)) _).mpr
        ((tut_places a x1 y1 (th a.key)).1 kind))
    rw [g1] at k1
    cases k1
    exact k2 sd

/-! ## The second pass -/

/-- The parameters of the thickness constraints after `update_layout_constraints(layout, axs)`. -/
def measured (axs : List (Str × MplAxes Flt)) (key : Str) (kind : AxisKind) : Param Flt :=
  match dictGet axs key with
  | some ax => .axis (ax.axis kind)
  | none => .none

/-- Two statements that differ at most in what `update_layout_constraints` changes. -/
def StmtWith (axs : List (Str × MplAxes Flt)) (st st' : Stmt Flt) : Prop :=
  (st' = st ∧ ∀ c ks ps key, st ≠ .addConstraint c ks ps key) ∨
  ∃ c ks ps ps' key, st = .addConstraint c ks ps key ∧ st' = .addConstraint c ks ps' key ∧
    LayoutOp.WithAxes axs (.addConstraint c ks ps key) (.addConstraint c ks ps' key)

theorem ops_withAxes {axs : List (Str × MplAxes Flt)} {p q : List (Stmt Flt)}
    (h : List.Forall₂ (StmtWith axs) p q) : ∀ {s s' : Session Flt}, s.next = s'.next → s.arrays = s'.arrays →
    s.prims = s'.prims → List.Forall₂ (LayoutOp.WithAxes axs) (s.ops p) (s'.ops q) := by
  induction h with
  | nil => intros; exact .nil
  | @cons st st' p q hst _ ih =>
    intro s s' e1 e2 e3
    rw [Session.ops, Session.ops]
    rcases hst with ⟨rfl, hn⟩ | ⟨c, ks, ps, ps', key, rfl, rfl, hw⟩
    · obtain ⟨n, ar, pr, l⟩ := s
      obtain ⟨n', ar', pr', l'⟩ := s'
      simp only at e1 e2 e3
      subst e1 e2 e3
      have hcall : (⟨n, ar, pr, l⟩ : Session Flt).call st' = (⟨n, ar, pr, l'⟩ : Session Flt).call st' := by
        cases st' <;> rfl
      have hsame : ∀ op, (⟨n, ar, pr, l⟩ : Session Flt).call st' = .ok op → LayoutOp.WithAxes axs op op := by
        intro op hop
        refine .same ?_
        rintro kind c ks ps key rfl
        cases st' with
        | addConstraint c ks ps key => exact absurd rfl (hn c ks ps key)
        | addPrim i key =>
          simp only [Session.call, bind, Except.bind] at hop
          split at hop <;> cases hop
        | addPrims ps =>
          simp only [Session.call, bind, Except.bind] at hop
          split at hop <;> cases hop
        | _ => cases hop
      have hstep : ∀ l : Layout Flt,
          ((⟨n, ar, pr, l⟩ : Session Flt).step st').1.next = ((⟨n, ar, pr, l'⟩ : Session Flt).step st').1.next ∧
          ((⟨n, ar, pr, l⟩ : Session Flt).step st').1.arrays = ((⟨n, ar, pr, l'⟩ : Session Flt).step st').1.arrays ∧
          ((⟨n, ar, pr, l⟩ : Session Flt).step st').1.prims = ((⟨n, ar, pr, l'⟩ : Session Flt).step st').1.prims := by
        intro l
        cases st' with
        | array xs => exact ⟨rfl, rfl, rfl⟩
        | make e =>
          have : (⟨n, ar, pr, l⟩ : Session Flt).eval e n = (⟨n, ar, pr, l'⟩ : Session Flt).eval e n := by
            cases e <;> rfl
          simp only [Session.step, this]
          split <;> exact ⟨rfl, rfl, rfl⟩
        | addConstraint c ks ps key => exact ⟨rfl, rfl, rfl⟩
        | addPrim i key =>
          have : (⟨n, ar, pr, l⟩ : Session Flt).call (.addPrim i key)
            = (⟨n, ar, pr, l'⟩ : Session Flt).call (.addPrim i key) := rfl
          simp only [Session.step, this]
          cases (⟨n, ar, pr, l'⟩ : Session Flt).call (.addPrim i key) <;> exact ⟨rfl, rfl, rfl⟩
        | addPrims ps =>
          have : (⟨n, ar, pr, l⟩ : Session Flt).call (.addPrims ps)
            = (⟨n, ar, pr, l'⟩ : Session Flt).call (.addPrims ps) := rfl
          simp only [Session.step, this]
          cases (⟨n, ar, pr, l'⟩ : Session Flt).call (.addPrims ps) <;> exact ⟨rfl, rfl, rfl⟩
      obtain ⟨f1, f2, f3⟩ := hstep l
      refine List.rel_append ?_ (ih f1 f2 f3)
      rw [← hcall]
      split
      · rename_i op hop
        exact .cons (hsame op hop) .nil
      · exact .nil
    · exact .cons hw (ih e1 e2 e3)

theorem stmtWith_same {axs : List (Str × MplAxes Flt)} {c : Cons Flt} {ks : List Str} {ps : List (Param Flt)}
    {key : Str} (hs : c.ty.axisKind = none) :
    StmtWith axs (.addConstraint c ks ps key) (.addConstraint c ks ps key) := by
  refine .inr ⟨c, ks, ps, ps, key, rfl, rfl, .same ?_⟩
  rintro kind c' ks' ps' key' e h
  cases e
  rw [thickness_eq] at h
  obtain rfl := Except.ok.inj h
  cases kind <;> cases hs

/-- `update_layout_constraints` amounts to running the program with the measured axes. -/
theorem tut_withAxes {t : TutTools} (hT : t.OK) (W H : ℝ) {specs : List TutAxes}
    (hk : ∀ a ∈ specs, '/' ∉ a.key) {axs : List (Str × MplAxes Flt)} {th : Str → AxisKind → ℝ}
    (hax : ∀ a ∈ specs, ∃ ax, dictGet axs a.key = some ax ∧ ∀ kind, ∃ v,
      (ct.getAxisThickness (ax.axis kind)).1 = .ok v) :
    List.Forall₂ (StmtWith axs) (tutProg t W H specs fun _ _ => .none) (tutProg t W H specs (measured axs)) := by
  have hB : t.box = boxT := by
    have := hT.box; rw [box_eq] at this; exact (Except.ok.inj this).symm
  have hP : ∀ kind side, t.position kind side = positionT kind side false := fun kind side => by
    have := hT.position kind side; rw [position_eq] at this; exact (Except.ok.inj this).symm
  have hM : ∀ side, t.margin side = cstr (marginT false side) := fun side => by
    have := hT.margin side; rw [ct_margin_eq] at this; exact (Except.ok.inj this).symm
  have hf : t.fix = cstr con.coordinate := by
    have := hT.fix; rw [ct_fix_eq] at this; exact (Except.ok.inj this).symm
  have hx : t.xLength = cstr con.xLength := by
    have := hT.xLength; rw [ct_xLength_eq] at this; exact (Except.ok.inj this).symm
  have hy : t.yLength = cstr con.yLength := by
    have := hT.yLength; rw [ct_yLength_eq] at this; exact (Except.ok.inj this).symm
  have quiet : ∀ st : Stmt Flt, (∀ c ks ps key, st ≠ .addConstraint c ks ps key) → StmtWith axs st st :=
    fun st h => .inl ⟨rfl, h⟩
  have box : ∀ ks, StmtWith axs (.addConstraint t.box ks [] []) (.addConstraint t.box ks [] []) :=
    fun ks => stmtWith_same (by rw [hB]; rfl)
  have pos : ∀ kind side ks, StmtWith axs (.addConstraint (t.position kind side) ks [] [])
      (.addConstraint (t.position kind side) ks [] []) :=
    fun kind side ks => stmtWith_same (by rw [hP]; cases kind <;> rfl)
  have mar : ∀ side ks ps, StmtWith axs (.addConstraint (t.margin side) ks ps [])
      (.addConstraint (t.margin side) ks ps []) :=
    fun side ks ps => stmtWith_same (by rw [hM]; cases side <;> rfl)
  refine List.rel_append (List.rel_append ?_ ?_) ?_
  · exact .cons (quiet _ (by intro _ _ _ _ e; cases e)) (.cons (quiet _ (by intro _ _ _ _ e; cases e)) .nil)
  · exact .cons (box _) (.cons (stmtWith_same (by rw [hf]; rfl)) (.cons (stmtWith_same (by rw [hx]; rfl))
      (.cons (stmtWith_same (by rw [hy]; rfl)) .nil)))
  · have : ∀ n, List.Forall₂ (StmtWith axs)
        ((specs.zipIdx n).flatMap fun ai =>
          [.make (.axes .default none true true false false), .addPrim ai.2 ai.1.key] ++
            addAll (tutAxesCons t (fun _ _ => .none) ai.1))
        ((specs.zipIdx n).flatMap fun ai =>
          [.make (.axes .default none true true false false), .addPrim ai.2 ai.1.key] ++
            addAll (tutAxesCons t (measured axs) ai.1)) := by
      induction specs with
      | nil => intro n; exact .nil
      | cons a specs ih =>
        intro n
        rw [List.zipIdx_cons, List.flatMap_cons, List.flatMap_cons]
        refine List.rel_append ?_ (ih (fun x hx => hk x (by simp [hx])) (fun x hx => hax x (by simp [hx])) _)
        refine .cons (quiet _ (by intro _ _ _ _ e; cases e)) (.cons (quiet _ (by intro _ _ _ _ e; cases e)) ?_)
        obtain ⟨ax, h1, h2⟩ := hax a (by simp)
        have thk : ∀ kind, StmtWith axs
            (.addConstraint (t.thickness kind) [a.key ++ tutKey (some kind)] [.none] [])
            (.addConstraint (t.thickness kind) [a.key ++ tutKey (some kind)] [measured axs a.key kind] []) := by
          intro kind
          refine .inr ⟨_, _, _, _, _, rfl, rfl, ?_⟩
          rw [measured, h1]
          obtain ⟨v, hv⟩ := h2 kind
          have hsp : splitAll (a.key ++ tutKey (some kind)) = a.key :: [axisBoxKey kind] := by
            have e : tutKey (some kind) = '/' :: axisBoxKey kind := by cases kind <;> rfl
            rw [e, splitAll_append_slash, splitAll_noslash (hk a (by simp)),
              splitAll_noslash (axisBoxKey_noslash kind)]
            rfl
          exact .thickness (hT.thickness kind) hsp h1 hv
        exact .cons (box _) (.cons (box _) (.cons (box _) (.cons (pos _ _ _) (.cons (pos _ _ _)
          (.cons (thk .x) (.cons (thk .y) (.cons (mar _ _ _) (.cons (mar _ _ _) (.cons (mar _ _ _)
            (.cons (mar _ _ _) .nil))))))))))
    exact this 1

/-- C81: the two passes of the tutorial, for any figure size, any number of axes, any sides for their
axes and any margins.  Every call of the program succeeds; solving and `subplots` succeed and draw the
axes with axis boxes of thickness 0.  Whatever thicknesses the axes that `matplotlib` made then have
(with their ticks on the sides on which `subplots` put them), `update_layout_constraints` and solving
again succeed, and `update_subplots` moves every frame so that the margins are kept from the outer side
of the axis boxes of the measured thicknesses. -/
theorem C81_tutorial (num : Numerics Flt) (hnum : Exact num) (t : TutTools) (hT : t.OK) (W H : ℝ)
    (hW : W ≠ 0) (hH : H ≠ 0) (specs : List TutAxes)
    (hkeys : ∀ a ∈ specs, '/' ∉ a.key ∧ k!"Axes" <:+: a.key) (hnd : (specs.map (·.key)).Nodup)
    (base : Nat) (e f : ℝ) (maxIter : Int) (hmax : 1 ≤ maxIter) :
    let prog := tutProg t W H specs fun _ _ => .none
    let layout := ((Session.start : Session Flt).run prog).layout
    (∀ o ∈ (Session.start : Session Flt).outcomes prog, o = .ok ()) ∧
    ∃ r info calls axs,
      solve num layout base (fin e) (fin f) maxIter k!"newton" = .ok (r, info) ∧
      subplots r k!"Figure" none = .ok (calls, axs) ∧ axs = (specs.map (·.key)).zipIdx ∧
      Drawn W H specs (fun _ _ => 0) calls ∧
      ∀ (view : List (Str × MplAxes Flt)) (th : Str → AxisKind → ℝ),
        (∀ a ∈ specs, ∃ ax, dictGet view a.key = some ax ∧ ∀ kind,
          (ax.axis kind).ticksPosition = sideName (a.side kind) ∧
          thicknessOf (ax.axis kind) (a.side kind) = fin (th a.key kind)) →
        ∃ layout' r' info' calls', updateLayoutConstraints layout view = .ok layout' ∧
          solve num layout' base (fin e) (fin f) maxIter k!"newton" = .ok (r', info') ∧
          updateSubplots r' k!"Figure" axs = .ok calls' ∧ Drawn W H specs th calls' := by
  intro prog layout
  have hm0 : ∀ a ∈ specs, ∀ kind : AxisKind, Thick ((fun _ _ => .none : Str → AxisKind → Param Flt) a.key kind)
      ((fun _ _ => 0 : Str → AxisKind → ℝ) a.key kind) := fun a _ kind => ⟨rfl, .inl rfl⟩
  obtain ⟨c1, r, info, calls, c2, c3, c4, c5⟩ := tut_core num hnum hT hW hH hkeys hnd
    (m := fun _ _ => .none) (th := fun _ _ => 0) hm0 base e f maxIter hmax
  refine ⟨c1, ?_⟩
  have hax : axesKeysOf r none = specs.map (·.key) := by
    show r.keys.filter (hasSub k!"Axes") = _
    rw [c3, List.filter_cons_of_neg (by decide), List.filter_eq_self]
    intro k hk
    obtain ⟨x, hx, rfl⟩ := List.mem_map.mp hk
    exact (hasSub_iff _ _).mpr (hkeys x hx).2
  have hdict : dictOfZip (specs.map (·.key)) (List.range (specs.map (·.key)).length)
      = (specs.map (·.key)).zipIdx := by
    rw [dictOfZip_of_nodup hnd, List.zipIdx_eq_zip_range', List.range_eq_range']
  have hsub : subplots r k!"Figure" none = .ok (.newFigure 1 1 ::
      ((List.range (specs.map (·.key)).length).map
        (fun i => DrawCall.addAxes i ((0, 0, 1, 1) : Flt × Flt × Flt × Flt)) ++ calls),
      (specs.map (·.key)).zipIdx) := by
    simp only [subplots, hax, hdict, c4, bind, Except.bind]
  refine ⟨r, info, _, _, c2, hsub, rfl, ?_, ?_⟩
  · refine ⟨fun w h => ?_, fun i a hi rect => ?_, fun i a hi h1 h2 kind s => ?_⟩
    · rw [← c5.size]
      simp
    · rw [← c5.frame i a hi]
      simp
    · rw [← c5.ticks i a hi h1 h2]
      simp
  · intro view th hview
    have hth : ∀ a ∈ specs, ∀ kind, Thick (measured view a.key kind) (th a.key kind) := by
      intro a ha kind
      obtain ⟨ax, h1, h2⟩ := hview a ha
      obtain ⟨h3, h4⟩ := h2 kind
      rw [measured, h1]
      refine ⟨?_, .inr ⟨_, _, rfl, by rw [C45_measure_partial _ _ h3]⟩⟩
      simp only [ct.axisThicknessParams, C45_measure_partial _ _ h3, h4, bind, Except.bind]
    obtain ⟨-, r', info', calls', k2, -, k4, k5⟩ :=
      tut_core num hnum hT hW hH hkeys hnd hth base e f maxIter hmax
    have hp : Plain prog := plain_tut hT W H (th := fun _ _ => 0) hm0 fun x hx => (hkeys x hx).1
    have hrel : List.Forall₂ (LayoutOp.WithAxes view) ((Session.start : Session Flt).ops prog)
        ((Session.start : Session Flt).ops (tutProg t W H specs (measured view))) := by
      refine ops_withAxes (tut_withAxes hT W H (fun x hx => (hkeys x hx).1) (th := th) ?_) rfl rfl rfl
      intro a ha
      obtain ⟨ax, h1, h2⟩ := hview a ha
      exact ⟨ax, h1, fun kind => ⟨_, by rw [C45_measure_partial _ _ (h2 kind).1]⟩⟩
    have all : ∀ {P : LayoutOp Flt → Prop}, (∀ p key, p.WF → P (.addPrim p key)) →
        (∀ ps, (∀ kp ∈ ps, Node.WF kp.2) → P (.addPrims ps)) →
        (∀ c ks ps key, Stmt.Affine (.addConstraint c ks ps key) → P (.addConstraint c ks ps key)) →
        ∀ op ∈ (Session.start : Session Flt).ops prog, P op := by
      intro P h1 h2 h3
      exact Session.ops_all finite_consts h1 h2 ProgOK.start (fun st hs => (hp st hs).1)
        (fun st hs => finite_all (hp st hs).2.1) fun c ks ps key h => h3 c ks ps key (hp _ h).2.2
    obtain ⟨l', u1, u2⟩ := C77_rebuild 0 view _ _
      (all (fun _ _ h => h) (fun _ h => h) fun c ks ps key h => by
        obtain ⟨_, s, h1, h2, h3, _⟩ := h; exact ⟨s, h1, h2, h3⟩)
      (all (fun _ _ _ => trivial) (fun _ _ => trivial) fun c ks ps key h => h.1) hrel
    refine ⟨l', r', info', calls', ?_, ?_, k4, k5⟩
    · rw [← u1]
      show updateLayoutConstraints ((Session.start : Session Flt).run prog).layout view = _
      rw [Session.run_ops]
      rfl
    · rw [solve_trees u2, ← k2, Session.run_ops]
      rfl

/-- The constraint objects exist. -/
theorem tutTools_exist : ∃ t : TutTools, t.OK :=
  ⟨⟨boxT, cstr con.coordinate, cstr con.xLength, cstr con.yLength, fun k s => positionT k s false, thicknessT,
    fun side => cstr (marginT false side)⟩,
    ⟨box_eq, ct_fix_eq, ct_xLength_eq, ct_yLength_eq, fun k s => position_eq k s false, thickness_eq,
      ct_margin_eq false⟩⟩

/-- The axes of the tutorial: the x axis on top, the y axis on the right, margins 0.1, 1/4, 0.1, 1/4. -/
noncomputable def tutSpec : TutAxes :=
  ⟨k!"Axes", true, true, fun s => match s with | .left | .bottom => 1 / 10 | .right | .top => 1 / 4⟩

/-- Its axes after plotting, in a figure of 6 by 3 inches: the ticks and tick labels take 0.3 inches
above the frame and 0.6 inches to its right. -/
noncomputable def tutView : List (Str × MplAxes Flt) :=
  [(k!"Axes", ⟨⟨true, fun _ => some ⟨fin 0, fin 0, fin 1, fin (9/10)⟩, k!"top", fin 6, fin 3,
      ⟨fin 0, fin 0, fin (9/10), fin (8/10)⟩⟩,
    ⟨true, fun _ => some ⟨fin 0, fin 0, fin 1, fin 1⟩, k!"right", fin 6, fin 3,
      ⟨fin 0, fin 0, fin (9/10), fin (8/10)⟩⟩⟩)]

/-- The hypotheses of `C81_tutorial` are met by the tutorial itself, and there the frame is moved to
`[0.1, 5.15] × [0.1, 2.45]`. -/
example : (∀ a ∈ [tutSpec], '/' ∉ a.key ∧ k!"Axes" <:+: a.key) ∧
    (∀ a ∈ [tutSpec], ∃ ax, dictGet tutView a.key = some ax ∧ ∀ kind,
      (ax.axis kind).ticksPosition = sideName (a.side kind) ∧
      thicknessOf (ax.axis kind) (a.side kind)
        = fin ((fun _ kind => match kind with | .x => 3 / 10 | .y => 6 / 10 : Str → AxisKind → ℝ) a.key kind)) ∧
    tutSpec.frame 6 3 (fun kind => match kind with | .x => 3 / 10 | .y => 6 / 10)
      = ⟨1 / 10, 1 / 10, 515 / 100, 245 / 100⟩ := by
  refine ⟨?_, ?_, ?_⟩
  · intro a ha
    rw [List.mem_singleton.mp ha]
    exact ⟨by decide, by decide⟩
  · intro a ha
    rw [List.mem_singleton.mp ha]
    refine ⟨_, rfl, fun kind => ?_⟩
    cases kind
    · refine ⟨rfl, ?_⟩
      show fin 3 * (fin (9/10) - fin (8/10)) = fin (3 / 10)
      rw [fin_sub, fin_mul]
      norm_num
    · refine ⟨rfl, ?_⟩
      show fin 6 * (fin 1 - fin (9/10)) = fin (6 / 10)
      rw [fin_sub, fin_mul]
      norm_num
  · simp only [TutAxes.frame, TutAxes.pad, TutAxes.side, tutSpec, if_true, reduceCtorEq, if_false]
    norm_num

end MplLayout.Props
