import Verif.Lemmas.Readme
import Verif.Props.EndToEnd
import Verif.Props.Accept

/-!
# C68 for the program of the README, with any number of axes
-/

namespace MplLayout.Props

open Solver Flt

/-- What the program asks of one axes: which axis boxes it has, and its margins to the figure. -/
structure AxesSpec where
  key : Str
  xaxis : Bool
  yaxis : Bool
  twinx : Bool
  twiny : Bool
  left : ℝ
  right : ℝ
  bottom : ℝ
  top : ℝ

/-- The constraint objects of the program. -/
structure Tools where
  box : Cons Flt
  width : Cons Flt
  height : Cons Flt
  margin : con.Side → Cons Flt

/-- They are what the classes `Box`, `Width`, `Height` and `InnerMargin` make. -/
structure Tools.OK (t : Tools) : Prop where
  box : ct.box = .ok t.box
  width : ct.width = .ok t.width
  height : ct.height = .ok t.height
  margin : ∀ side, ct.margin false side = .ok (t.margin side)

/-- The statements for the figure (`README.md`, first listing). -/
def figStmts (t : Tools) (W H : ℝ) : List (Stmt Flt) :=
  [.make (.quadrilateral .default none), .addPrim 0 k!"Figure",
   .addConstraint t.box [k!"Figure"] [] [],
   .addConstraint t.width [k!"Figure"] [.num (fin W)] [],
   .addConstraint t.height [k!"Figure"] [.num (fin H)] []]

/-- The statements for one axes, the `i`-th primitive of the program (`README.md`, second listing). -/
def axesStmts (t : Tools) (i : Nat) (a : AxesSpec) : List (Stmt Flt) :=
  [.make (.axes .default none a.xaxis a.yaxis a.twinx a.twiny), .addPrim i a.key,
   .addConstraint t.box [a.key ++ k!"/Frame"] [] [],
   .addConstraint (t.margin .bottom) [a.key ++ k!"/Frame", k!"Figure"] [.num (fin a.bottom)] [],
   .addConstraint (t.margin .top) [a.key ++ k!"/Frame", k!"Figure"] [.num (fin a.top)] [],
   .addConstraint (t.margin .left) [a.key ++ k!"/Frame", k!"Figure"] [.num (fin a.left)] [],
   .addConstraint (t.margin .right) [a.key ++ k!"/Frame", k!"Figure"] [.num (fin a.right)] []]

/-- The program. -/
def readmeProg (t : Tools) (W H : ℝ) (specs : List AxesSpec) : List (Stmt Flt) :=
  figStmts t W H ++ (specs.zipIdx 1).flatMap fun ai => axesStmts t ai.2 ai.1

/-! ## Executing it -/

theorem run_append (s : Session Flt) (p q : List (Stmt Flt)) : s.run (p ++ q) = (s.run p).run q := by
  simp [Session.run, List.foldl_append]

theorem constraints_append (s : Session Flt) (p q : List (Stmt Flt)) :
    s.constraints (p ++ q) = s.constraints p ++ (s.run p).constraints q := by
  induction p generalizing s with
  | nil => rfl
  | cons st p ih =>
    simp only [List.cons_append, Session.constraints, ih, List.append_assoc]
    rfl

theorem outcomes_append (s : Session Flt) (p q : List (Stmt Flt)) :
    s.outcomes (p ++ q) = s.outcomes p ++ (s.run p).outcomes q := by
  induction p generalizing s with
  | nil => rfl
  | cons st p ih =>
    simp only [List.cons_append, Session.outcomes, ih]
    rfl

/-- The effect of statements that succeed. -/
structure Does (s : Session Flt) (prog : List (Stmt Flt)) (cs : List (Added Flt)) (s' : Session Flt) :
    Prop where
  run : s.run prog = s'
  cons : s.constraints prog = cs
  ok : ∀ o ∈ s.outcomes prog, o = .ok ()

theorem Does.append {s s' s'' : Session Flt} {p q : List (Stmt Flt)} {cs ds : List (Added Flt)}
    (h : Does s p cs s') (h' : Does s' q ds s'') : Does s (p ++ q) (cs ++ ds) s'' := by
  refine ⟨?_, ?_, ?_⟩
  · rw [run_append, h.run, h'.run]
  · rw [constraints_append, h.run, h.cons, h'.cons]
  · intro o ho
    rw [outcomes_append, h.run] at ho
    rcases List.mem_append.mp ho with ho | ho
    · exact h.ok o ho
    · exact h'.ok o ho

/-- Statements that add nothing. -/
theorem Does.quiet {s s' : Session Flt} {st : Stmt Flt} (h : s.step st = (s', .ok ()))
    (hq : ∀ c ks ps key, st ≠ .addConstraint c ks ps key) : Does s [st] [] s' := by
  refine ⟨?_, ?_, ?_⟩
  · show (s.step st).1 = s'
    rw [h]
  · cases st with
    | addConstraint c ks ps key => exact absurd rfl (hq c ks ps key)
    | _ => rfl
  · intro o ho
    simp only [Session.outcomes, h, List.mem_singleton] at ho
    exact ho

/-- The state of the program after the figure and some axes: what the layout's primitives are, where
their arrays are, and that its constraints are in order. -/
structure Built (ts : List (AxesSpec × Nat)) (s : Session Flt) : Prop where
  inv : s.layout.Inv
  prim : s.layout.prim = .mk .primitiveNode ⟨0, []⟩ ((k!"Figure", unitQuad 1) ::
    ts.map fun t => (t.1.key, axesTree t.1.xaxis t.1.yaxis t.1.twinx t.1.twiny t.2))
  prims : s.prims.length = ts.length + 1
  sep : ts.Pairwise fun t u => frameId t.1.xaxis t.1.yaxis t.1.twinx t.1.twiny t.2 + 9 ≤ u.2
  low : ∀ t ∈ ts, 10 ≤ t.2
  high : ∀ t ∈ ts, frameId t.1.xaxis t.1.yaxis t.1.twinx t.1.twiny t.2 + 9 ≤ s.next
  next : 10 ≤ s.next

theorem Does.constraint {s : Session Flt} {ts : List (AxesSpec × Nat)} (hb : Built ts s) {c : Cons Flt}
    {ks : List Str} {ps : List (Param Flt)}
    (hc : (LayoutOp.addConstraint c ks ps []).Sensible)
    (hk : ∃ prims, List.Forall₂ (fun k p => s.layout.prim.getChild k = .ok p) ks prims ∧
        List.Forall₂ (fun (p : Prim Flt) t => p.ty.IsA t) prims c.value.sig.primTypes)
    (hp : ps.length = c.value.sig.paramTypes.length) :
    ∃ s', Does s [.addConstraint c ks ps []] [⟨c, ks, ps⟩] s' ∧ Built ts s' := by
  obtain ⟨prims, h1, h2⟩ := hk
  have hok := (addConstraint_ok_iff hb.inv c ks ps [] (Sensible.regular hc)).mpr
    ⟨⟨prims, h1, h2, hp⟩, .inl rfl⟩
  have hst : s.step (.addConstraint c ks ps [])
      = ({ s with layout := (s.layout.addConstraint c ks ps []).1 }, .ok ()) := by
    rw [← hok]; rfl
  refine ⟨_, ⟨rfl, ?_, ?_⟩, ?_⟩
  · simp only [Session.constraints, hst, List.append_nil]
  · intro o ho
    simp only [Session.outcomes, hst, List.mem_singleton] at ho
    exact ho
  · show Built ts (s.step (.addConstraint c ks ps [])).1
    rw [hst]
    exact ⟨hb.inv.addConstraint (Sensible.regular hc), by
      show (s.layout.addConstraint c ks ps []).1.prim = _
      rw [addConstraint_prim]; exact hb.prim, hb.prims, hb.sep, hb.low, hb.high, hb.next⟩

/-- The figure. -/
theorem Built.figure {s : Session Flt} {ts : List (AxesSpec × Nat)} (hb : Built ts s) :
    s.layout.prim.getChild k!"Figure" = .ok (unitQuad 1) := by
  rw [hb.prim]
  rfl

theorem Built.axes {s : Session Flt} {ts : List (AxesSpec × Nat)} (hb : Built ts s)
    {t : AxesSpec × Nat} (ht : t ∈ ts) (hk : '/' ∉ t.1.key) :
    s.layout.prim.getChild t.1.key = .ok (axesTree t.1.xaxis t.1.yaxis t.1.twinx t.1.twiny t.2) ∧
    s.layout.prim.getChild (t.1.key ++ k!"/Frame")
      = .ok (unitQuad (frameId t.1.xaxis t.1.yaxis t.1.twinx t.1.twiny t.2)) := by
  have h1 : s.layout.prim.At [t.1.key] (axesTree t.1.xaxis t.1.yaxis t.1.twinx t.1.twiny t.2) := by
    rw [hb.prim]
    exact .down (List.mem_cons_of_mem _ (List.mem_map.mpr ⟨t, ht, rfl⟩)) (.here _)
  constructor
  · rw [Node.getChild_ok_iff, Node.find_iff_At hb.inv.prim, splitAll_noslash hk]
    exact h1
  · rw [Node.getChild_ok_iff, Node.find_iff_At hb.inv.prim,
      show t.1.key ++ k!"/Frame" = t.1.key ++ '/' :: k!"Frame" from rfl, splitAll_append_slash,
      splitAll_noslash hk, splitAll_noslash (s := k!"Frame") (by decide)]
    exact At_child h1 (axesTree_frame _ _ _ _ _)

/-- The constraints of the figure. -/
def figCons (t : Tools) (W H : ℝ) : List (Added Flt) :=
  [⟨t.box, [k!"Figure"], []⟩, ⟨t.width, [k!"Figure"], [.num (fin W)]⟩,
   ⟨t.height, [k!"Figure"], [.num (fin H)]⟩]

/-- The constraints of an axes. -/
def axesCons (t : Tools) (a : AxesSpec) : List (Added Flt) :=
  [⟨t.box, [a.key ++ k!"/Frame"], []⟩,
   ⟨t.margin .bottom, [a.key ++ k!"/Frame", k!"Figure"], [.num (fin a.bottom)]⟩,
   ⟨t.margin .top, [a.key ++ k!"/Frame", k!"Figure"], [.num (fin a.top)]⟩,
   ⟨t.margin .left, [a.key ++ k!"/Frame", k!"Figure"], [.num (fin a.left)]⟩,
   ⟨t.margin .right, [a.key ++ k!"/Frame", k!"Figure"], [.num (fin a.right)]⟩]

theorem tools_box {t : Tools} (h : t.OK) : t.box = boxT := by
  have := h.box; rw [box_eq] at this; exact (Except.ok.inj this).symm

theorem tools_width {t : Tools} (h : t.OK) : t.width = cstr widthT := by
  have := h.width; rw [ct_width_eq] at this; exact (Except.ok.inj this).symm

theorem tools_height {t : Tools} (h : t.OK) : t.height = cstr heightT := by
  have := h.height; rw [ct_height_eq] at this; exact (Except.ok.inj this).symm

theorem tools_margin {t : Tools} (h : t.OK) (side : con.Side) :
    t.margin side = cstr (marginT false side) := by
  have := h.margin side; rw [ct_margin_eq] at this; exact (Except.ok.inj this).symm

/-- Unary constraints on boxes are accepted. -/
theorem Does.unary {s : Session Flt} {ts : List (AxesSpec × Nat)} (hb : Built ts s) {c : Cons Flt}
    {sh : Shipped} (hs : sh.build = .ok c) (hz : sh.SizeOK) {k : Str} {m : Nat}
    (hk : s.layout.prim.getChild k = .ok (unitQuad m)) {ps : List (Param Flt)} (hps : sh.ParamsOK ps)
    (ht : c.value.sig.primTypes = [.quadrilateral]) (hp : ps.length = c.value.sig.paramTypes.length) :
    ∃ s', Does s [.addConstraint c [k] ps []] [⟨c, [k], ps⟩] s' ∧ Built ts s' :=
  Does.constraint hb ⟨sh, hs, hz, hps⟩ ⟨_, .cons hk .nil, by rw [ht]; exact .cons (.refl _) .nil⟩ hp

theorem Does.marginStep {s : Session Flt} {ts : List (AxesSpec × Nat)} (hb : Built ts s) {t : Tools}
    (hT : t.OK) (side : con.Side) {k : Str} {m : Nat}
    (hk : s.layout.prim.getChild k = .ok (unitQuad m)) (v : ℝ) :
    ∃ s', Does s [.addConstraint (t.margin side) [k, k!"Figure"] [.num (fin v)] []]
      [⟨t.margin side, [k, k!"Figure"], [.num (fin v)]⟩] s' ∧ Built ts s' := by
  refine Does.constraint hb ⟨.margin false side, hT.margin side, trivial, ?_⟩
    ⟨_, .cons hk (.cons hb.figure .nil), ?_⟩ ?_
  · intro p hp
    rw [List.mem_singleton.mp hp]
    trivial
  · rw [tools_margin hT]
    cases side <;> exact .cons (.refl _) (.cons (.refl _) .nil)
  · rw [tools_margin hT]
    cases side <;> rfl

theorem Does.boxStep {s : Session Flt} {ts : List (AxesSpec × Nat)} (hb : Built ts s) {t : Tools}
    (hT : t.OK) {k : Str} {m : Nat} (hk : s.layout.prim.getChild k = .ok (unitQuad m)) :
    ∃ s', Does s [.addConstraint t.box [k] [] []] [⟨t.box, [k], []⟩] s' ∧ Built ts s' :=
  Does.unary hb (sh := .box) hT.box trivial hk trivial (by rw [tools_box hT]; rfl)
    (by rw [tools_box hT]; rfl)

/-- Executing the statements for the figure. -/
theorem does_figure {t : Tools} (hT : t.OK) (W H : ℝ) :
    ∃ s', Does Session.start (figStmts t W H) (figCons t W H) s' ∧ Built [] s' := by
  have h1 : (Session.start : Session Flt).step (.make (.quadrilateral .default none))
      = (⟨10, [], [unitQuad 1], Layout.empty 0⟩, .ok ()) := by
    have : (Session.start : Session Flt).eval (.quadrilateral .default none) 1 = .ok (unitQuad 1, 10) := by
      show newQuadrilateral (K := Flt) none none 1 = .ok (unitQuad 1, 1 + 9)
      exact newQuadrilateral_none_ok 1
    simp only [Session.step, show (Session.start : Session Flt).next = 1 from rfl, this]
    rfl
  have d1 := Does.quiet h1 (by intro c ks ps key e; cases e)
  let l1 : Layout Flt := ((Layout.empty 0 : Layout Flt).addPrim (unitQuad 1) k!"Figure").1
  have h2 : (⟨10, [], [unitQuad 1], Layout.empty 0⟩ : Session Flt).step (.addPrim 0 k!"Figure")
      = (⟨10, [], [unitQuad 1], l1⟩, .ok ()) := rfl
  have d2 := Does.quiet h2 (by intro c ks ps key e; cases e)
  have hq : (unitQuad 1 : Prim Flt).WF := unitQuad_WF 1
  have b2 : Built [] (⟨10, [], [unitQuad 1], l1⟩ : Session Flt) := by
    refine ⟨?_, rfl, rfl, .nil, by simp, by simp, Nat.le_refl _⟩
    exact (Layout.Inv.empty 0).addPrim hq k!"Figure"
  obtain ⟨s3, d3, b3⟩ := Does.boxStep b2 hT b2.figure
  obtain ⟨s4, d4, b4⟩ := Does.unary b3 (sh := .width) hT.width trivial b3.figure (ps := [.num (fin W)])
    (by intro p hp; rw [List.mem_singleton.mp hp]; trivial) (by rw [tools_width hT]; rfl)
    (by rw [tools_width hT]; rfl)
  obtain ⟨s5, d5, b5⟩ := Does.unary b4 (sh := .height) hT.height trivial b4.figure (ps := [.num (fin H)])
    (by intro p hp; rw [List.mem_singleton.mp hp]; trivial) (by rw [tools_height hT]; rfl)
    (by rw [tools_height hT]; rfl)
  exact ⟨s5, d1.append (d2.append (d3.append (d4.append d5))), b5⟩

/-- Making an axes and adding it to the layout. -/
theorem does_newAxes {s : Session Flt} {ts : List (AxesSpec × Nat)}
    (hb : Built ts s) {a : AxesSpec} (h1 : '/' ∉ a.key) (h2 : a.key ≠ k!"Figure")
    (h3 : a.key ∉ ts.map (·.1.key)) :
    ∃ s', Does s [.make (.axes .default none a.xaxis a.yaxis a.twinx a.twiny),
      .addPrim (ts.length + 1) a.key] [] s' ∧ Built (ts ++ [(a, s.next)]) s' := by
  have e1 : s.step (.make (.axes .default none a.xaxis a.yaxis a.twinx a.twiny))
      = ({ s with next := frameId a.xaxis a.yaxis a.twinx a.twiny s.next + 9,
                  prims := s.prims ++ [axesTree a.xaxis a.yaxis a.twinx a.twiny s.next] }, .ok ()) := by
    have : s.eval (.axes .default none a.xaxis a.yaxis a.twinx a.twiny) s.next
        = .ok (axesTree a.xaxis a.yaxis a.twinx a.twiny s.next,
          frameId a.xaxis a.yaxis a.twinx a.twiny s.next + 9) := newAxes_eq _ _ _ _ _
    simp only [Session.step, this]
  have d1 := Does.quiet e1 (by intro c ks ps key e; cases e)
  have hnk : a.key ∉ s.layout.prim.keys := by
    rw [hb.prim]
    simp only [Node.keys, Node.children, List.map_cons, List.map_map, List.mem_cons, not_or]
    exact ⟨h2, h3⟩
  have hadd := Layout.addChild_top s.layout.prim (axesTree a.xaxis a.yaxis a.twinx a.twiny s.next) h1 hnk
  have e2 : (⟨frameId a.xaxis a.yaxis a.twinx a.twiny s.next + 9, s.arrays,
      s.prims ++ [axesTree a.xaxis a.yaxis a.twinx a.twiny s.next], s.layout⟩ : Session Flt).step
        (.addPrim (ts.length + 1) a.key)
      = (⟨frameId a.xaxis a.yaxis a.twinx a.twiny s.next + 9, s.arrays,
      s.prims ++ [axesTree a.xaxis a.yaxis a.twinx a.twiny s.next],
        (s.layout.addPrim (axesTree a.xaxis a.yaxis a.twinx a.twiny s.next) a.key).1⟩, .ok ()) := by
    have hv : Session.var (s.prims ++ [axesTree a.xaxis a.yaxis a.twinx a.twiny s.next]) (ts.length + 1)
        = .ok (axesTree a.xaxis a.yaxis a.twinx a.twiny s.next) := by
      unfold Session.var
      rw [← hb.prims, List.getElem?_concat_length]
    simp only [Session.step, Session.call, hv, bind, Except.bind, Session.stepCall, Layout.step]
    congr 1
    unfold Layout.addPrim
    rw [hadd]
  have d2 := Does.quiet e2 (by intro c ks ps key e; cases e)
  have b2 : Built (ts ++ [(a, s.next)]) (⟨frameId a.xaxis a.yaxis a.twinx a.twiny s.next + 9, s.arrays,
      s.prims ++ [axesTree a.xaxis a.yaxis a.twinx a.twiny s.next],
        (s.layout.addPrim (axesTree a.xaxis a.yaxis a.twinx a.twiny s.next) a.key).1⟩ : Session Flt) := by
    have hgt := frameId_gt a.xaxis a.yaxis a.twinx a.twiny s.next
    refine ⟨hb.inv.addPrim ?_ _, ?_, by simp [hb.prims], ?_, ?_, ?_, ?_⟩
    · exact axesTree_WF _ _ _ _ _
    · show (s.layout.addPrim _ _).1.prim = _
      unfold Layout.addPrim
      rw [hadd]
      simp only [hb.prim, Node.ty, Node.value, Node.children, List.map_append, List.map_cons, List.map_nil,
        List.cons_append]
    · rw [List.pairwise_append]
      refine ⟨hb.sep, List.pairwise_singleton _ _, ?_⟩
      intro u hu y hy
      rw [List.mem_singleton.mp hy]
      exact hb.high u hu
    · intro u hu
      rcases List.mem_append.mp hu with hu | hu
      · exact hb.low u hu
      · rw [List.mem_singleton.mp hu]; exact hb.next
    · intro u hu
      rcases List.mem_append.mp hu with hu | hu
      · have := hb.high u hu
        show _ ≤ frameId a.xaxis a.yaxis a.twinx a.twiny s.next + 9
        omega
      · rw [List.mem_singleton.mp hu]
    · have := hb.next
      show _ ≤ frameId a.xaxis a.yaxis a.twinx a.twiny s.next + 9
      omega
  exact ⟨_, d1.append d2, b2⟩

/-- Executing the statements for an axes. -/
theorem does_axes {t : Tools} (hT : t.OK) {s : Session Flt} {ts : List (AxesSpec × Nat)}
    (hb : Built ts s) {a : AxesSpec} (h1 : '/' ∉ a.key) (h2 : a.key ≠ k!"Figure")
    (h3 : a.key ∉ ts.map (·.1.key)) :
    ∃ s', Does s (axesStmts t (ts.length + 1) a) (axesCons t a) s' ∧ Built (ts ++ [(a, s.next)]) s' := by
  obtain ⟨s2, d2, b2⟩ := does_newAxes hb h1 h2 h3
  have hm : (a, s.next) ∈ ts ++ [(a, s.next)] := by simp
  obtain ⟨s3, d3, b3⟩ := Does.boxStep b2 hT (b2.axes hm h1).2
  obtain ⟨s4, d4, b4⟩ := Does.marginStep b3 hT .bottom (b3.axes hm h1).2 a.bottom
  obtain ⟨s5, d5, b5⟩ := Does.marginStep b4 hT .top (b4.axes hm h1).2 a.top
  obtain ⟨s6, d6, b6⟩ := Does.marginStep b5 hT .left (b5.axes hm h1).2 a.left
  obtain ⟨s7, d7, b7⟩ := Does.marginStep b6 hT .right (b6.axes hm h1).2 a.right
  exact ⟨s7, d2.append (d3.append (d4.append (d5.append (d6.append d7)))), b7⟩

/-- Executing the statements for all axes. -/
theorem does_all {t : Tools} (hT : t.OK) (specs : List AxesSpec) : ∀ {s : Session Flt}
    {ts : List (AxesSpec × Nat)}, Built ts s → (∀ a ∈ specs, '/' ∉ a.key ∧ a.key ≠ k!"Figure") →
    (ts.map (·.1.key) ++ specs.map (·.key)).Nodup →
    ∃ s' ts', Does s ((specs.zipIdx (ts.length + 1)).flatMap fun ai => axesStmts t ai.2 ai.1)
      (specs.flatMap (axesCons t)) s' ∧ Built ts' s' ∧ ts'.map (·.1) = ts.map (·.1) ++ specs := by
  induction specs with
  | nil =>
    intro s ts hb _ _
    exact ⟨s, ts, ⟨rfl, rfl, by simp [Session.outcomes]⟩, hb, by simp⟩
  | cons a specs ih =>
    intro s ts hb hk hn
    obtain ⟨s1, d1, b1⟩ := does_axes hT hb (hk a (by simp)).1 (hk a (by simp)).2 (by
      intro hm
      rw [List.nodup_append] at hn
      exact hn.2.2 _ hm _ (by simp) rfl)
    obtain ⟨s', ts', d2, b2, e⟩ := ih b1 (fun x hx => hk x (by simp [hx])) (by simpa using hn)
    refine ⟨s', ts', ?_, b2, by simpa using e⟩
    simp only [List.length_append, List.length_cons, List.length_nil] at d2
    rw [List.zipIdx_cons, List.flatMap_cons, List.flatMap_cons]
    exact d1.append d2

theorem plain_readme {t : Tools} (hT : t.OK) (W H : ℝ) (specs : List AxesSpec)
    (hk : ∀ a ∈ specs, '/' ∉ a.key) : Plain (readmeProg t W H specs) := by
  have hone : ∀ x : Flt, ∀ p ∈ [Param.num x], p.ArrayLike := by
    intro x p hp
    rw [List.mem_singleton.mp hp]
    trivial
  have hm : ∀ side x, ('/' ∉ ([] : Str)) ∧ ∃ s : Shipped, s.build = .ok (t.margin side) ∧ s.SizeOK ∧
      s.ParamsOK [.num x] ∧ s.IsAffine := fun side x =>
    ⟨by simp, .margin false side, hT.margin side, trivial, hone x, trivial⟩
  have hbox : ('/' ∉ ([] : Str)) ∧ ∃ s : Shipped, s.build = .ok t.box ∧ s.SizeOK ∧
      s.ParamsOK [] ∧ s.IsAffine := ⟨by simp, .box, hT.box, trivial, trivial, trivial⟩
  intro st hst
  rcases List.mem_append.mp hst with hst | hst
  · simp only [figStmts, List.mem_cons, List.not_mem_nil, or_false] at hst
    rcases hst with rfl | rfl | rfl | rfl | rfl
    · exact ⟨trivial, (fun xs e => nomatch e), trivial⟩
    · exact ⟨(by decide : '/' ∉ k!"Figure"), trivial, trivial⟩
    · exact ⟨trivial, trivial, hbox⟩
    · exact ⟨trivial, trivial, by simp, .width, hT.width, trivial, hone _, trivial⟩
    · exact ⟨trivial, trivial, by simp, .height, hT.height, trivial, hone _, trivial⟩
  · obtain ⟨⟨a, i⟩, hai, hst⟩ := List.mem_flatMap.mp hst
    have ha := hk a (List.fst_mem_of_mem_zipIdx hai)
    simp only [axesStmts, List.mem_cons, List.not_mem_nil, or_false] at hst
    rcases hst with rfl | rfl | rfl | rfl | rfl | rfl | rfl
    · exact ⟨trivial, (fun xs e => nomatch e), trivial⟩
    · exact ⟨ha, trivial, trivial⟩
    · exact ⟨trivial, trivial, hbox⟩
    · exact ⟨trivial, trivial, hm _ _⟩
    · exact ⟨trivial, trivial, hm _ _⟩
    · exact ⟨trivial, trivial, hm _ _⟩
    · exact ⟨trivial, trivial, hm _ _⟩

/-- The place of an axes in the figure. -/
def AxesSpec.rect (a : AxesSpec) (W H : ℝ) : Rect := ⟨a.left, a.bottom, W - a.right, H - a.top⟩

/-- What satisfying a constraint means for the list of constraints. -/
theorem value_of_sat {c : Py (Cons Flt)} {c' : Cons Flt} (h : c = .ok c') {keys : List Str}
    {prims : List (Prim Flt)} {param : List (Param Flt)} {r : Prim Flt}
    (hp : List.Forall₂ (fun k p => r.getChild k = .ok p) keys prims) (hs : SatisfiedPy c prims param) :
    ∃ v, (⟨c', keys, param⟩ : Added Flt).Value r v ∧ Zeros v := by
  subst h
  obtain ⟨c'', e, v, h1, h2⟩ := hs
  cases e
  exact ⟨v, ⟨prims, hp, h1⟩, h2⟩

/-- C68 for the program of the README with any figure size and any number of axes, with any axis boxes
and any margins (positive or not): every call succeeds, solving succeeds, and the figure that `subplots`
makes has the size and the axes that the program asks for, at the places that it asks for. -/
theorem C68_readme (num : Numerics Flt) (hnum : Exact num) (t : Tools) (hT : t.OK) (W H : ℝ)
    (hW : W ≠ 0) (hH : H ≠ 0) (specs : List AxesSpec)
    (hkeys : ∀ a ∈ specs, '/' ∉ a.key ∧ k!"Axes" <:+: a.key) (hnd : (specs.map (·.key)).Nodup)
    (base : Nat) (a b : ℝ) (maxIter : Int) (hmax : 1 ≤ maxIter) :
    let prog := readmeProg t W H specs
    (∀ o ∈ (Session.start : Session Flt).outcomes prog, o = .ok ()) ∧
    ∃ r info calls,
      solve num ((Session.start : Session Flt).run prog).layout base (fin a) (fin b) maxIter k!"newton"
        = .ok (r, info) ∧
      subplots r k!"Figure" none = .ok (calls, (specs.map (·.key)).zipIdx) ∧
      (∀ w h, .setSize w h ∈ calls ↔ w = fin W ∧ h = fin H) ∧
      ∀ i spec, specs[i]? = some spec → ∀ rect, .setPosition i rect ∈ calls ↔
        rect = (fin (spec.left / W), fin (spec.bottom / H),
          fin ((W - spec.left - spec.right) / W), fin ((H - spec.bottom - spec.top) / H)) := by
  intro prog
  have hnf : ∀ a ∈ specs, '/' ∉ a.key ∧ a.key ≠ k!"Figure" := by
    intro x hx
    refine ⟨(hkeys x hx).1, fun e => ?_⟩
    have := (hkeys x hx).2
    rw [e] at this
    exact absurd this (by decide)
  obtain ⟨s1, d1, b1⟩ := does_figure hT W H
  obtain ⟨s2, ts, d2, b2, hts⟩ := does_all hT specs b1 hnf (by simpa using hnd)
  have d : Does Session.start prog (figCons t W H ++ specs.flatMap (axesCons t)) s2 := d1.append d2
  refine ⟨d.ok, ?_⟩
  have hp : Plain prog := plain_readme hT W H specs fun x hx => (hkeys x hx).1
  have hts : ts.map (·.1) = specs := hts
  have hok : PrimOK s2.layout.prim := by rw [← d.run]; exact (plain_ok hp).primOK
  have hfin : s2.layout.prim.Finite := by rw [← d.run]; exact plain_finite hp
  let tbl : List (Nat × Rect) := (1, ⟨0, 0, W, H⟩) ::
    ts.map fun t => (frameId t.1.xaxis t.1.yaxis t.1.twinx t.1.twiny t.2, t.1.rect W H)
  have htbl : tbl.Pairwise fun a b => a.1 + 9 ≤ b.1 := by
    rw [List.pairwise_cons]
    refine ⟨?_, ?_⟩
    · intro x hx
      obtain ⟨u, hu, rfl⟩ := List.mem_map.mp hx
      have := frameId_gt u.1.xaxis u.1.yaxis u.1.twinx u.1.twiny u.2
      have := b2.low u hu
      show 1 + 9 ≤ frameId u.1.xaxis u.1.yaxis u.1.twinx u.1.twiny u.2
      omega
    · rw [List.pairwise_map]
      refine b2.sep.imp fun {u v} h => ?_
      have := frameId_gt v.1.xaxis v.1.yaxis v.1.twinx v.1.twiny v.2
      simp only
      omega
  have hS := place_solved tbl hok hfin
  have gfig : (s2.layout.prim.mapV (place tbl)).getChild k!"Figure"
      = .ok ((unitQuad 1).mapV (place tbl)) := by
    rw [Node.getChild_mapV, b2.figure]; rfl
  have rfig : IsRect ((unitQuad 1).mapV (place tbl)) ⟨0, 0, W, H⟩ := place_quad htbl (List.mem_cons_self ..)
  have hsat : ∀ c ∈ figCons t W H ++ specs.flatMap (axesCons t),
      ∃ v, c.Value (s2.layout.prim.mapV (place tbl)) v ∧ Zeros v := by
    intro c hc
    rcases List.mem_append.mp hc with hc | hc
    · simp only [figCons, List.mem_cons, List.not_mem_nil, or_false] at hc
      rcases hc with rfl | rfl | rfl
      · exact value_of_sat hT.box (.cons gfig .nil) ((C33_box rfig).mpr ⟨_, _, _, _, rfl, rfl, rfl, rfl⟩)
      · exact value_of_sat hT.width (.cons gfig .nil) ((C34_width rfig W).mpr (by simp))
      · exact value_of_sat hT.height (.cons gfig .nil) ((C34_height rfig H).mpr (by simp))
    · obtain ⟨x, hx, hc⟩ := List.mem_flatMap.mp hc
      have hx' := hx
      rw [← hts] at hx'
      obtain ⟨u, hu, rfl⟩ := List.mem_map.mp hx'
      have gax : (s2.layout.prim.mapV (place tbl)).getChild (u.1.key ++ k!"/Frame")
          = .ok ((unitQuad (frameId u.1.xaxis u.1.yaxis u.1.twinx u.1.twiny u.2)).mapV (place tbl)) := by
        rw [Node.getChild_mapV, (b2.axes hu (hkeys u.1 hx).1).2]; rfl
      have rax : IsRect ((unitQuad (frameId u.1.xaxis u.1.yaxis u.1.twinx u.1.twiny u.2)).mapV (place tbl))
          (u.1.rect W H) :=
        place_quad htbl (List.mem_cons_of_mem _ (List.mem_map.mpr ⟨u, hu, rfl⟩))
      have mar : ∀ side v, innerGap side (u.1.rect W H) ⟨0, 0, W, H⟩ = v →
          ∃ w, (⟨t.margin side, [u.1.key ++ k!"/Frame", k!"Figure"], [.num (fin v)]⟩ : Added Flt).Value
            (s2.layout.prim.mapV (place tbl)) w ∧ Zeros w := fun side v h =>
        value_of_sat (hT.margin side) (.cons gax (.cons gfig .nil))
          ((C35_innerMargin rax rfig side v).mpr h)
      simp only [axesCons, List.mem_cons, List.not_mem_nil, or_false] at hc
      rcases hc with rfl | rfl | rfl | rfl | rfl
      · exact value_of_sat hT.box (.cons gax .nil) ((C33_box rax).mpr ⟨_, _, _, _, rfl, rfl, rfl, rfl⟩)
      · exact mar _ _ (by simp [innerGap, AxesSpec.rect])
      · exact mar _ _ (by simp [innerGap, AxesSpec.rect])
      · exact mar _ _ (by simp [innerGap, AxesSpec.rect])
      · exact mar _ _ (by simp [innerGap, AxesSpec.rect])
  have hlk : s2.layout.prim.keys = k!"Figure" :: specs.map (·.key) := by
    rw [b2.prim, ← hts]
    simp [Node.keys, Node.children]
  have hfilter : s2.layout.prim.keys.filter (fun k => decide (k!"Axes" <:+: k)) = specs.map (·.key) := by
    rw [hlk, List.filter_cons_of_neg (by decide), List.filter_eq_self]
    intro k hk
    obtain ⟨x, hx, rfl⟩ := List.mem_map.mp hk
    exact decide_eq_true (hkeys x hx).2
  have asks : ∀ {c : Py (Cons Flt)} {c' : Cons Flt} {ks : List Str} {ps : List (Param Flt)}, c = .ok c' →
      (⟨c', ks, ps⟩ : Added Flt) ∈ figCons t W H ++ specs.flatMap (axesCons t) →
      Asks (figCons t W H ++ specs.flatMap (axesCons t)) c ks ps := fun h hm => ⟨_, h, hm⟩
  obtain ⟨r, info, calls, axs, e1, e2, e3, e4, e5⟩ := C68_figure num hnum prog hp s2.layout
    (by rw [d.run]) _ d.cons.symm _ hS.okB hS.same hS.fin hsat k!"Figure" W H hW hH
    ⟨_, _, _, _, _, b2.figure, unitQuad_isQuad 1⟩
    (by
      intro key hk ha
      rw [hlk] at hk
      rcases List.mem_cons.mp hk with rfl | hk
      · exact absurd ha (by decide)
      · obtain ⟨x, hx, rfl⟩ := List.mem_map.mp hk
        have hx' := hx
        rw [← hts] at hx'
        obtain ⟨u, hu, rfl⟩ := List.mem_map.mp hx'
        exact ⟨_, _, _, _, axesTree_shape (b2.axes hu (hkeys u.1 hx).1).1⟩)
    (asks hT.box (by simp [figCons])) (asks hT.width (by simp [figCons]))
    (asks hT.height (by simp [figCons])) base a b maxIter hmax
  rw [hfilter] at e3
  subst e3
  rw [d.run]
  refine ⟨r, info, calls, e1, e2, e4, ?_⟩
  intro i spec hi rect
  have hmem : spec ∈ specs := List.mem_of_getElem? hi
  have hin : ∀ c ∈ axesCons t spec, c ∈ figCons t W H ++ specs.flatMap (axesCons t) := fun c hc =>
    List.mem_append_right _ (List.mem_flatMap.mpr ⟨spec, hmem, hc⟩)
  exact e5 spec.key i (by rw [List.mem_zipIdx_iff_getElem?]; simp [hi]) spec.left spec.right spec.bottom
    spec.top (asks hT.box (hin _ (by simp [axesCons]))) (asks (hT.margin .left) (hin _ (by simp [axesCons])))
    (asks (hT.margin .right) (hin _ (by simp [axesCons])))
    (asks (hT.margin .bottom) (hin _ (by simp [axesCons])))
    (asks (hT.margin .top) (hin _ (by simp [axesCons]))) rect

/-- The constraint objects exist, and the README's own figure is an instance: 5 by 4 inches, one axes
with its axis boxes and margins of 2, 0.5, 0.5 and 0.5 inches. -/
example : ∃ t : Tools, t.OK ∧ ∃ specs : List AxesSpec,
    (∀ a ∈ specs, '/' ∉ a.key ∧ k!"Axes" <:+: a.key) ∧ (specs.map (·.key)).Nodup ∧ specs.length = 1 :=
  ⟨⟨boxT, cstr widthT, cstr heightT, fun side => cstr (marginT false side)⟩,
    ⟨box_eq, ct_width_eq, ct_height_eq, ct_margin_eq false⟩,
    [⟨k!"MyAxes", true, true, false, false, 2, 0.5, 0.5, 0.5⟩], by
      intro a ha
      rw [List.mem_singleton.mp ha]
      exact ⟨by decide, by decide⟩, by simp, rfl⟩

end MplLayout.Props
