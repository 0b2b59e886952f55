import Verif.Lemmas.GridFigure

/-!
# C84: the figure with a grid of axes of fixed aspect ratio
-/

namespace MplLayout.Props

open Solver Flt

/-- The constraint objects of the program. -/
structure GridTools where
  box : Cons Flt
  width : Cons Flt
  fix : Cons Flt
  aspect : Cons Flt
  grid : Cons Flt
  margin : con.Side → Cons Flt

/-- They are what the classes make. -/
structure GridTools.OK (t : GridTools) (R C : Nat) : Prop where
  box : ct.box = .ok t.box
  width : ct.width = .ok t.width
  fix : ct.fix = .ok t.fix
  aspect : ct.aspectRatio = .ok t.aspect
  grid : ct.grid R C = .ok t.grid
  margin : ∀ side, ct.margin false side = .ok (t.margin side)

/-- The key of the frame in row `r` and column `c`. -/
def GridSpec.frameKey (g : GridSpec) (r c : Nat) : Str := g.keys.getD (r * g.C + c) [] ++ k!"/Frame"

/-- What is asked of the figure. -/
noncomputable def gridFigCons (t : GridTools) (g : GridSpec) : List (Added Flt) :=
  [⟨t.box, [k!"Figure"], []⟩, ⟨t.width, [k!"Figure"], [.num (fin g.W)]⟩,
   ⟨t.fix, [k!"Figure/Line0/Point0"], [.arr [fin 0, fin 0]]⟩]

/-- What is asked of the grid. -/
noncomputable def gridTailCons (t : GridTools) (g : GridSpec) : List (Added Flt) :=
  [⟨t.aspect, [g.frameKey 0 0], [.num (fin g.aspect)]⟩,
   ⟨t.grid, g.keys.map (· ++ k!"/Frame"),
     [arrOf (g.C - 1) g.ws, arrOf (g.R - 1) g.hs, arrOf (g.C - 1) g.ms, arrOf (g.R - 1) g.ns]⟩,
   ⟨t.margin .top, [g.frameKey 0 0, k!"Figure"], [.num (fin g.top)]⟩,
   ⟨t.margin .bottom, [g.frameKey (g.R - 1) 0, k!"Figure"], [.num (fin g.bottom)]⟩,
   ⟨t.margin .left, [g.frameKey 0 0, k!"Figure"], [.num (fin g.left)]⟩,
   ⟨t.margin .right, [g.frameKey 0 (g.C - 1), k!"Figure"], [.num (fin g.right)]⟩]

/-- The statements for one axes, the `i`-th primitive of the program. -/
def gridAxesStmts (t : GridTools) (i : Nat) (key : Str) : List (Stmt Flt) :=
  [.make (.axes .default none false false false false), .addPrim i key] ++
    addAll [⟨t.box, [key ++ k!"/Frame"], []⟩]

/-- The program of `examples/grid_axes.ipynb`. -/
noncomputable def gridProg (t : GridTools) (g : GridSpec) : List (Stmt Flt) :=
  ([.make (.quadrilateral .default none), .addPrim 0 k!"Figure"] ++ addAll (gridFigCons t g)) ++
  (((g.keys.zipIdx 1).flatMap fun ki => gridAxesStmts t ki.2 ki.1) ++ addAll (gridTailCons t g))

/-- Its constraints. -/
noncomputable def gridCons (t : GridTools) (g : GridSpec) : List (Added Flt) :=
  gridFigCons t g ++ ((g.keys.map fun key => ⟨t.box, [key ++ k!"/Frame"], []⟩) ++ gridTailCons t g)

/-- The keys are as the program needs them: one per axes, all different, without slashes, and
recognised as axes. -/
structure GridSpec.KeysOK (g : GridSpec) : Prop where
  rows : 0 < g.R
  cols : 0 < g.C
  len : g.keys.length = g.R * g.C
  nodup : g.keys.Nodup
  slash : ∀ k ∈ g.keys, '/' ∉ k
  axes : ∀ k ∈ g.keys, k!"Axes" <:+: k

theorem GridSpec.KeysOK.get {g : GridSpec} (h : g.KeysOK) {r c : Nat} (hr : r < g.R) (hc : c < g.C) :
    ∃ k ∈ g.keys, g.keys[r * g.C + c]? = some k ∧ g.frameKey r c = k ++ k!"/Frame" := by
  have hlt : r * g.C + c < g.keys.length := by
    rw [h.len]
    have : (r + 1) * g.C ≤ g.R * g.C := Nat.mul_le_mul_right _ hr
    rw [Nat.succ_mul] at this
    omega
  refine ⟨g.keys[r * g.C + c], List.getElem_mem _, List.getElem?_eq_getElem hlt, ?_⟩
  rw [frameKey, List.getD_eq_getElem?_getD, List.getElem?_eq_getElem hlt]
  rfl

/-- An axes without axis boxes. -/
def bareAxes (key : Str) : AxesSpec := ⟨key, false, false, false, false, 0, 0, 0, 0⟩

/-! ## Executing the program -/

variable {t : GridTools} {g : GridSpec}

/-- Making the figure. -/
theorem does_newFigure :
    ∃ s', Does Session.start [.make (.quadrilateral .default none), .addPrim 0 k!"Figure"] [] s' ∧
      Built [] s' := by
  have h1 : (Session.start : Session Flt).step (.make (.quadrilateral .default none))
      = (⟨10, [], [unitQuad 1], Layout.empty 0⟩, .ok ()) := by
    have : (Session.start : Session Flt).eval (.quadrilateral .default none) 1 = .ok (unitQuad 1, 10) := by
      show newQuadrilateral (K := Flt) none none 1 = .ok (unitQuad 1, 1 + 9)
      exact newQuadrilateral_none_ok 1
    simp only [Session.step, show (Session.start : Session Flt).next = 1 from rfl, this]
    rfl
  have d1 := Does.quiet h1 (by intro c ks ps key e; cases e)
  let l1 : Layout Flt := ((Layout.empty 0 : Layout Flt).addPrim (unitQuad 1) k!"Figure").1
  have h2 : (⟨10, [], [unitQuad 1], Layout.empty 0⟩ : Session Flt).step (.addPrim 0 k!"Figure")
      = (⟨10, [], [unitQuad 1], l1⟩, .ok ()) := rfl
  have d2 := Does.quiet h2 (by intro c ks ps key e; cases e)
  have b2 : Built [] (⟨10, [], [unitQuad 1], l1⟩ : Session Flt) := by
    refine ⟨?_, rfl, rfl, .nil, by simp, by simp, Nat.le_refl _⟩
    exact (Layout.Inv.empty 0).addPrim (unitQuad_WF 1) k!"Figure"
  exact ⟨_, d1.append d2, b2⟩

theorem gtools_box {R C : Nat} (h : t.OK R C) : t.box = boxT := by
  have := h.box; rw [box_eq] at this; exact (Except.ok.inj this).symm

theorem does_grid_figure (hT : t.OK g.R g.C) :
    ∃ s', Does Session.start
      ([.make (.quadrilateral .default none), .addPrim 0 k!"Figure"] ++ addAll (gridFigCons t g))
      (gridFigCons t g) s' ∧ Built [] s' := by
  obtain ⟨s2, d2, b2⟩ := does_newFigure
  obtain ⟨s3, d3, b3⟩ := Does.addAll (gridFigCons t g) b2 (by
    intro s hb c hc
    have g0 := getChild_slash hb.figure (k := k!"Line0") (unitQuad_get 1).1
    have g2 := getChild_slash g0 (k := k!"Point0") (c := mkPoint 2 0 0) rfl
    have hf : t.fix = cstr con.coordinate := by
      have := hT.fix; rw [ct_fix_eq] at this; exact (Except.ok.inj this).symm
    have hw : t.width = cstr widthT := by
      have := hT.width; rw [ct_width_eq] at this; exact (Except.ok.inj this).symm
    simp only [gridFigCons, List.mem_cons, List.not_mem_nil, or_false] at hc
    rcases hc with rfl | rfl | rfl
    · exact ⟨⟨.box, hT.box, trivial, trivial⟩, ⟨_, .cons hb.figure .nil, by
        rw [gtools_box hT]; exact .cons (.refl _) .nil⟩, by rw [gtools_box hT]; rfl⟩
    · refine ⟨⟨.width, hT.width, trivial, ?_⟩, ⟨_, .cons hb.figure .nil, by
        rw [hw]; exact .cons (.refl _) .nil⟩, by rw [hw]; rfl⟩
      intro p hp
      rw [List.mem_singleton.mp hp]
      trivial
    · exact ⟨⟨.fix, hT.fix, trivial, trivial⟩, ⟨_, .cons g2 .nil, by
        rw [hf]; exact .cons (.refl _) .nil⟩, by rw [hf]; rfl⟩)
  exact ⟨s3, d2.append d3, b3⟩

theorem does_grid_axes {R C : Nat} (hT : t.OK R C) (keys : List Str) : ∀ {s : Session Flt}
    {ts : List (AxesSpec × Nat)}, Built ts s → (∀ k ∈ keys, '/' ∉ k ∧ k ≠ k!"Figure") →
    (ts.map (·.1.key) ++ keys).Nodup →
    ∃ s' ts', Does s ((keys.zipIdx (ts.length + 1)).flatMap fun ki => gridAxesStmts t ki.2 ki.1)
      (keys.map fun key => ⟨t.box, [key ++ k!"/Frame"], []⟩) s' ∧ Built ts' s' ∧
      ts'.map (·.1) = ts.map (·.1) ++ keys.map bareAxes := by
  induction keys with
  | nil =>
    intro s ts hb _ _
    exact ⟨s, ts, ⟨rfl, rfl, by simp [Session.outcomes]⟩, hb, by simp⟩
  | cons k keys ih =>
    intro s ts hb hk hn
    have hs := (hk k (by simp)).1
    obtain ⟨s1, d1, b1⟩ := does_newAxes (a := bareAxes k) hb hs (hk k (by simp)).2 (by
      intro hm
      rw [List.nodup_append] at hn
      exact hn.2.2 _ hm _ (by simp [bareAxes]) rfl)
    have hm : (bareAxes k, s.next) ∈ ts ++ [(bareAxes k, s.next)] := by simp
    obtain ⟨s2, d2, b2⟩ := Does.addAll [⟨t.box, [k ++ k!"/Frame"], []⟩] b1 (by
      intro s' hb' c hc
      rw [List.mem_singleton.mp hc]
      exact ⟨⟨.box, hT.box, trivial, trivial⟩, ⟨_, .cons (hb'.axes hm hs).2 .nil, by
        rw [gtools_box hT]; exact .cons (.refl _) .nil⟩, by rw [gtools_box hT]; rfl⟩)
    obtain ⟨s', ts', d3, b3, e⟩ := ih b2 (fun x hx => hk x (by simp [hx])) (by simpa [bareAxes] using hn)
    refine ⟨s', ts', ?_, b3, by simpa using e⟩
    simp only [List.length_append, List.length_cons, List.length_nil] at d3
    rw [List.zipIdx_cons, List.flatMap_cons, List.map_cons]
    exact (d1.append d2).append d3

/-- The whole program. -/
theorem does_gridProg (hT : t.OK g.R g.C) (hk : g.KeysOK) :
    ∃ s ts, Does Session.start (gridProg t g) (gridCons t g) s ∧ Built ts s ∧
      ts.map (·.1) = g.keys.map bareAxes := by
  have hnf : ∀ k ∈ g.keys, '/' ∉ k ∧ k ≠ k!"Figure" := by
    intro k h
    refine ⟨hk.slash k h, fun e => ?_⟩
    have := hk.axes k h
    rw [e] at this
    exact absurd this (by decide)
  obtain ⟨s1, d1, b1⟩ := does_grid_figure hT
  obtain ⟨s2, ts, d2, b2, hts⟩ := does_grid_axes hT g.keys b1 hnf (by simpa using hk.nodup)
  have hts : ts.map (·.1) = g.keys.map bareAxes := hts
  have frame : ∀ k ∈ g.keys, ∃ n, ∀ s, Built ts s → s.layout.prim.getChild (k ++ k!"/Frame") = .ok (unitQuad n) := by
    intro k h
    have : bareAxes k ∈ ts.map (·.1) := by rw [hts]; exact List.mem_map_of_mem h
    obtain ⟨u, hu, e⟩ := List.mem_map.mp this
    refine ⟨frameId u.1.xaxis u.1.yaxis u.1.twinx u.1.twiny u.2, fun s hb => ?_⟩
    have := (hb.axes hu (by rw [e]; exact hk.slash k h)).2
    rw [show u.1.key = k by rw [e]; rfl] at this
    exact this
  obtain ⟨s3, d3, b3⟩ := Does.addAll (gridTailCons t g) b2 (by
    intro s hb c hc
    have fr : ∀ r c, r < g.R → c < g.C → ∃ n, s.layout.prim.getChild (g.frameKey r c) = .ok (unitQuad n) := by
      intro r c hr hc
      obtain ⟨k, h1, _, h2⟩ := hk.get hr hc
      obtain ⟨n, hn⟩ := frame k h1
      exact ⟨n, by rw [h2]; exact hn s hb⟩
    have hR := hk.rows
    have hC := hk.cols
    have one : ∀ x : Flt, ∀ p ∈ [Param.num x], p.ArrayLike := by
      intro x p hp
      rw [List.mem_singleton.mp hp]
      trivial
    have mar : ∀ side r c v, r < g.R → c < g.C →
        (LayoutOp.addConstraint (t.margin side) [g.frameKey r c, k!"Figure"] [.num (fin v)] []).Sensible ∧
        (∃ prims, List.Forall₂ (fun k p => s.layout.prim.getChild k = .ok p) [g.frameKey r c, k!"Figure"] prims ∧
          List.Forall₂ (fun (p : Prim Flt) t => p.ty.IsA t) prims (t.margin side).value.sig.primTypes) ∧
        [Param.num (fin v)].length = (t.margin side).value.sig.paramTypes.length := by
      intro side r c v hr hc
      have hm : t.margin side = cstr (marginT false side) := by
        have := hT.margin side; rw [ct_margin_eq] at this; exact (Except.ok.inj this).symm
      obtain ⟨n, hn⟩ := fr r c hr hc
      refine ⟨⟨.margin false side, hT.margin side, trivial, one _⟩, ⟨_, .cons hn (.cons hb.figure .nil), ?_⟩, ?_⟩
      · rw [hm]
        cases side <;> exact .cons (.refl _) (.cons (.refl _) .nil)
      · rw [hm]
        cases side <;> rfl
    simp only [gridTailCons, List.mem_cons, List.not_mem_nil, or_false] at hc
    rcases hc with rfl | rfl | rfl | rfl | rfl | rfl
    · obtain ⟨n, hn⟩ := fr 0 0 hR hC
      have ha : t.aspect = cstr con.aspectRatio := by
        have := hT.aspect
        rw [ct_aspectRatio_eq] at this; exact (Except.ok.inj this).symm
      exact ⟨⟨.aspectRatio, hT.aspect, trivial, trivial⟩, ⟨_, .cons hn .nil, by
        rw [ha]; exact .cons (.refl _) .nil⟩, by rw [ha]; rfl⟩
    · have hG := hT.grid
      rw [grid_eq (ct_margin_eq true .right) (ct_margin_eq true .bottom)] at hG
      have hG := (Except.ok.inj hG).symm
      refine ⟨⟨.grid g.R g.C, hT.grid, ⟨hR, hC⟩, hR, hC, _, _, _, _, _, _, _, _, rfl,
        iter_arrOf _ _, iter_arrOf _ _, iter_arrOf _ _, iter_arrOf _ _, by simp, by simp, ?_, ?_⟩, ?_, ?_⟩
      · intro p hp
        obtain ⟨i, _, rfl⟩ := List.mem_map.mp hp
        trivial
      · intro p hp
        obtain ⟨i, _, rfl⟩ := List.mem_map.mp hp
        trivial
      · choose! n hn using frame
        refine ⟨g.keys.map fun k => unitQuad (n k), ?_, ?_⟩
        · rw [List.forall₂_map_left_iff, List.forall₂_map_right_iff, List.forall₂_same]
          exact fun k h => hn k h s hb
        · simp only [hG, gridT]
          show List.Forall₂ _ _ (List.replicate (g.R * g.C) PrimType.quadrilateral)
          rw [List.forall₂_map_left_iff, ← hk.len]
          clear * -
          induction g.keys with
          | nil => exact .nil
          | cons k ks ih => exact .cons (.refl _) ih
      · rw [hG]; rfl
    · exact mar _ _ _ _ hR hC
    · exact mar _ _ _ _ (by omega) hC
    · exact mar _ _ _ _ hR hC
    · exact mar _ _ _ _ hR (by omega))
  exact ⟨s3, ts, d1.append (d2.append d3), b3, hts⟩

/-- The program makes primitives in order, with finite coordinates. -/
theorem gridProg_ok (hk : g.KeysOK) :
    ProgOK (fun x => ∃ r, x = fin r) ((Session.start : Session Flt).run (gridProg t g)) := by
  refine ProgOK.run finite_consts ProgOK.start ?_ ?_
  · intro st hst
    simp only [gridProg, gridFigCons, gridTailCons, gridAxesStmts, addAll, List.mem_append, List.mem_flatMap,
      List.mem_cons, List.map_cons, List.map_nil, List.not_mem_nil, or_false] at hst
    rcases hst with ((rfl | rfl) | rfl | rfl | rfl) | ⟨ki, hki, (rfl | rfl) | rfl⟩ | rfl | rfl | rfl | rfl | rfl | rfl
    all_goals first | trivial | exact (by decide : '/' ∉ k!"Figure") | exact hk.slash _ (List.fst_mem_of_mem_zipIdx hki)
  · intro st hst
    apply finite_all
    simp only [gridProg, gridFigCons, gridTailCons, gridAxesStmts, addAll, List.mem_append, List.mem_flatMap,
      List.mem_cons, List.map_cons, List.map_nil, List.not_mem_nil, or_false] at hst
    rcases hst with ((rfl | rfl) | rfl | rfl | rfl) | ⟨ki, hki, (rfl | rfl) | rfl⟩ | rfl | rfl | rfl | rfl | rfl | rfl
    all_goals first | trivial | exact fun xs e => nomatch e

/-- A quadrilateral is in one place. -/
theorem isQuad_unique {q : Prim Flt} {a b c d a' b' c' d' : ℝ × ℝ} (h : IsQuad q a b c d)
    (h' : IsQuad q a' b' c' d') : a = a' ∧ b = b' ∧ c = c' ∧ d = d' := by
  have pt : ∀ {p : Prim Flt} {u v : ℝ × ℝ}, IsPoint p u → IsPoint p v → u = v := by
    intro p u v hu hv
    have := hu.2.symm.trans hv.2
    simp only [List.cons.injEq, up, Flt.fin.injEq, and_true] at this
    exact Prod.ext this.1 this.2
  have ln : ∀ {l : Prim Flt} {u v u' v' : ℝ × ℝ}, IsLine l u v → IsLine l u' v' → u = u' ∧ v = v' := by
    rintro l u v u' v' ⟨_, p, q, e, h1, h2⟩ ⟨_, p', q', e', h1', h2'⟩
    rw [e] at e'
    simp only [List.cons.injEq, Prod.mk.injEq, true_and, and_true] at e'
    obtain ⟨rfl, rfl⟩ := e'
    exact ⟨pt h1 h1', pt h2 h2'⟩
  obtain ⟨_, l0, l1, l2, l3, e, h0, h1, h2, h3⟩ := h
  obtain ⟨_, m0, m1, m2, m3, e', h0', h1', h2', h3'⟩ := h'
  rw [e] at e'
  simp only [List.cons.injEq, Prod.mk.injEq, true_and, and_true] at e'
  obtain ⟨rfl, rfl, rfl, rfl⟩ := e'
  exact ⟨(ln h0 h0').1, (ln h0 h0').2, (ln h2 h2').1, (ln h2 h2').2⟩

/-! ## Drawing a solved figure -/

/-- The calls of `subplots` on a figure box and axes, one by one. -/
theorem drawn_calls {root : Prim Flt} (hok : PrimOK root) {figKey : Str} {fig : Prim Flt} {f : Rect}
    (hfig : root.getChild figKey = .ok fig) (hf : IsRect fig f) (hx : f.x1 ≠ f.x0) (hy : f.y1 ≠ f.y0)
    (hax : ∀ key ∈ root.keys, k!"Axes" <:+: key → ∃ a b c d, AxesShape root key a b c d) {calls : List (DrawCall Flt)}
    {axs : List (Str × Nat)} (h : subplots root figKey none = .ok (calls, axs)) :
    (axs.map Prod.snd).Nodup ∧ (∀ key i, (key, i) ∈ axs → key ∈ root.keys ∧ k!"Axes" <:+: key) ∧
    ∀ x, x ∈ calls ↔ x = .newFigure 1 1 ∨ (∃ i, i < axs.length ∧ x = .addAxes i (0, 0, 1, 1)) ∨
      x = .setSize (fin (f.x1 - f.x0)) (fin (f.y1 - f.y0)) ∨
      ∃ kv ∈ axs, AxesCall root (f.x0, f.y0) (f.x1 - f.x0) (f.y1 - f.y0) kv.1 kv.2 x := by
  have hkd : root.keys.Nodup := hok.wf [] root (.here _)
  have hnd : (axesKeysOf root none).Nodup := hkd.sublist List.filter_sublist
  have hmem : ∀ {kv : Str × Nat},
      kv ∈ dictOfZip (axesKeysOf root none) (List.range (axesKeysOf root none).length) →
      kv.1 ∈ root.keys ∧ k!"Axes" <:+: kv.1 := by
    intro kv hkv
    rw [dictOfZip_of_nodup hnd] at hkv
    have := (List.of_mem_zip (a := kv.1) (b := kv.2) hkv).1
    simp only [axesKeysOf, List.mem_filter, hasSub_iff] at this
    exact this
  obtain ⟨rest, g1, g2⟩ := updateSubplots_spec (root := root) (figKey := figKey)
    (axs := dictOfZip (axesKeysOf root none) (List.range (axesKeysOf root none).length)) hfig hf hx hy
    (fun kv hkv => by
      obtain ⟨m1, m2⟩ := hmem hkv
      exact hax kv.1 m1 m2)
  simp only [subplots, g1, bind, Except.bind, Except.ok.injEq, Prod.mk.injEq] at h
  obtain ⟨rfl, rfl⟩ := h
  refine ⟨?_, fun key i hki => hmem hki, fun x => ?_⟩
  · rw [dictOfZip_of_nodup hnd, List.map_snd_zip (by simp)]
    exact List.nodup_range
  · have hl : (dictOfZip (axesKeysOf root none) (List.range (axesKeysOf root none).length)).length
        = (axesKeysOf root none).length := by
      rw [dictOfZip_of_nodup hnd]; simp
    simp only [List.mem_cons, List.mem_append, List.mem_map, List.mem_range, g2, hl]
    constructor
    · rintro (h | ⟨i, hi, rfl⟩ | h | h)
      · exact .inl h
      · exact .inr (.inl ⟨i, hi, rfl⟩)
      · exact .inr (.inr (.inl h))
      · exact .inr (.inr (.inr h))
    · rintro (h | ⟨i, hi, rfl⟩ | h | h)
      · exact .inl h
      · exact .inr (.inl ⟨i, hi, rfl⟩)
      · exact .inr (.inr (.inl h))
      · exact .inr (.inr (.inr h))

/-- What `subplots` makes of a figure box and axes with rectangular frames. -/
theorem drawn {root : Prim Flt} (hok : PrimOK root) {figKey : Str} {fig : Prim Flt} {f : Rect}
    (hfig : root.getChild figKey = .ok fig) (hf : IsRect fig f) (hx : f.x1 ≠ f.x0) (hy : f.y1 ≠ f.y0)
    {place : Str → Rect} (hax : ∀ key ∈ root.keys, k!"Axes" <:+: key →
      AxesShape root key ((place key).x0, (place key).y0) ((place key).x1, (place key).y0)
        ((place key).x1, (place key).y1) ((place key).x0, (place key).y1)) :
    ∃ calls axs, subplots root figKey none = .ok (calls, axs) ∧
      axs = (root.keys.filter fun key => decide (k!"Axes" <:+: key)).zipIdx ∧
      (∀ w h, .setSize w h ∈ calls ↔ w = fin (f.x1 - f.x0) ∧ h = fin (f.y1 - f.y0)) ∧
      ∀ key i, (key, i) ∈ axs → ∀ rect, .setPosition i rect ∈ calls ↔
        rect = (fin (((place key).x0 - f.x0) / (f.x1 - f.x0)), fin (((place key).y0 - f.y0) / (f.y1 - f.y0)),
          fin (((place key).x1 - (place key).x0) / (f.x1 - f.x0)),
          fin (((place key).y1 - (place key).y0) / (f.y1 - f.y0))) := by
  have hkd : root.keys.Nodup := hok.wf [] root (.here _)
  have hnd : (axesKeysOf root none).Nodup := hkd.sublist List.filter_sublist
  have hmem : ∀ {kv : Str × Nat},
      kv ∈ dictOfZip (axesKeysOf root none) (List.range (axesKeysOf root none).length) →
      kv.1 ∈ root.keys ∧ k!"Axes" <:+: kv.1 := by
    intro kv hkv
    rw [dictOfZip_of_nodup hnd] at hkv
    have := (List.of_mem_zip (a := kv.1) (b := kv.2) hkv).1
    simp only [axesKeysOf, List.mem_filter, hasSub_iff] at this
    exact this
  obtain ⟨calls, g1, g2, g3⟩ := C62_positions (root := root) (figKey := figKey)
    (axs := dictOfZip (axesKeysOf root none) (List.range (axesKeysOf root none).length)) hfig hf hx hy
    (fun kv hkv => by
      obtain ⟨m1, m2⟩ := hmem hkv
      exact ⟨_, _, _, _, hax kv.1 m1 m2⟩)
    (by
      rw [dictOfZip_of_nodup hnd]
      have : (List.zip (axesKeysOf root none) (List.range (axesKeysOf root none).length)).map Prod.snd
          = List.range (axesKeysOf root none).length := List.map_snd_zip (by simp)
      rw [this]; exact List.nodup_range)
  have hsub : subplots root figKey none = .ok (.newFigure 1 1 ::
      ((List.range (axesKeysOf root none).length).map
        (fun i => DrawCall.addAxes i ((0, 0, 1, 1) : Flt × Flt × Flt × Flt)) ++ calls),
      dictOfZip (axesKeysOf root none) (List.range (axesKeysOf root none).length)) := by
    simp only [subplots, g1, bind, Except.bind]
  refine ⟨_, _, hsub, ?_, ?_, ?_⟩
  · rw [dictOfZip_of_nodup hnd, List.zipIdx_eq_zip_range', List.range_eq_range']
    have : axesKeysOf root none = root.keys.filter fun key => decide (k!"Axes" <:+: key) := by
      show root.keys.filter (hasSub k!"Axes") = _
      congr 1
      funext key
      rw [Bool.eq_iff_iff, hasSub_iff, decide_eq_true_iff]
    rw [this]
  · intro w h
    simp only [List.mem_cons, List.mem_append, List.mem_map, reduceCtorEq, and_false, exists_false,
      false_or, g2]
  · intro key i hki rect
    simp only [List.mem_cons, List.mem_append, List.mem_map, reduceCtorEq, and_false, exists_false,
      false_or]
    obtain ⟨m1, m2⟩ := hmem hki
    rw [g3 key i _ _ _ _ hki (hax key m1 m2)]
    have hx' := sub_ne_zero.mpr hx
    have hy' := sub_ne_zero.mpr hy
    have hrep : Reproduces (f.x0, f.y0) (f.x1, f.y1)
        (((place key).x0 - f.x0) / (f.x1 - f.x0), ((place key).y0 - f.y0) / (f.y1 - f.y0),
          ((place key).x1 - (place key).x0) / (f.x1 - f.x0), ((place key).y1 - (place key).y0) / (f.y1 - f.y0))
        ((place key).x0, (place key).y0) ((place key).x1, (place key).y1) := by
      refine ⟨?_, ?_, ?_, ?_⟩ <;> simp only <;> field_simp <;> ring
    constructor
    · rintro ⟨pos, rfl, hpos⟩
      have := reproduces_unique hx hy hpos hrep
      rw [this]
      rfl
    · rintro rfl
      exact ⟨_, rfl, hrep⟩

/-! ## The theorems -/

/-- A geometry of the layout of the program, with real coordinates, that satisfies every constraint of
the program and in which the lower left corner of every frame is to the left of and below its upper right
corner. -/
structure SolvesGrid (t : GridTools) (g : GridSpec) (r : Prim Flt) : Prop where
  ok : PrimOK r
  same : SameStructure ((Session.start : Session Flt).run (gridProg t g)).layout.prim r
  finite : r.Finite
  holds : ∀ c ∈ (Session.start : Session Flt).constraints (gridProg t g), ∃ v, c.Value r v ∧ Zeros v
  upright : ∀ k ∈ g.keys, ∀ frame a b c d, r.getChild (k ++ k!"/Frame") = .ok frame → IsQuad frame a b c d →
    a.1 < c.1 ∧ a.2 < c.2

/-- The figure and the frames are where the specification says. -/
def GridSpec.PlacedIn (g : GridSpec) (r : Prim Flt) : Prop :=
  (∃ fig, r.getChild k!"Figure" = .ok fig ∧ IsRect fig ⟨0, 0, g.W, g.height⟩) ∧
  ∀ i j, i < g.R → j < g.C → ∃ frame, r.getChild (g.frameKey i j) = .ok frame ∧ IsRect frame (g.rect i j)

/-- C84, the calls: every call of the program succeeds, whatever the numbers are. -/
theorem C84_calls (t : GridTools) (g : GridSpec) (hT : t.OK g.R g.C) (hk : g.KeysOK) :
    ∀ o ∈ (Session.start : Session Flt).outcomes (gridProg t g), o = .ok () := by
  obtain ⟨s, ts, d, _⟩ := does_gridProg hT hk
  exact d.ok

/-- C84, uniqueness: in every solution with upright frames, the figure has the given width and the height
that follows from it, and every frame is at the place that follows from the margins, the gaps, the relative
sizes and the aspect ratio. -/
theorem C84_unique (t : GridTools) (g : GridSpec) (hT : t.OK g.R g.C) (hk : g.KeysOK) (r : Prim Flt)
    (h : SolvesGrid t g r) : g.PlacedIn r := by
  obtain ⟨s, ts, d, hb, hts⟩ := does_gridProg hT hk
  have hok : ProgOK (fun x => ∃ r, x = fin r) s := by rw [← d.run]; exact gridProg_ok hk
  have hloops : ∀ p m, s.layout.prim.At p m → m.ty.IsA .polygon → ∃ pts, ClosedLoop m pts := by
    obtain ⟨heap, hh⟩ := hok.heap
    exact hh.layout.loops
  have hS : Solved s.layout.prim r := ⟨hok.primOK, h.ok, by rw [← d.run]; exact h.same, h.finite⟩
  have hall := h.holds
  rw [d.cons] at hall
  have asks : ∀ {c : Py (Cons Flt)} {c' : Cons Flt} {ks : List Str} {ps : List (Param Flt)}, c = .ok c' →
      (⟨c', ks, ps⟩ : Added Flt) ∈ gridCons t g → Asks (gridCons t g) c ks ps := fun h hm => ⟨_, h, hm⟩
  have inFig : ∀ {c}, c ∈ gridFigCons t g → c ∈ gridCons t g := fun h => List.mem_append_left _ h
  have inTail : ∀ {c}, c ∈ gridTailCons t g → c ∈ gridCons t g :=
    fun h => List.mem_append_right _ (List.mem_append_right _ h)
  have hpoly : ∀ n, (unitQuad n : Prim Flt).ty.IsA .polygon := fun n => by
    show PrimType.IsA .quadrilateral .polygon
    exact (PrimType.sub_iff _ _).mp (by decide)
  -- the figure
  obtain ⟨at1, fig, f3, at2⟩ := hS.getChild hb.figure
  obtain ⟨A, B, C, D, hq⟩ := hS.quad at1 at2 (unitQuad_isQuad 1) (hloops _ _ at1 (hpoly 1))
  have hbox : SatisfiedPy ct.box [fig] [] := asks_satisfied hall (asks hT.box (inFig (by simp [gridFigCons]))) (.cons f3 .nil)
  rw [C33_box hq] at hbox
  obtain ⟨x0, y0, x1, H, rfl, rfl, rfl, rfl⟩ := hbox
  have hfig : x0 = 0 ∧ y0 = 0 ∧ x1 = g.W := by
    obtain ⟨l0, l1, l2, l3, c0, c1, c2, c3, q0, q1, q2, q3⟩ := QuadAt.lines hq
    obtain ⟨p0, p1, k0, k1, hp0, hp1⟩ := LineAt.points q0
    have g0 := getChild_slash f3 (k := k!"Line0") c0
    have g2 := getChild_slash g0 (k := k!"Point0") k0
    have n0 := (C34_fix hp0 (0, 0)).mp
      (asks_satisfied hall (asks hT.fix (inFig (by simp [gridFigCons]))) (.cons g2 .nil))
    have n1 := (C34_width hq g.W).mp
      (asks_satisfied hall (asks hT.width (inFig (by simp [gridFigCons]))) (.cons f3 .nil))
    simp only [Prod.mk.injEq] at n0 n1
    refine ⟨n0.1, n0.2, ?_⟩; linarith
  obtain ⟨rfl, rfl, rfl⟩ := hfig
  have hfr : IsRect fig ⟨0, 0, g.W, H⟩ := hq
  -- the frames
  have frame : ∀ k ∈ g.keys, ∃ q R, r.getChild (k ++ k!"/Frame") = .ok q ∧ IsRect q R ∧ R.Positive := by
    intro k hkm
    have : bareAxes k ∈ ts.map (·.1) := by rw [hts]; exact List.mem_map_of_mem hkm
    obtain ⟨u, hu, e⟩ := List.mem_map.mp this
    have g1 := (hb.axes hu (by rw [e]; exact hk.slash k hkm)).2
    rw [show u.1.key = k by rw [e]; rfl] at g1
    obtain ⟨at3, q, g2, at4⟩ := hS.getChild g1
    obtain ⟨A, B, C, D, hq⟩ := hS.quad at3 at4 (unitQuad_isQuad _) (hloops _ _ at3 (hpoly _))
    have hbox := asks_satisfied hall (asks hT.box (ks := [k ++ k!"/Frame"]) (ps := [])
      (List.mem_append_right _ (List.mem_append_left _ (List.mem_map.mpr ⟨k, hkm, rfl⟩)))) (.cons g2 .nil)
    rw [C33_box hq] at hbox
    obtain ⟨x0, y0, x1, y1, rfl, rfl, rfl, rfl⟩ := hbox
    exact ⟨q, ⟨x0, y0, x1, y1⟩, g2, hq, h.upright k hkm q _ _ _ _ g2 hq⟩
  have : Nonempty (Prim Flt) := ⟨unitQuad 0⟩
  have : Nonempty Rect := ⟨⟨0, 0, 0, 0⟩⟩
  choose! q R hq1 hq2 hq3 using frame
  let rect : Nat → Nat → Rect := fun i j => R (g.keys.getD (i * g.C + j) [])
  have cell : ∀ i j, i < g.R → j < g.C → ∃ k ∈ g.keys, g.keys[i * g.C + j]? = some k ∧
      g.frameKey i j = k ++ k!"/Frame" ∧ rect i j = R k := by
    intro i j hi hj
    obtain ⟨k, h1, h2, h3⟩ := hk.get hi hj
    refine ⟨k, h1, h2, h3, ?_⟩
    show R (g.keys.getD _ _) = _
    rw [List.getD_eq_getElem?_getD, h2]
    rfl
  have fr : ∀ i j, i < g.R → j < g.C →
      ∃ q, r.getChild (g.frameKey i j) = .ok q ∧ IsRect q (rect i j) ∧ (rect i j).Positive := by
    intro i j hi hj
    obtain ⟨k, h1, _, h3, h4⟩ := cell i j hi hj
    rw [h3, h4]
    exact ⟨q k, hq1 k h1, hq2 k h1, hq3 k h1⟩
  have hR := hk.rows
  have hC := hk.cols
  have hgrid : IsGrid (g.keys.map q) g.R g.C rect := by
    refine ⟨by rw [List.length_map, hk.len], ?_⟩
    intro i j hi hj
    obtain ⟨k, h1, h2, h3, h4⟩ := cell i j hi hj
    refine ⟨q k, by rw [List.getElem?_map, h2]; rfl, ?_⟩
    rw [h4]
    exact hq2 k h1
  have hpos : ∀ i j, i < g.R → j < g.C → (rect i j).Positive := fun i j hi hj => by
    obtain ⟨_, _, _, h⟩ := fr i j hi hj
    exact h
  have laid := (C38_grid hR hC hgrid (fun i j hi hj => ⟨(hpos i j hi hj).1.ne, (hpos i j hi hj).2.ne⟩)
    g.ws g.hs g.ms g.ns).mp (asks_satisfied hall (asks hT.grid (ks := g.keys.map (· ++ k!"/Frame"))
      (inTail (by simp [gridTailCons]))) (by
      rw [List.forall₂_map_left_iff, List.forall₂_map_right_iff, List.forall₂_same]
      exact fun k h => hq1 k h))
  obtain ⟨q00, a1, a2, a3⟩ := fr 0 0 hR hC
  obtain ⟨qR0, b1, b2, b3⟩ := fr (g.R - 1) 0 (by omega) hC
  obtain ⟨q0C, c1, c2, c3⟩ := fr 0 (g.C - 1) hR (by omega)
  have asp0 : SatisfiedPy ct.aspectRatio [q00] [.num (fin g.aspect)] :=
    asks_satisfied hall (asks hT.aspect (inTail (by simp [gridTailCons]))) (.cons a1 .nil)
  have asp := ((C41_aspectRatio a2 g.aspect).mp asp0).2
  rw [dist2_h, dist2_v, abs_of_pos (sub_pos.mpr a3.1), abs_of_pos (sub_pos.mpr a3.2)] at asp
  have m1 := (C35_innerMargin a2 hfr .top g.top).mp
    (asks_satisfied hall (asks (hT.margin .top) (inTail (by simp [gridTailCons]))) (.cons a1 (.cons f3 .nil)))
  have m2 := (C35_innerMargin b2 hfr .bottom g.bottom).mp
    (asks_satisfied hall (asks (hT.margin .bottom) (inTail (by simp [gridTailCons]))) (.cons b1 (.cons f3 .nil)))
  have m3 := (C35_innerMargin a2 hfr .left g.left).mp
    (asks_satisfied hall (asks (hT.margin .left) (inTail (by simp [gridTailCons]))) (.cons a1 (.cons f3 .nil)))
  have m4 := (C35_innerMargin c2 hfr .right g.right).mp
    (asks_satisfied hall (asks (hT.margin .right) (inTail (by simp [gridTailCons]))) (.cons c1 (.cons f3 .nil)))
  simp only [innerGap] at m1 m2 m3 m4
  obtain ⟨eH, eR⟩ := grid_unique g hR hC hpos laid asp (by linarith) (H := H) (by linarith) (by linarith)
    (by linarith)
  refine ⟨⟨fig, f3, by rw [← eH]; exact hfr⟩, ?_⟩
  intro i j hi hj
  obtain ⟨q, h1, h2, _⟩ := fr i j hi hj
  exact ⟨q, h1, by rw [← eR i j hi hj]; exact h2⟩

/-- The explicit geometry, with the rows upright or upside down. -/
theorem grid_solution (t : GridTools) (g g' : GridSpec) (hT : t.OK g.R g.C) (hk : g.KeysOK) (hw : 0 < g.colUnit)
    (ha : 0 < g.aspect) (hws : ∀ c, c + 1 < g.C → 0 < g.ws c) (hhs : ∀ r, r + 1 < g.R → 0 < g.hs r) (σ : ℝ)
    (hσ : |σ| = 1) (hg : g' = { g with aspect := σ * g.aspect }) :
    ∃ r, PrimOK r ∧ SameStructure ((Session.start : Session Flt).run (gridProg t g)).layout.prim r ∧
      r.Finite ∧ (∀ c ∈ (Session.start : Session Flt).constraints (gridProg t g), ∃ v, c.Value r v ∧ Zeros v) ∧
      g'.PlacedIn r := by
  obtain ⟨s, ts, d, hb, hts⟩ := does_gridProg hT hk
  have hok : ProgOK (fun x => ∃ r, x = fin r) s := by rw [← d.run]; exact gridProg_ok hk
  have hR := hk.rows
  have hC := hk.cols
  have ha' : |g'.aspect| = g.aspect := by rw [hg]; simp only [abs_mul, hσ, one_mul, abs_of_pos ha]
  have hw' : 0 < g'.colUnit := by rw [hg]; exact hw
  obtain ⟨eR, eC, eW, ek⟩ : g'.R = g.R ∧ g'.C = g.C ∧ g'.W = g.W ∧ g'.frameKey = g.frameKey := by
    rw [hg]; exact ⟨rfl, rfl, rfl, rfl⟩
  have geo := grid_geometry g' (by rw [eC]; exact hC) hw' (fun e => by
    rw [e, abs_zero] at ha'; exact ha.ne ha') (by rw [hg]; exact hws) (by rw [hg]; exact hhs)
  rw [ha', eR, eC, eW] at geo
  obtain ⟨hpos0, laid, asp, e1, e2, e3, e4⟩ := geo
  replace laid : GridLaidOut g.R g.C g'.rect g.ws g.hs g.ms g.ns := by rw [hg] at laid ⊢; exact laid
  replace e1 : (g'.rect 0 0).x0 = g.left := by rw [e1, hg]
  replace e2 : (g'.rect 0 0).y1 = g'.height - g.top := by rw [e2, hg]
  replace e3 : (g'.rect 0 (g.C - 1)).x1 = g.W - g.right := by rw [e3, hg]
  replace e4 : (g'.rect (g.R - 1) 0).y0 = g.bottom := by rw [e4, hg]
  have hpos : ∀ r c, r < g.R → c < g.C → (g'.rect r c).Proper := fun r c hr hc => (hpos0 r c hr hc).1
  let tbl : List (Nat × Rect) := (1, ⟨0, 0, g.W, g'.height⟩) ::
    ts.zipIdx.map fun ti => (frameId ti.1.1.xaxis ti.1.1.yaxis ti.1.1.twinx ti.1.1.twiny ti.1.2,
      g'.rect (ti.2 / g.C) (ti.2 % g.C))
  have htbl : tbl.Pairwise fun a b => a.1 + 9 ≤ b.1 := by
    rw [List.pairwise_cons]
    refine ⟨?_, ?_⟩
    · intro x hx
      obtain ⟨u, hu, rfl⟩ := List.mem_map.mp hx
      have hu := List.fst_mem_of_mem_zipIdx hu
      have := frameId_gt u.1.1.xaxis u.1.1.yaxis u.1.1.twinx u.1.1.twiny u.1.2
      have := hb.low u.1 hu
      show 1 + 9 ≤ frameId u.1.1.xaxis u.1.1.yaxis u.1.1.twinx u.1.1.twiny u.1.2
      omega
    · rw [List.pairwise_map]
      have : (ts.zipIdx.map Prod.fst).Pairwise
          fun t u => frameId t.1.xaxis t.1.yaxis t.1.twinx t.1.twiny t.2 + 9 ≤ u.2 := by
        rw [List.zipIdx_map_fst]; exact hb.sep
      rw [List.pairwise_map] at this
      refine this.imp fun {u v} h => ?_
      have := frameId_gt v.1.1.xaxis v.1.1.yaxis v.1.1.twinx v.1.1.twiny v.1.2
      simp only
      omega
  have hfin : s.layout.prim.Finite := by
    obtain ⟨heap, hh⟩ := hok.heap
    intro p m hm x hx
    have := hh.layout.vals p m hm
    exact hh.consts _ (List.mem_of_getElem? this) x hx
  have hS := place_solved tbl hok.primOK hfin
  have gfig : (s.layout.prim.mapV (place tbl)).getChild k!"Figure"
      = .ok ((unitQuad 1).mapV (place tbl)) := by
    rw [Node.getChild_mapV, hb.figure]; rfl
  have rfig : IsRect ((unitQuad 1).mapV (place tbl)) ⟨0, 0, g.W, g'.height⟩ :=
    place_quad htbl (List.mem_cons_self ..)
  have frame : ∀ i k, g.keys[i]? = some k → ∃ q, (s.layout.prim.mapV (place tbl)).getChild (k ++ k!"/Frame") = .ok q ∧
      IsRect q (g'.rect (i / g.C) (i % g.C)) := by
    intro i k hi
    have hkm : k ∈ g.keys := List.mem_of_getElem? hi
    have hti : (ts.map (·.1))[i]? = some (bareAxes k) := by rw [hts, List.getElem?_map, hi]; rfl
    rw [List.getElem?_map] at hti
    obtain ⟨u, hu, e⟩ := Option.map_eq_some_iff.mp hti
    have g1 := (hb.axes (List.mem_of_getElem? hu) (by rw [e]; exact hk.slash k hkm)).2
    rw [show u.1.key = k by rw [e]; rfl] at g1
    refine ⟨_, by rw [Node.getChild_mapV, g1]; rfl, place_quad htbl (List.mem_cons_of_mem _ ?_)⟩
    refine List.mem_map.mpr ⟨(u, i), ?_, rfl⟩
    rw [List.mem_zipIdx_iff_getElem?]
    exact hu
  have divmod : ∀ i j, j < g.C → (i * g.C + j) / g.C = i ∧ (i * g.C + j) % g.C = j := by
    intro i j hj
    constructor
    · rw [Nat.mul_comm, Nat.mul_add_div hC, Nat.div_eq_of_lt hj, Nat.add_zero]
    · rw [Nat.mul_comm, Nat.mul_add_mod, Nat.mod_eq_of_lt hj]
  have fr : ∀ i j, i < g.R → j < g.C → ∃ q,
      (s.layout.prim.mapV (place tbl)).getChild (g.frameKey i j) = .ok q ∧ IsRect q (g'.rect i j) := by
    intro i j hi hj
    obtain ⟨k, _, h2, h3⟩ := hk.get hi hj
    obtain ⟨q, h4, h5⟩ := frame _ _ h2
    rw [(divmod i j hj).1, (divmod i j hj).2] at h5
    exact ⟨q, by rw [h3]; exact h4, h5⟩
  refine ⟨s.layout.prim.mapV (place tbl), hS.okB, by rw [d.run]; exact hS.same, hS.fin, ?_, ⟨_, gfig, by rw [eW]; exact rfig⟩, by
    rw [eR, eC, ek]; exact fr⟩
  · rw [d.cons]
    intro c hc
    rcases List.mem_append.mp hc with hc | hc
    · obtain ⟨l0, l1, l2, l3, c0, c1, c2, c3, q0, q1, q2, q3⟩ := QuadAt.lines rfig
      obtain ⟨p0, p1, k0, k1, hp0, hp1⟩ := LineAt.points q0
      have g0 := getChild_slash gfig (k := k!"Line0") c0
      have g2 := getChild_slash g0 (k := k!"Point0") k0
      simp only [gridFigCons, List.mem_cons, List.not_mem_nil, or_false] at hc
      rcases hc with rfl | rfl | rfl
      · exact value_of_sat hT.box (.cons gfig .nil) ((C33_box rfig).mpr ⟨_, _, _, _, rfl, rfl, rfl, rfl⟩)
      · exact value_of_sat hT.width (.cons gfig .nil) ((C34_width rfig g.W).mpr (by simp))
      · exact value_of_sat hT.fix (.cons g2 .nil) ((C34_fix hp0 (0, 0)).mpr rfl)
    rcases List.mem_append.mp hc with hc | hc
    · obtain ⟨k, hkm, rfl⟩ := List.mem_map.mp hc
      obtain ⟨i, hi⟩ := List.getElem?_of_mem hkm
      obtain ⟨q, h1, h2⟩ := frame i k hi
      exact value_of_sat hT.box (.cons h1 .nil) ((C33_box h2).mpr ⟨_, _, _, _, rfl, rfl, rfl, rfl⟩)
    · obtain ⟨q00, a1, a2⟩ := fr 0 0 hR hC
      obtain ⟨qR0, b1, b2⟩ := fr (g.R - 1) 0 (by omega) hC
      obtain ⟨q0C, c1, c2⟩ := fr 0 (g.C - 1) hR (by omega)
      simp only [gridTailCons, List.mem_cons, List.not_mem_nil, or_false] at hc
      rcases hc with rfl | rfl | rfl | rfl | rfl | rfl
      · refine value_of_sat hT.aspect (.cons a1 .nil) ((C41_aspectRatio a2 g.aspect).mpr ⟨?_, ?_⟩)
        · intro e
          exact (hpos 0 0 hR hC).2 (Prod.mk.inj e).2
        · rw [dist2_h, dist2_v]
          exact asp
      · have : ∀ k ∈ g.keys, ∃ q, (s.layout.prim.mapV (place tbl)).getChild (k ++ k!"/Frame") = .ok q ∧
            ∀ i, g.keys[i]? = some k → IsRect q (g'.rect (i / g.C) (i % g.C)) := by
          intro k hkm
          obtain ⟨i, hi⟩ := List.getElem?_of_mem hkm
          obtain ⟨q, h1, h2⟩ := frame i k hi
          refine ⟨q, h1, fun i' hi' => ?_⟩
          obtain ⟨q', h1', h2'⟩ := frame i' k hi'
          rw [h1] at h1'
          cases h1'
          exact h2'
        have ne : Nonempty (Prim Flt) := ⟨unitQuad 0⟩
        choose! q hq1 hq2 using this
        refine value_of_sat hT.grid (prims := g.keys.map q) ?_
          ((C38_grid hR hC (rect := g'.rect) ⟨by rw [List.length_map, hk.len], ?_⟩
            hpos g.ws g.hs g.ms g.ns).mpr laid)
        · rw [List.forall₂_map_left_iff, List.forall₂_map_right_iff, List.forall₂_same]
          exact hq1
        · intro i j hi hj
          obtain ⟨k, h1, h2, h3⟩ := hk.get hi hj
          refine ⟨q k, by rw [List.getElem?_map, h2]; rfl, ?_⟩
          have := hq2 k h1 _ h2
          rw [(divmod i j hj).1, (divmod i j hj).2] at this
          exact this
      · exact value_of_sat (hT.margin _) (.cons a1 (.cons gfig .nil))
          ((C35_innerMargin a2 rfig _ _).mpr (by simp only [innerGap]; linarith))
      · exact value_of_sat (hT.margin _) (.cons b1 (.cons gfig .nil))
          ((C35_innerMargin b2 rfig _ _).mpr (by simp only [innerGap]; linarith))
      · exact value_of_sat (hT.margin _) (.cons a1 (.cons gfig .nil))
          ((C35_innerMargin a2 rfig _ _).mpr (by simp only [innerGap]; linarith))
      · exact value_of_sat (hT.margin _) (.cons c1 (.cons gfig .nil))
          ((C35_innerMargin c2 rfig _ _).mpr (by simp only [innerGap]; linarith))

/-- C84, existence: if the space left for the columns, the aspect ratio and the relative sizes are
positive, then there is a solution with upright frames. -/
theorem C84_exists (t : GridTools) (g : GridSpec) (hT : t.OK g.R g.C) (hk : g.KeysOK) (hw : 0 < g.colUnit)
    (ha : 0 < g.aspect) (hws : ∀ c, c + 1 < g.C → 0 < g.ws c) (hhs : ∀ r, r + 1 < g.R → 0 < g.hs r) :
    ∃ r, SolvesGrid t g r := by
  obtain ⟨r, h1, h2, h3, h4, h5, h6⟩ := grid_solution t g g hT hk hw ha hws hhs 1 (by simp)
    (by rw [one_mul])
  refine ⟨r, h1, h2, h3, h4, ?_⟩
  intro k hkm q a b c d' hq hq'
  obtain ⟨i, hi⟩ := List.getElem?_of_mem hkm
  have hlt : i < g.R * g.C := by
    rw [← hk.len]
    exact (List.getElem?_eq_some_iff.mp hi).1
  have hi1 : i / g.C < g.R := Nat.div_lt_of_lt_mul (by rw [Nat.mul_comm]; exact hlt)
  have hi2 : i % g.C < g.C := Nat.mod_lt _ hk.cols
  obtain ⟨q', g1, g2⟩ := h6 _ _ hi1 hi2
  rw [GridSpec.frameKey, Nat.div_add_mod', List.getD_eq_getElem?_getD, hi] at g1
  have g1 : r.getChild (k ++ k!"/Frame") = .ok q' := g1
  rw [g1] at hq
  cases hq
  obtain ⟨ea, eb, ec, ed⟩ := isQuad_unique hq' g2
  subst ea ec
  exact ((grid_geometry g hk.cols hw ha.ne' hws hhs).1 _ _ hi1 hi2).2 ha

/-- C84, without the orientation there is a second solution: the rows can be upside down, and the figure
then has another height. -/
theorem C84_mirror (t : GridTools) (g : GridSpec) (hT : t.OK g.R g.C) (hk : g.KeysOK) (hw : 0 < g.colUnit)
    (ha : 0 < g.aspect) (hws : ∀ c, c + 1 < g.C → 0 < g.ws c) (hhs : ∀ r, r + 1 < g.R → 0 < g.hs r) :
    ∃ r H, PrimOK r ∧ SameStructure ((Session.start : Session Flt).run (gridProg t g)).layout.prim r ∧
      r.Finite ∧ (∀ c ∈ (Session.start : Session Flt).constraints (gridProg t g), ∃ v, c.Value r v ∧ Zeros v) ∧
      (∃ fig, r.getChild k!"Figure" = .ok fig ∧ IsRect fig ⟨0, 0, g.W, H⟩) ∧ H < g.height := by
  obtain ⟨r, h1, h2, h3, h4, h5, h6⟩ := grid_solution t g { g with aspect := -1 * g.aspect } hT hk hw ha hws hhs
    (-1) (by simp) rfl
  refine ⟨r, _, h1, h2, h3, h4, h5, ?_⟩
  have hs : 0 ≤ ∑ i ∈ Finset.range (g.R - 1), g.hs i := by
    apply Finset.sum_nonneg
    intro i hi
    rw [Finset.mem_range] at hi
    exact (hhs i (by omega)).le
  have hu : 0 < g.rowUnit := div_pos hw ha
  have e : GridSpec.rowUnit { g with aspect := -1 * g.aspect } = -g.rowUnit := by
    show g.colUnit / (-1 * g.aspect) = -(g.colUnit / g.aspect)
    rw [neg_one_mul, div_neg]
  have : 0 < g.rowUnit * (1 + ∑ i ∈ Finset.range (g.R - 1), g.hs i) := mul_pos hu (by linarith)
  simp only [GridSpec.height, e]
  linarith

/-- C84, the drawing: every solution with upright frames is drawn by `subplots` as a figure of the given
width and the height that follows, with the axes in order at the places that follow. -/
theorem C84_drawing (t : GridTools) (g : GridSpec) (hT : t.OK g.R g.C) (hk : g.KeysOK) (hW : g.W ≠ 0)
    (hH : g.height ≠ 0) (r : Prim Flt) (h : SolvesGrid t g r) :
    ∃ calls, subplots r k!"Figure" none = .ok (calls, g.keys.zipIdx) ∧
      (∀ w h, .setSize w h ∈ calls ↔ w = fin g.W ∧ h = fin g.height) ∧
      ∀ i j, i < g.R → j < g.C → ∀ rect, .setPosition (i * g.C + j) rect ∈ calls ↔
        rect = (fin ((g.rect i j).x0 / g.W), fin ((g.rect i j).y0 / g.height),
          fin (((g.rect i j).x1 - (g.rect i j).x0) / g.W),
          fin (((g.rect i j).y1 - (g.rect i j).y0) / g.height)) := by
  obtain ⟨⟨fig, f1, f2⟩, fr⟩ := C84_unique t g hT hk r h
  obtain ⟨s, ts, d, hb, hts⟩ := does_gridProg hT hk
  have hok : ProgOK (fun x => ∃ r, x = fin r) s := by rw [← d.run]; exact gridProg_ok hk
  have hloops : ∀ p m, s.layout.prim.At p m → m.ty.IsA .polygon → ∃ pts, ClosedLoop m pts := by
    obtain ⟨heap, hh⟩ := hok.heap
    exact hh.layout.loops
  have hS : Solved s.layout.prim r := ⟨hok.primOK, h.ok, by rw [← d.run]; exact h.same, h.finite⟩
  have hkeys : r.keys = k!"Figure" :: g.keys := by
    obtain ⟨_, e, _⟩ := hS.same.nodes [] s.layout.prim r (.here _) (.here _)
    rw [← e, hb.prim]
    have : ts.map (·.1.key) = g.keys := by
      have := congrArg (List.map AxesSpec.key) hts
      rw [List.map_map, List.map_map] at this
      rw [show (fun t : AxesSpec × Nat => t.1.key) = AxesSpec.key ∘ fun x => x.1 from rfl, this]
      show g.keys.map (fun k => k) = _
      exact List.map_id' _
    simp only [Node.keys, Node.children, List.map_cons, List.map_map]
    exact congrArg _ this
  have divmod : ∀ i j, j < g.C → (i * g.C + j) / g.C = i ∧ (i * g.C + j) % g.C = j := by
    intro i j hj
    constructor
    · rw [Nat.mul_comm, Nat.mul_add_div hk.cols, Nat.div_eq_of_lt hj, Nat.add_zero]
    · rw [Nat.mul_comm, Nat.mul_add_mod, Nat.mod_eq_of_lt hj]
  let place : Str → Rect := fun k => g.rect (g.keys.idxOf k / g.C) (g.keys.idxOf k % g.C)
  obtain ⟨calls, axs, c1, c2, c3, c4⟩ := drawn h.ok f1 f2 hW hH (place := place) (by
    intro key hkey ha
    rw [hkeys] at hkey
    rcases List.mem_cons.mp hkey with rfl | hkey
    · exact absurd ha (by decide)
    · have : bareAxes key ∈ ts.map (·.1) := by rw [hts]; exact List.mem_map_of_mem hkey
      obtain ⟨u, hu, e⟩ := List.mem_map.mp this
      have g1 := (hb.axes hu (by rw [e]; exact hk.slash key hkey)).1
      rw [show u.1.key = key by rw [e]; rfl] at g1
      obtain ⟨A, B, C, D, hs⟩ := hS.axes hloops (axesTree_shape g1)
      have hs0 := hs
      obtain ⟨ax, frame, k1, k2, k3, -⟩ := hs
      have hlt : g.keys.idxOf key < g.R * g.C := by rw [← hk.len]; exact List.idxOf_lt_length_iff.mpr hkey
      obtain ⟨q, h1, h2⟩ := fr (g.keys.idxOf key / g.C) (g.keys.idxOf key % g.C)
        (Nat.div_lt_of_lt_mul (by rw [Nat.mul_comm]; exact hlt)) (Nat.mod_lt _ hk.cols)
      have e1 : g.frameKey (g.keys.idxOf key / g.C) (g.keys.idxOf key % g.C) = key ++ k!"/Frame" := by
        rw [GridSpec.frameKey, Nat.div_add_mod', List.getD_eq_getElem?_getD,
          List.getElem?_idxOf hkey]
        rfl
      rw [e1] at h1
      have k4 : r.getChild (key ++ k!"/Frame") = .ok frame := getChild_slash k1 (k2.getChild (by decide))
      rw [h1] at k4
      cases k4
      obtain ⟨ea, eb, ec, ed⟩ := isQuad_unique k3 h2
      rw [ea, eb, ec, ed] at hs0
      exact hs0)
  have hfilter : (r.keys.filter fun key => decide (k!"Axes" <:+: key)) = g.keys := by
    rw [hkeys, List.filter_cons_of_neg (by decide), List.filter_eq_self]
    exact fun k hkm => decide_eq_true (hk.axes k hkm)
  rw [hfilter] at c2
  subst c2
  refine ⟨calls, c1, ?_, ?_⟩
  · simpa using c3
  · intro i j hi hj rect
    obtain ⟨k, h1, h2, h3⟩ := hk.get hi hj
    rw [c4 k (i * g.C + j) (by rw [List.mem_zipIdx_iff_getElem?]; exact h2) rect]
    have e1 : g.keys.idxOf k = i * g.C + j := by
      obtain ⟨hlt, e⟩ := List.getElem?_eq_some_iff.mp h2
      rw [← e]
      exact hk.nodup.idxOf_getElem _ hlt
    have e2 : place k = g.rect i j := by
      show g.rect _ _ = _
      rw [e1, (divmod i j hj).1, (divmod i j hj).2]
    rw [e2]
    simp only [sub_zero]

/-- The notebook's figure is an instance: three rows and four columns of square axes in a figure six
inches wide, with gaps of 0.1 and margins of 0.2. -/
noncomputable def notebookGrid : GridSpec :=
  ⟨3, 4, [k!"Axes[0, 0]", k!"Axes[0, 1]", k!"Axes[0, 2]", k!"Axes[0, 3]",
    k!"Axes[1, 0]", k!"Axes[1, 1]", k!"Axes[1, 2]", k!"Axes[1, 3]",
    k!"Axes[2, 0]", k!"Axes[2, 1]", k!"Axes[2, 2]", k!"Axes[2, 3]"], 6, 1, 0.2, 0.2, 0.2, 0.2,
    fun _ => 1, fun _ => 1, fun _ => 0.1, fun _ => 0.1⟩

example : notebookGrid.KeysOK ∧ (∃ t : GridTools, t.OK notebookGrid.R notebookGrid.C) ∧
    notebookGrid.colUnit = 1.325 ∧ notebookGrid.height = 4.575 ∧ 0 < notebookGrid.aspect ∧
    (∀ c, 0 < notebookGrid.ws c) ∧ (∀ c, 0 < notebookGrid.hs c) ∧
    notebookGrid.rect 2 3 = ⟨4.475, 0.2, 5.8, 1.525⟩ := by
  refine ⟨⟨by decide, by decide, by decide, by decide, ?_, ?_⟩,
    ⟨⟨boxT, cstr widthT, cstr con.coordinate, cstr con.aspectRatio,
      gridT (cstr (marginT true .right)) (cstr (marginT true .bottom)) 3 4, fun side => cstr (marginT false side)⟩,
      box_eq, ct_width_eq, ct_fix_eq, ct_aspectRatio_eq, grid_eq (ct_margin_eq true .right)
        (ct_margin_eq true .bottom) 3 4, ct_margin_eq false⟩, ?_, ?_, ?_, ?_, ?_, ?_⟩
  · show ∀ k ∈ _, _
    decide
  · show ∀ k ∈ _, _
    decide
  · norm_num [notebookGrid, GridSpec.colUnit, Finset.sum_range_succ]
  · norm_num [notebookGrid, GridSpec.colUnit, GridSpec.rowUnit, GridSpec.height, Finset.sum_range_succ]
  · norm_num [notebookGrid]
  · intro c; norm_num [notebookGrid]
  · intro c; norm_num [notebookGrid]
  · norm_num [notebookGrid, GridSpec.rect, GridSpec.x, GridSpec.y, GridSpec.rel, GridSpec.colUnit,
      GridSpec.rowUnit, GridSpec.height, Finset.sum_range_succ]

end MplLayout.Props
