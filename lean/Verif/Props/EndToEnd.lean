import Verif.Lemmas.EndToEnd

/-!
# C68: from the program to the drawing
-/

namespace MplLayout.Props

open Solver Flt

theorem finite_consts : Consts (fun x : Flt => ∃ r, x = fin r) where
  zero := ⟨0, rfl⟩
  one := ⟨1, rfl⟩
  circle size i hs := by
    have hs' : ((size : Nat) : ℝ) ≠ 0 := by exact_mod_cast hs
    have : (((2 : Nat) : Flt) * PyNum.pi / ((size : Nat) : Flt) * ((i : Nat) : Flt))
        = fin (2 * Real.pi / size * i) := by
      show fin ((2 : Nat) : ℝ) * fin Real.pi / fin (size : ℝ) * fin (i : ℝ) = _
      rw [fin_mul, fin_div hs', fin_mul]
      norm_num
    rw [this]
    exact ⟨⟨_, rfl⟩, ⟨_, rfl⟩⟩

theorem finite_all {st : Stmt Flt} (h : st.Finite) : st.All fun x => ∃ r, x = fin r := by
  cases st with
  | array xs => exact h
  | make e =>
    cases e <;> (rename ValueArg Flt => v; cases v <;> first | trivial | exact h _ rfl)
  | _ => trivial

/-- What the theorems below ask of a program: primitives and constraints are added at the top level,
numbers are finite, and constraints are shipped affine ones. -/
def Plain (prog : List (Stmt Flt)) : Prop := ∀ st ∈ prog, st.TopLevel ∧ st.Finite ∧ st.Affine

theorem plain_ok {prog : List (Stmt Flt)} (h : Plain prog) :
    ProgOK (fun x => ∃ r, x = fin r) ((Session.start : Session Flt).run prog) :=
  ProgOK.run finite_consts ProgOK.start (fun st hs => (h st hs).1) fun st hs => finite_all (h st hs).2.1

theorem plain_finite {prog : List (Stmt Flt)} (h : Plain prog) :
    ((Session.start : Session Flt).run prog).layout.prim.Finite := by
  obtain ⟨heap, hh⟩ := (plain_ok h).heap
  intro p m hm x hx
  have := hh.layout.vals p m hm
  exact hh.consts _ (List.mem_of_getElem? this) x hx

/-- C68, constraints: with exact numerics, the layout of a program with affine constraints that can
all be satisfied at the same time is solved by one iteration or more, from any start, and every
constraint that the program added holds exactly of the result. -/
theorem C68_solved (num : Numerics Flt) (hnum : Exact num) (prog : List (Stmt Flt)) (hp : Plain prog)
    (l : Layout Flt) (hl : l = ((Session.start : Session Flt).run prog).layout)
    (r' : Prim Flt) (hr' : PrimOK r') (hs' : SameStructure l.prim r') (hf' : r'.Finite)
    (hsat : ∀ c ∈ (Session.start : Session Flt).constraints prog, ∃ v, c.Value r' v ∧ Zeros v)
    (hne : (Session.start : Session Flt).constraints prog ≠ [])
    (base : Nat) (a b : ℝ) (maxIter : Int) (hmax : 1 ≤ maxIter) :
    ∃ r info, solve num l base (fin a) (fin b) maxIter k!"newton" = .ok (r, info) ∧
      PrimOK r ∧ SameStructure l.prim r ∧ r.Finite ∧
      ∀ c ∈ (Session.start : Session Flt).constraints prog, ∃ v, c.Value r v ∧ Zeros v := by
  have hops : l = (Layout.empty 0).run ((Session.start : Session Flt).ops prog) := by
    rw [hl, Session.run_ops]; rfl
  have hcs : (Session.start : Session Flt).constraints prog
      = (Layout.empty 0).added ((Session.start : Session Flt).ops prog) := Session.constraints_ops _ _
  have hok : PrimOK l.prim := by rw [hl]; exact (plain_ok hp).primOK
  have hfin : l.prim.Finite := by rw [hl]; exact plain_finite hp
  rw [hcs] at hsat hne ⊢
  have all : ∀ {P : LayoutOp Flt → Prop}, (∀ p key, p.WF → P (.addPrim p key)) →
      (∀ ps, (∀ kp ∈ ps, Node.WF kp.2) → P (.addPrims ps)) →
      (∀ c ks ps key, Stmt.Affine (.addConstraint c ks ps key) → P (.addConstraint c ks ps key)) →
      ∀ op ∈ (Session.start : Session Flt).ops prog, P op := by
    intro P h1 h2 h3
    exact Session.ops_all finite_consts h1 h2 ProgOK.start (fun st hs => (hp st hs).1)
      (fun st hs => finite_all (hp st hs).2.1) fun c ks ps key h => h3 c ks ps key (hp _ h).2.2
  obtain ⟨r, info, e1, e2, e3⟩ := C57_constraints num hnum 0 _
    (all (fun _ _ h => h) (fun _ h => h) fun c ks ps key h => by
      obtain ⟨_, s, h1, h2, _, h4⟩ := h; exact ⟨s, h1, h2, h4⟩)
    (all (fun _ _ h => h) (fun _ h => h) fun c ks ps key h => by
      obtain ⟨_, s, h1, h2, h3, _⟩ := h; exact ⟨s, h1, h2, h3⟩)
    (all (fun _ _ _ => trivial) (fun _ _ => trivial) fun c ks ps key h => h.1)
    l hops hok hfin r' hr' hs' hf' hsat hne base a b maxIter hmax
  have e1' : solve num l base (fin a) (fin b) maxIter k!"newton" = .ok (r, info) := by
    rw [(C59_dispatch num l base (fin a) (fin b) maxIter).1]; exact e1
  obtain ⟨k1, k2⟩ := solve_keeps num l hok base (fin a) (fin b) maxIter k!"newton" (.inl rfl) r info e1'
  exact ⟨r, info, e1', k1, k2, e2, e3⟩

/-- A constraint that is asked for holds of the primitives under its keys. -/
theorem asks_satisfied {cs : List (Added Flt)} {r : Prim Flt}
    (h : ∀ c ∈ cs, ∃ v, c.Value r v ∧ Zeros v) {c : Py (Cons Flt)} {keys : List Str}
    {param : List (Param Flt)} (ha : Asks cs c keys param) {prims : List (Prim Flt)}
    (hp : List.Forall₂ (fun k p => r.getChild k = .ok p) keys prims) : SatisfiedPy c prims param := by
  obtain ⟨c', rfl, hm⟩ := ha
  obtain ⟨v, ⟨qs, h1, h2⟩, h3⟩ := h _ hm
  have : qs = prims := by
    simp only at h1
    clear h2 hm
    induction hp generalizing qs with
    | nil => cases h1; rfl
    | cons e _ ih =>
      cases h1 with
      | cons e' h1 =>
        rw [e] at e'
        cases e'
        rw [ih _ h1]
  subst this
  exact ⟨c', rfl, v, h2, h3⟩

/-- C68: a program gives a figure box the width `W` and the height `H`, and some axes margins inside
it.  If all its constraints are affine and can be satisfied at the same time, then solving the layout
and calling `subplots` succeeds, makes a figure of size `W × H` with the
axes of the layout in order, and places every such axes so that its
distances from the sides of the figure are the requested margins. -/
theorem C68_figure (num : Numerics Flt) (hnum : Exact num) (prog : List (Stmt Flt)) (hp : Plain prog)
    (l : Layout Flt) (hl : l = ((Session.start : Session Flt).run prog).layout)
    (cs : List (Added Flt)) (hcs : cs = (Session.start : Session Flt).constraints prog)
    (r' : Prim Flt) (hr' : PrimOK r') (hs' : SameStructure l.prim r') (hf' : r'.Finite)
    (hsat : ∀ c ∈ cs, ∃ v, c.Value r' v ∧ Zeros v)
    (figKey : Str) (W H : ℝ) (hW : W ≠ 0) (hH : H ≠ 0)
    (hfig : ∃ fig A B C D, l.prim.getChild figKey = .ok fig ∧ IsQuad fig A B C D)
    (haxes : ∀ key ∈ l.prim.keys, k!"Axes" <:+: key → ∃ a b c d, AxesShape l.prim key a b c d)
    (hbox : Asks cs ct.box [figKey] []) (hwidth : Asks cs ct.width [figKey] [.num (fin W)])
    (hheight : Asks cs ct.height [figKey] [.num (fin H)])
    (base : Nat) (a b : ℝ) (maxIter : Int) (hmax : 1 ≤ maxIter) :
    ∃ r info calls axs, solve num l base (fin a) (fin b) maxIter k!"newton" = .ok (r, info) ∧
      subplots r figKey none = .ok (calls, axs) ∧
      axs = (l.prim.keys.filter fun key => decide (k!"Axes" <:+: key)).zipIdx ∧
      (∀ w h, .setSize w h ∈ calls ↔ w = fin W ∧ h = fin H) ∧
      ∀ key i, (key, i) ∈ axs → ∀ left right bottom top : ℝ,
        Asks cs ct.box [key ++ k!"/Frame"] [] →
        Asks cs (ct.margin false .left) [key ++ k!"/Frame", figKey] [.num (fin left)] →
        Asks cs (ct.margin false .right) [key ++ k!"/Frame", figKey] [.num (fin right)] →
        Asks cs (ct.margin false .bottom) [key ++ k!"/Frame", figKey] [.num (fin bottom)] →
        Asks cs (ct.margin false .top) [key ++ k!"/Frame", figKey] [.num (fin top)] →
        ∀ rect, .setPosition i rect ∈ calls ↔ rect = (fin (left / W), fin (bottom / H),
          fin ((W - left - right) / W), fin ((H - bottom - top) / H)) := by
  have hne : (Session.start : Session Flt).constraints prog ≠ [] := by
    rw [← hcs]
    obtain ⟨c, _, hm⟩ := hbox
    exact List.ne_nil_of_mem hm
  obtain ⟨r, info, e1, hrok, hst, hrf, hall⟩ := C68_solved num hnum prog hp l hl r' hr' hs' hf'
    (by rw [← hcs]; exact hsat) hne base a b maxIter hmax
  rw [← hcs] at hall
  have hok : PrimOK l.prim := by rw [hl]; exact (plain_ok hp).primOK
  have hS : Solved l.prim r := ⟨hok, hrok, hst, hrf⟩
  have hloops : ∀ p m, l.prim.At p m → m.ty.IsA .polygon → ∃ pts, ClosedLoop m pts := by
    rw [hl]
    obtain ⟨heap, hh⟩ := (plain_ok hp).heap
    exact hh.layout.loops
  obtain ⟨fig, A, B, C, D, f1, f2⟩ := hfig
  obtain ⟨at1, fig', f3, at2⟩ := hS.getChild f1
  obtain ⟨A', B', C', D', hq⟩ := hS.quad at1 at2 f2
    (hloops _ _ at1 (IsA_trans f2.1 ((PrimType.sub_iff _ _).mp (by decide))))
  have hbox' := asks_satisfied hall hbox (.cons f3 .nil)
  rw [C33_box hq] at hbox'
  obtain ⟨x0, y0, x1, y1, rfl, rfl, rfl, rfl⟩ := hbox'
  have hw' := asks_satisfied hall hwidth (.cons f3 .nil)
  rw [C34_width hq] at hw'
  have hh' := asks_satisfied hall hheight (.cons f3 .nil)
  rw [C34_height hq] at hh'
  simp only at hw' hh'
  have hkeys : r.keys = l.prim.keys := by
    obtain ⟨_, h, _⟩ := hst.nodes [] l.prim r (.here _) (.here _)
    exact h.symm
  have hkd : r.keys.Nodup := hrok.wf [] r (.here _)
  have hnd : (axesKeysOf r none).Nodup := hkd.sublist List.filter_sublist
  have hx : x1 ≠ x0 := fun e => hW (by rw [← hw', e, sub_self])
  have hy : y1 ≠ y0 := fun e => hH (by rw [← hh', e, sub_self])
  have hmem : ∀ {kv : Str × Nat},
      kv ∈ dictOfZip (axesKeysOf r none) (List.range (axesKeysOf r none).length) →
      kv.1 ∈ l.prim.keys ∧ k!"Axes" <:+: kv.1 := by
    intro kv hkv
    rw [dictOfZip_of_nodup hnd] at hkv
    have := (List.of_mem_zip (a := kv.1) (b := kv.2) hkv).1
    simp only [axesKeysOf, List.mem_filter, hasSub_iff] at this
    rw [← hkeys]; exact this
  obtain ⟨calls, g1, g2, g3⟩ := C62_positions (root := r) (figKey := figKey)
    (axs := dictOfZip (axesKeysOf r none) (List.range (axesKeysOf r none).length)) f3 hq hx hy
    (fun kv hkv => by
      obtain ⟨m1, m2⟩ := hmem hkv
      obtain ⟨a, b, c, d, hs⟩ := haxes kv.1 m1 m2
      exact hS.axes hloops hs)
    (by
      rw [dictOfZip_of_nodup hnd]
      have : (List.zip (axesKeysOf r none) (List.range (axesKeysOf r none).length)).map Prod.snd
          = List.range (axesKeysOf r none).length := List.map_snd_zip (by simp)
      rw [this]; exact List.nodup_range)
  have hsub : subplots r figKey none = .ok (.newFigure 1 1 ::
      ((List.range (axesKeysOf r none).length).map
        (fun i => DrawCall.addAxes i ((0, 0, 1, 1) : Flt × Flt × Flt × Flt)) ++ calls),
      dictOfZip (axesKeysOf r none) (List.range (axesKeysOf r none).length)) := by
    simp only [subplots, g1, bind, Except.bind]
  refine ⟨r, info, _, _, e1, hsub, ?_, ?_, ?_⟩
  · rw [dictOfZip_of_nodup hnd, ← hkeys, List.zipIdx_eq_zip_range', List.range_eq_range']
    have : axesKeysOf r none = r.keys.filter fun key => decide (k!"Axes" <:+: key) := by
      show r.keys.filter (hasSub k!"Axes") = _
      congr 1
      funext key
      rw [Bool.eq_iff_iff, hasSub_iff, decide_eq_true_iff]
    rw [this]
  · intro w h
    simp only [List.mem_cons, List.mem_append, List.mem_map, reduceCtorEq, and_false, exists_false,
      false_or, g2, hw', hh']
  · intro key i hki left right bottom top b0 b1 b2 b3 b4 rect
    simp only [List.mem_cons, List.mem_append, List.mem_map, reduceCtorEq, and_false, exists_false,
      false_or]
    obtain ⟨m1, m2⟩ := hmem hki
    obtain ⟨_, _, _, _, hs⟩ := haxes key m1 m2
    obtain ⟨P, Q, R, S, hs⟩ := hS.axes hloops hs
    have hs0 := hs
    obtain ⟨ax, frame, k1, ⟨k2, k2'⟩, k3, -⟩ := hs
    have k4 : r.getChild (key ++ k!"/Frame") = .ok frame := by
      rw [Node.getChild_ok_iff, Node.find_iff_At hrok.wf] at k1 ⊢
      rw [show key ++ k!"/Frame" = key ++ '/' :: k!"Frame" by rfl, splitAll_append_slash,
        splitAll_noslash (s := k!"Frame") (by decide)]
      exact At_child k1 k2'
    have hb := asks_satisfied hall b0 (.cons k4 .nil)
    rw [C33_box k3] at hb
    obtain ⟨u0, v0, u1, v1, rfl, rfl, rfl, rfl⟩ := hb
    have hfr : IsRect frame ⟨u0, v0, u1, v1⟩ := k3
    have hfi : IsRect fig' ⟨x0, y0, x1, y1⟩ := hq
    have n1 := (C35_innerMargin hfr hfi .left left).mp (asks_satisfied hall b1 (.cons k4 (.cons f3 .nil)))
    have n2 := (C35_innerMargin hfr hfi .right right).mp
      (asks_satisfied hall b2 (.cons k4 (.cons f3 .nil)))
    have n3 := (C35_innerMargin hfr hfi .bottom bottom).mp
      (asks_satisfied hall b3 (.cons k4 (.cons f3 .nil)))
    have n4 := (C35_innerMargin hfr hfi .top top).mp (asks_satisfied hall b4 (.cons k4 (.cons f3 .nil)))
    simp only [innerGap] at n1 n2 n3 n4
    rw [g3 key i _ _ _ _ hki hs0]
    have hrep : Reproduces (x0, y0) (x1, y1)
        (left / W, bottom / H, (W - left - right) / W, (H - bottom - top) / H) (u0, v0) (u1, v1) := by
      refine ⟨?_, ?_, ?_, ?_⟩ <;> simp only [hw', hh'] <;> field_simp <;> linarith
    constructor
    · rintro ⟨pos, rfl, hpos⟩
      have := reproduces_unique hx hy hpos hrep
      rw [this]
      rfl
    · rintro rfl
      exact ⟨_, rfl, hrep⟩

end MplLayout.Props
