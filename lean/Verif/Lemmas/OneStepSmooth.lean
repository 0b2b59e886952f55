import Verif.Lemmas.OneStepNewton

/-!
# The lines of a figure
-/

namespace MplLayout.Props

open Flt Solver

variable {tool : Shipped → Cons Flt} {items : List FigItem} {s : Session Flt} {ts : List (Make × Nat)}

theorem point_at {i : Nat} {x y : Flt} {p : List Str} {n : Prim Flt} (h : (mkPoint i x y).At p n) : n.keys.length = 0 := by
  cases h with
  | here => rfl
  | down hc _ => exact absurd hc List.not_mem_nil

theorem quad_at {i : Nat} {p : List Str} {n : Prim Flt} (h : (unitQuad i : Prim Flt).At p n) (hk : n.keys.length = 2) :
    ∃ k ∈ [k!"Line0", k!"Line1", k!"Line2", k!"Line3"], p = [k] := by
  have hq := congrArg Node.children (unitQuad_eq (K := Flt) i)
  rw [show ∀ (t : PrimType) (v : PVal Flt) cs, (Node.mk t v cs).children = cs from fun _ _ _ => rfl] at hq
  cases h with
  | here => rw [Node.keys, hq] at hk; cases hk
  | @down _ c _ k p hc hm =>
    rw [hq] at hc
    have hp : p = [] := by
      have key : ∀ (v : PVal Flt) a b c d e f, (mkLine v (mkPoint a b c) (mkPoint d e f)).At p n → p = [] := by
        intro v a b c d e f hm
        cases hm with
        | here => rfl
        | down hc' hm' =>
          simp only [mkLine, Node.children, List.mem_cons, Prod.mk.injEq, List.not_mem_nil, or_false] at hc'
          rcases hc' with ⟨-, rfl⟩ | ⟨-, rfl⟩ <;> · have := point_at hm'; omega
      simp only [List.mem_cons, Prod.mk.injEq, List.not_mem_nil, or_false] at hc
      rcases hc with ⟨-, rfl⟩ | ⟨-, rfl⟩ | ⟨-, rfl⟩ | ⟨-, rfl⟩ <;> exact key _ _ _ _ _ _ _ hm
    subst hp
    refine ⟨k, ?_, rfl⟩
    simp only [List.mem_cons, Prod.mk.injEq, List.not_mem_nil, or_false] at hc ⊢
    rcases hc with ⟨rfl, -⟩ | ⟨rfl, -⟩ | ⟨rfl, -⟩ | ⟨rfl, -⟩ <;> simp

/-- The children of axes. -/
theorem axes_children {x y tx ty : Bool} {n : Nat} {part : Str} {c : Prim Flt} (key : Str)
    (h : (part, c) ∈ (axesTree x y tx ty n : Prim Flt).children) :
    (∃ i, c = unitQuad i ∧ key ++ '/' :: part ∈ (Make.axes key x y tx ty).boxes ∧ '/' ∉ part) ∨ ∃ i, c = mkPoint i 0 0 := by
  have hk : part ∈ MplLayout.axesKeys x y tx ty := by
    rw [← axesTree_keys (K := Flt) (n := n)]
    exact List.mem_map.mpr ⟨_, h, rfl⟩
  rcases axesTree_parts h with ⟨i, e, hp⟩ | ⟨i, e, _⟩
  · refine .inl ⟨i, e, ?_, ?_⟩
    · simp only [Make.boxes, List.mem_map]
      refine ⟨part, ?_, rfl⟩
      simp only [List.mem_cons, List.not_mem_nil, or_false] at hp
      cases x <;> cases y <;> cases tx <;> cases ty <;>
        rcases hp with rfl | rfl | rfl | rfl | rfl <;> revert hk <;> decide +kernel
    · simp only [List.mem_cons, List.not_mem_nil, or_false] at hp
      rcases hp with rfl | rfl | rfl | rfl | rfl <;> decide +kernel
  · exact .inr ⟨i, e⟩

theorem axes_odd (x y tx ty : Bool) (n : Nat) : (axesTree x y tx ty n : Prim Flt).keys.length ≠ 2 := by
  rw [axesTree_keys]
  cases x <;> cases y <;> cases tx <;> cases ty <;> decide +kernel

/-- A node with two children is an edge of a box. -/
theorem Ran.two (h : Ran tool items s ts) {k : Str} {p : List Str} {m : Prim Flt} (hm : s.layout.prim.At (k :: p) m)
    (hk : m.keys.length = 2) :
    ∃ b ∈ ts.flatMap (·.1.boxes), ∃ l ∈ [k!"Line0", k!"Line1", k!"Line2", k!"Line3"], k :: p = splitAll b ++ [l] := by
  cases hm with
  | @down _ c _ _ _ hc hm =>
    rw [h.stock.prim] at hc
    obtain ⟨t, ht, e⟩ := List.mem_map.mp hc
    obtain ⟨rfl, rfl⟩ := Prod.mk.inj e
    have hsl := h.slash t ht
    obtain ⟨mk, n⟩ := t
    cases mk with
    | point key =>
      have := point_at (i := n) (x := 0) (y := 0) hm
      omega
    | quad key =>
      obtain ⟨l, hl, rfl⟩ := quad_at (i := n) hm hk
      refine ⟨key, List.mem_flatMap.mpr ⟨_, ht, by simp [Make.boxes]⟩, l, hl, ?_⟩
      rw [splitAll_noslash (show '/' ∉ key from hsl)]
      rfl
    | axes key x y tx ty =>
      have hm : (axesTree x y tx ty n : Prim Flt).At p m := hm
      generalize hA : (axesTree x y tx ty n : Prim Flt) = A at hm
      cases hm with
      | here => exact absurd hk (hA ▸ axes_odd x y tx ty n)
      | @down _ c' _ part p' hc' hm' =>
        subst hA
        rcases axes_children key hc' with ⟨i, rfl, hb, hp⟩ | ⟨i, rfl⟩
        · obtain ⟨l, hl, rfl⟩ := quad_at hm' hk
          refine ⟨_, List.mem_flatMap.mpr ⟨_, ht, hb⟩, l, hl, ?_⟩
          rw [splitAll_append_slash, splitAll_noslash (show '/' ∉ key from hsl), splitAll_noslash hp]
          rfl
        · have := point_at hm'
          omega

theorem line_far {m a b : Prim Flt} {u w : ℝ × ℝ} (hl : IsLine m u w) (hv : m.values = [a, b]) (hne : u ≠ w)
    {v : List Flt} (he : Arr.sub (.vec b.value.arr) (.vec a.value.arr) = .ok (.vec v)) : ∃ x ∈ v, x ≠ fin 0 := by
  obtain ⟨_, p, q, hc, ⟨_, hp⟩, ⟨_, hq⟩⟩ := hl
  rw [Node.values, hc] at hv
  simp only [List.map_cons, List.map_nil, List.cons.injEq, and_true] at hv
  obtain ⟨rfl, rfl⟩ := hv
  rw [hp, hq] at he
  have h2 : Arr.sub (.vec [(up w).1, (up w).2]) (.vec [(up u).1, (up u).2])
      = .ok (.vec [fin (w.1 - u.1), fin (w.2 - u.2)]) := rfl
  rw [h2] at he
  cases he
  by_cases h0 : u.1 = w.1
  · refine ⟨fin (w.2 - u.2), by simp, fun e => hne (Prod.ext h0 ?_)⟩
    have := Flt.fin.inj e
    linarith
  · refine ⟨fin (w.1 - u.1), by simp, fun e => h0 ?_⟩
    have := Flt.fin.inj e
    linarith

/-- If no box is flat, no line has length zero. -/
theorem Ran.noZero (h : Ran tool items s ts) {r : Prim Flt} (hS : Solved s.layout.prim r)
    (hbox : ∀ b ∈ ts.flatMap (·.1.boxes), ∃ q R, r.getChild b = .ok q ∧ IsRect q R ∧ R.Proper) :
    ∀ k q, r.getChild k = .ok q → Prim.NoZeroLines q := by
  intro k q hq path n a b hn hv v he
  rw [Node.getChild_ok_iff] at hq
  have hat := (Node.At_of_find hq).trans hn
  obtain ⟨k0, p0, e0⟩ : ∃ k0 p0, splitAll k ++ path = k0 :: p0 := by
    cases h0 : splitAll k with
    | nil => exact absurd h0 (splitAll_ne_nil k)
    | cons a as => exact ⟨a, as ++ path, rfl⟩
  rw [e0] at hat
  obtain ⟨m, hm⟩ := (hS.same.paths _).mpr ⟨n, hat⟩
  have hk := (hS.same.nodes _ m n hm hat).2.1
  obtain ⟨bk, hb, l, hl, e1⟩ := h.two hm (by
    rw [hk]
    have := congrArg List.length hv
    simpa [Node.values, Node.keys] using this)
  obtain ⟨q', R, g1, g2, g3⟩ := hbox bk hb
  rw [Node.getChild_ok_iff] at g1
  have hat' := Node.At_of_find g1
  rw [e1] at hat
  obtain ⟨_, l0, l1, l2, l3, hc, i0, i1, i2, i3⟩ := g2
  have far : ∀ {L : Prim Flt} {u w : ℝ × ℝ}, (l, L) ∈ q'.children → IsLine L u w → u ≠ w →
      v = [] ∨ ∃ x ∈ v, x ≠ fin 0 := by
    intro L u w hL hi hne
    have := Solver.At_unique hS.okB.wf (At_child hat' hL) hat
    subst this
    exact .inr (line_far hi hv hne he)
  obtain ⟨hx, hy⟩ := g3
  simp only [List.mem_cons, List.not_mem_nil, or_false] at hl
  rcases hl with rfl | rfl | rfl | rfl
  · exact far (by rw [hc]; simp) i0 fun e => hx (congrArg Prod.fst e)
  · exact far (by rw [hc]; simp) i1 fun e => hy (congrArg Prod.snd e)
  · exact far (by rw [hc]; simp) i2 fun e => hx (congrArg Prod.fst e).symm
  · exact far (by rw [hc]; simp) i3 fun e => hy (congrArg Prod.snd e).symm

/-- Inside a box only its edges have two children. -/
theorem Ran.edges (h : Ran tool items s ts) (hF : FigOK items) {r : Prim Flt} (hr : Moves tool items r) {b : Str}
    (hb : .box b ∈ figDemands items) {path : List Str} {n u w : Prim Flt} (hn : r.At (splitAll b ++ path) n)
    (hv : n.values = [u, w]) : ∃ l ∈ [k!"Line0", k!"Line1", k!"Line2", k!"Line3"], path = [l] := by
  have hS := h.solved hr
  obtain ⟨_, _, i, _, e⟩ := h.stock.box h.slash ((h.scope hF hb).1 (show b ∈ [b] by simp))
  obtain ⟨m, hm⟩ := (hS.same.paths _).mpr ⟨n, hn⟩
  have hk := (hS.same.nodes _ m n hm hn).2.1
  rw [Node.getChild_ok_iff] at e
  rw [← Node.find_iff_At h.ok.wf, Node.find_append, e] at hm
  exact quad_at (Node.At_of_find hm) (by
    rw [hk]
    have := congrArg List.length hv
    simpa [Node.values, Node.keys] using this)

/-- A box that is not flat has no line of length zero. -/
theorem Ran.box_noZero (h : Ran tool items s ts) (hF : FigOK items) {r : Prim Flt} (hr : Moves tool items r) {b : Str}
    (hb : .box b ∈ figDemands items) {q : Prim Flt} {R : Rect} (hq : r.getChild b = .ok q) (hR : IsRect q R)
    (hp : R.Proper) : Prim.NoZeroLines q := by
  intro path n u w hn hv v he
  rw [Node.getChild_ok_iff] at hq
  have hat := (Node.At_of_find hq).trans hn
  obtain ⟨l, hl, rfl⟩ := h.edges hF hr hb hat hv
  obtain ⟨_, l0, l1, l2, l3, hc, i0, i1, i2, i3⟩ := hR
  have far : ∀ {L : Prim Flt} {a c : ℝ × ℝ}, (l, L) ∈ q.children → IsLine L a c → a ≠ c →
      v = [] ∨ ∃ x ∈ v, x ≠ fin 0 := by
    intro L a c hL hi hne
    have := Solver.At_unique hr.ok.wf (At_child (Node.At_of_find hq) hL) hat
    subst this
    exact .inr (line_far hi hv hne he)
  obtain ⟨hx, hy⟩ := hp
  simp only [List.mem_cons, List.not_mem_nil, or_false] at hl
  rcases hl with rfl | rfl | rfl | rfl
  · exact far (by rw [hc]; simp) i0 fun e => hx (congrArg Prod.fst e)
  · exact far (by rw [hc]; simp) i1 fun e => hy (congrArg Prod.snd e)
  · exact far (by rw [hc]; simp) i2 fun e => hx (congrArg Prod.fst e).symm
  · exact far (by rw [hc]; simp) i3 fun e => hy (congrArg Prod.snd e).symm

theorem edge_far {e : Edge} {P : Placement} (h : e.run P ≠ 0) : e.start P ≠ e.stop P := by
  obtain ⟨b, side⟩ := e
  intro he
  apply h
  cases side <;> simp only [Edge.run, Edge.start, Edge.stop, Prod.mk.injEq] at he ⊢
  · linarith [he.1]
  · linarith [he.1]
  · linarith [he.2]
  · linarith [he.2]

/-- An edge with a length. -/
theorem Ran.edge_noZero (h : Ran tool items s ts) (hF : FigOK items) {r : Prim Flt} (hr : Moves tool items r)
    {P : Placement} (hP : PlacedIn items P r) {e : Edge} (hb : .box e.box ∈ figDemands items) (hrun : e.run P ≠ 0)
    {q : Prim Flt} (hq : r.getChild e.key = .ok q) : Prim.NoZeroLines q := by
  intro path n u w hn hv v he
  obtain ⟨l, h1, h2⟩ := Edge.get (hP.1 _ hb)
  obtain rfl := Except.ok.inj (h1.symm.trans hq)
  rw [Node.getChild_ok_iff] at hq
  have hat := (Node.At_of_find hq).trans hn
  have hk : splitAll e.key = splitAll e.box ++ [lineOf e.side] := by
    rw [Edge.key, splitAll_append_slash,
      splitAll_noslash (show '/' ∉ lineOf e.side by cases e.side <;> decide +kernel)]
  rw [hk, List.append_assoc] at hat
  obtain ⟨l', _, e'⟩ := h.edges hF hr hb hat hv
  have hp : path = [] := by simpa using congrArg List.tail e'
  subst hp
  cases hn
  exact .inr (line_far h2 hv (edge_far hrun) he)

/-- The primitives of a demand whose lines are not points. -/
theorem Ran.sized_noZero (h : Ran tool items s ts) (hF : FigOK items) {r : Prim Flt} (hr : Moves tool items r)
    {P : Placement} (hP : PlacedIn items P r) {d : Demand} (hd : d ∈ figDemands items) (hone : d.OneStep)
    (hm : d.kind.MeasuresLength) (hsz : d.Sized P) : ∀ k ∈ d.keys, ∀ q, r.getChild k = .ok q → Prim.NoZeroLines q := by
  intro k hk q hq
  have box : ∀ b, b ∈ d.boxes → (P.box b).Proper → ∀ q, r.getChild b = .ok q → Prim.NoZeroLines q := by
    intro b hb hp q hq
    obtain ⟨q', g1, g2⟩ := hP.1 b (hF.boxed d hd b hb)
    obtain rfl := Except.ok.inj (g1.symm.trans hq)
    exact h.box_noZero hF hr (hF.boxed d hd b hb) hq g2 hp
  cases d with
  | length e v =>
    obtain rfl := List.mem_singleton.mp hk
    exact h.edge_noZero hF hr hP (hF.boxed _ hd _ (by simp [Demand.boxes])) hsz hq
  | relative e e' v =>
    simp only [Demand.keys, List.mem_cons, List.not_mem_nil, or_false] at hk
    rcases hk with rfl | rfl
    · exact h.edge_noZero hF hr hP (hF.boxed _ hd _ (by simp [Demand.boxes])) hsz.1 hq
    · exact h.edge_noZero hF hr hP (hF.boxed _ hd _ (by simp [Demand.boxes])) hsz.2 hq
  | aspect b v =>
    obtain rfl := List.mem_singleton.mp hk
    exact box _ (by simp [Demand.boxes]) hsz q hq
  | grid R C bs ws hs ms ns => exact box k hk (hsz k hk) q hq
  | toLine => exact absurd hone (by simp [Demand.OneStep, Demand.kind, Shipped.IsAffine])
  | label => exact absurd hone (by simp [Demand.OneStep, Demand.kind, Shipped.IsAffine])
  | _ => exact absurd hm (by simp [Demand.kind, Shipped.MeasuresLength])

theorem Ran.start_solved (h : Ran tool items s ts) : Solved s.layout.prim s.layout.prim where
  okA := h.ok
  okB := h.ok
  fin := h.finite
  same := by
    refine ⟨fun p => Iff.rfl, fun p m m' hm hm' => ?_, fun p q m n m' n' hm hn hm' hn' => ?_⟩
    · cases Solver.At_unique h.ok.wf hm hm'
      exact ⟨rfl, rfl, rfl⟩
    · cases Solver.At_unique h.ok.wf hm hm'
      cases Solver.At_unique h.ok.wf hn hn'
      exact Iff.rfl

theorem demand_notAngle (d : Demand) : d.kind ≠ .angle := by
  cases d <;> simp [Demand.kind]

/-- The default geometry has no line of length zero. -/
theorem Ran.smooth_start (h : Ran tool items s ts) (d : Demand) : Shipped.SmoothAt s.layout.prim d.kind := by
  refine ⟨fun _ => h.noZero h.start_solved fun b hb => ?_, fun e => absurd e (demand_notAngle d)⟩
  obtain ⟨_, _, i, _, e⟩ := h.stock.box h.slash hb
  exact ⟨_, ⟨0, 0, 1, 1⟩, e, unitQuad_isQuad i, by norm_num [Rect.Proper]⟩

end MplLayout.Props
