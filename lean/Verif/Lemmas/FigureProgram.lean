import Verif.Lemmas.Figure
import Verif.Props.Tutorial

/-! Executing figure programs. -/

namespace MplLayout

open Flt Props Solver

/-- A box or a point that a program made, and its identity. -/
structure Slot where
  key : Str
  isBox : Bool
  id : Nat

/-- The number of identities that it takes. -/
def Slot.size (s : Slot) : Nat := if s.isBox then 9 else 1

/-- The primitive as it was made. -/
noncomputable def Slot.tree (s : Slot) : Prim Flt := if s.isBox then unitQuad s.id else mkPoint s.id 0 0

/-- The box and the label of an axis. -/
def axisSlots (key : Str) (b : Bool) (part : Str) (n : Nat) : List Slot :=
  if b then [⟨key ++ '/' :: part, true, n⟩, ⟨key ++ '/' :: (part ++ k!"Label"), false, n + 9⟩] else []

/-- What a primitive brings if `n` is the next identity, in the order of the identities. -/
def Make.slots (n : Nat) : Make → List Slot
  | .point key => [⟨key, false, n⟩]
  | .quad key => [⟨key, true, n⟩]
  | .axes key x y tx ty =>
    axisSlots key x k!"XAxis" (n + 1) ++ (axisSlots key (x && tx) k!"TwinXAxis" (axisNext x (n + 1)) ++
    (axisSlots key y k!"YAxis" (axisNext (x && tx) (axisNext x (n + 1))) ++
    (axisSlots key (y && ty) k!"TwinYAxis" (axisNext y (axisNext (x && tx) (axisNext x (n + 1)))) ++
      [⟨key ++ k!"/Frame", true, frameId x y tx ty n⟩])))

/-- The next identity after it. -/
def Make.stop (n : Nat) : Make → Nat
  | .point _ => n + 1
  | .quad _ => n + 9
  | .axes _ x y tx ty => frameId x y tx ty n + 9

/-- The primitive. -/
noncomputable def Make.tree (n : Nat) : Make → Prim Flt
  | .point _ => mkPoint n 0 0
  | .quad _ => unitQuad n
  | .axes _ x y tx ty => axesTree x y tx ty n

theorem Make.stop_gt (m : Make) (n : Nat) : n + 1 ≤ m.stop n := by
  cases m with
  | point => simp [stop]
  | quad => simp [stop]
  | axes key x y tx ty =>
    have := frameId_gt x y tx ty n
    simp only [stop]; omega

theorem Make.slots_range (m : Make) (n : Nat) : ∀ s ∈ m.slots n, n ≤ s.id ∧ s.id + s.size ≤ m.stop n := by
  cases m with
  | point => simp [slots, stop, Slot.size]
  | quad => simp [slots, stop, Slot.size]
  | axes key x y tx ty =>
    cases x <;> cases y <;> cases tx <;> cases ty <;>
      simp [slots, stop, Slot.size, axisSlots, axisNext, frameId] <;> omega

theorem Make.slots_pairwise (m : Make) (n : Nat) : (m.slots n).Pairwise fun s t => s.id + s.size ≤ t.id := by
  cases m with
  | point => simp [slots]
  | quad => simp [slots]
  | axes key x y tx ty =>
    cases x <;> cases y <;> cases tx <;> cases ty <;>
      simp [slots, Slot.size, axisSlots, axisNext, frameId] <;> omega

theorem Make.mem_boxes (m : Make) (n : Nat) (k : Str) : k ∈ m.boxes ↔ ∃ i, ⟨k, true, i⟩ ∈ m.slots n := by
  cases m with
  | point => simp [slots, boxes]
  | quad => simp [slots, boxes]
  | axes key x y tx ty =>
    cases x <;> cases y <;> cases tx <;> cases ty <;>
      simp [slots, boxes, axisSlots, axisNext, frameId] <;> aesop

theorem Make.mem_points (m : Make) (n : Nat) (k : Str) : k ∈ m.points ↔ ∃ i, ⟨k, false, i⟩ ∈ m.slots n := by
  cases m with
  | point => simp [slots, points]
  | quad => simp [slots, points]
  | axes key x y tx ty =>
    cases x <;> cases y <;> cases tx <;> cases ty <;>
      simp [slots, points, axisSlots, axisNext, frameId] <;> aesop

/-- Where a slot is in the tree. -/
theorem Make.slots_get (m : Make) (n : Nat) : ∀ s ∈ m.slots n,
    (s.key = m.key ∧ s.tree = m.tree n) ∨
      ∃ part, '/' ∉ part ∧ s.key = m.key ++ '/' :: part ∧ (part, s.tree) ∈ (m.tree n).children := by
  cases m with
  | point => intro s hs; left; simp only [slots, List.mem_singleton] at hs; subst hs; exact ⟨rfl, rfl⟩
  | quad => intro s hs; left; simp only [slots, List.mem_singleton] at hs; subst hs; exact ⟨rfl, rfl⟩
  | axes key x y tx ty =>
    have go : ∀ (s : Slot) (part : Str), '/' ∉ part → s.key = key ++ '/' :: part →
        (part, s.tree) ∈ (MplLayout.axesKeys x y tx ty).zip (axesKids (K := Flt) x y tx ty n) →
        (s.key = (Make.axes key x y tx ty).key ∧ s.tree = (Make.axes key x y tx ty).tree n) ∨
        ∃ part, '/' ∉ part ∧ s.key = (Make.axes key x y tx ty).key ++ '/' :: part ∧
          (part, s.tree) ∈ ((Make.axes key x y tx ty).tree n).children := fun s p h1 h2 h3 => .inr ⟨p, h1, h2, h3⟩
    have ax : ∀ (b : Bool) (part : Str) (j : Nat), '/' ∉ part →
        (b = true → (part, unitQuad j) ∈ (MplLayout.axesKeys x y tx ty).zip (axesKids (K := Flt) x y tx ty n)) →
        (b = true → (part ++ k!"Label", mkPoint (j + 9) 0 0) ∈
          (MplLayout.axesKeys x y tx ty).zip (axesKids (K := Flt) x y tx ty n)) →
        ∀ s ∈ axisSlots key b part j,
        (s.key = (Make.axes key x y tx ty).key ∧ s.tree = (Make.axes key x y tx ty).tree n) ∨
        ∃ part, '/' ∉ part ∧ s.key = (Make.axes key x y tx ty).key ++ '/' :: part ∧
          (part, s.tree) ∈ ((Make.axes key x y tx ty).tree n).children := by
      intro b part j hp h1 h2 s hs
      cases b with
      | false => simp [axisSlots] at hs
      | true =>
        simp only [axisSlots, if_true, List.mem_cons, List.not_mem_nil, or_false] at hs
        rcases hs with rfl | rfl
        · exact go _ part hp rfl (h1 rfl)
        · refine go _ (part ++ k!"Label") ?_ rfl (h2 rfl)
          simp only [List.mem_append, not_or]
          exact ⟨hp, by decide⟩
    intro s hs
    simp only [slots, List.mem_append, List.mem_singleton] at hs
    rcases hs with hs | hs | hs | hs | rfl
    · refine ax x _ _ (by decide) ?_ ?_ s hs
      · rintro rfl; cases y <;> cases tx <;> cases ty <;> simp [MplLayout.axesKeys, axesKids, axisParts, axisNext]
      · rintro rfl; cases y <;> cases tx <;> cases ty <;> simp [MplLayout.axesKeys, axesKids, axisParts, axisNext]
    · refine ax (x && tx) _ _ (by decide) ?_ ?_ s hs <;>
      · intro e; cases x <;> cases tx <;> simp at e
        cases y <;> cases ty <;> simp [MplLayout.axesKeys, axesKids, axisParts, axisNext]
    · refine ax y _ _ (by decide) ?_ ?_ s hs <;>
      · rintro rfl; cases x <;> cases tx <;> cases ty <;> simp [MplLayout.axesKeys, axesKids, axisParts, axisNext]
    · refine ax (y && ty) _ _ (by decide) ?_ ?_ s hs <;>
      · intro e; cases y <;> cases ty <;> simp at e
        cases x <;> cases tx <;> simp [MplLayout.axesKeys, axesKids, axisParts, axisNext]
    · exact go _ k!"Frame" (by decide) rfl (axesTree_frame x y tx ty n)

/-! ## Executing the program -/

theorem Make.tree_WF (m : Make) (n : Nat) : (m.tree n).WF := by
  cases m with
  | point => rw [tree, mkPoint, Node.WF_mk]; simp
  | quad => exact unitQuad_WF n
  | axes => exact axesTree_WF _ _ _ _ _

theorem Make.expr_eval (m : Make) (s : Session Flt) (n : Nat) : s.eval m.expr n = .ok (m.tree n, m.stop n) := by
  cases m with
  | point => exact newPoint_none_ok n
  | quad => exact newQuadrilateral_none_ok n
  | axes => exact newAxes_eq _ _ _ _ _

/-- The session after the primitives `ts` were made and added, each with the identity it got. -/
structure Stocked (ts : List (Make × Nat)) (s : Session Flt) : Prop where
  inv : s.layout.Inv
  prim : s.layout.prim = .mk .primitiveNode ⟨0, []⟩ (ts.map fun t => (t.1.key, t.1.tree t.2))
  prims : s.prims.length = ts.length
  sep : ts.Pairwise fun t u => t.1.stop t.2 ≤ u.2
  high : ∀ t ∈ ts, t.1.stop t.2 ≤ s.next

theorem Stocked.start : Stocked [] (Session.start : Session Flt) :=
  ⟨Layout.Inv.empty 0, rfl, rfl, .nil, by simp⟩

theorem Stocked.constraint {s : Session Flt} {ts : List (Make × Nat)} (hb : Stocked ts s) {c : Cons Flt}
    {ks : List Str} {ps : List (Param Flt)}
    (hc : (LayoutOp.addConstraint c ks ps []).Sensible)
    (hk : ∃ prims, List.Forall₂ (fun k p => s.layout.prim.getChild k = .ok p) ks prims ∧
        List.Forall₂ (fun (p : Prim Flt) t => p.ty.IsA t) prims c.value.sig.primTypes)
    (hp : ps.length = c.value.sig.paramTypes.length) :
    ∃ s', Does s [.addConstraint c ks ps []] [⟨c, ks, ps⟩] s' ∧ Stocked ts s' := by
  obtain ⟨prims, h1, h2⟩ := hk
  have hok := (addConstraint_ok_iff hb.inv c ks ps [] (Sensible.regular hc)).mpr
    ⟨⟨prims, h1, h2, hp⟩, .inl rfl⟩
  have hst : s.step (.addConstraint c ks ps [])
      = ({ s with layout := (s.layout.addConstraint c ks ps []).1 }, .ok ()) := by
    rw [← hok]; rfl
  refine ⟨_, ⟨rfl, ?_, ?_⟩, ?_⟩
  · simp only [Session.constraints, hst, List.append_nil]
  · intro o ho
    simp only [Session.outcomes, hst, List.mem_singleton] at ho
    exact ho
  · show Stocked ts (s.step (.addConstraint c ks ps [])).1
    rw [hst]
    exact ⟨hb.inv.addConstraint (Sensible.regular hc), by
      show (s.layout.addConstraint c ks ps []).1.prim = _
      rw [addConstraint_prim]; exact hb.prim, hb.prims, hb.sep, hb.high⟩

/-- Making a primitive and adding it to the layout. -/
theorem Stocked.make {s : Session Flt} {ts : List (Make × Nat)} (hb : Stocked ts s) {m : Make}
    (h1 : '/' ∉ m.key) (h3 : m.key ∉ ts.map (·.1.key)) :
    ∃ s', Does s [.make m.expr, .addPrim ts.length m.key] [] s' ∧ Stocked (ts ++ [(m, s.next)]) s' := by
  have e1 : s.step (.make m.expr)
      = ({ s with next := m.stop s.next, prims := s.prims ++ [m.tree s.next] }, .ok ()) := by
    simp only [Session.step, m.expr_eval s s.next]
  have d1 := Does.quiet e1 (by intro c ks ps key e; cases e)
  have hnk : m.key ∉ s.layout.prim.keys := by
    rw [hb.prim]
    simp only [Node.keys, Node.children, List.map_map]
    exact h3
  have hadd := Layout.addChild_top s.layout.prim (m.tree s.next) h1 hnk
  have e2 : (⟨m.stop s.next, s.arrays, s.prims ++ [m.tree s.next], s.layout⟩ : Session Flt).step
        (.addPrim ts.length m.key)
      = (⟨m.stop s.next, s.arrays, s.prims ++ [m.tree s.next],
        (s.layout.addPrim (m.tree s.next) m.key).1⟩, .ok ()) := by
    have hv : Session.var (s.prims ++ [m.tree s.next]) ts.length = .ok (m.tree s.next) := by
      unfold Session.var
      rw [← hb.prims, List.getElem?_concat_length]
    simp only [Session.step, Session.call, hv, bind, Except.bind, Session.stepCall, Layout.step]
    congr 1
    unfold Layout.addPrim
    rw [hadd]
  have d2 := Does.quiet e2 (by intro c ks ps key e; cases e)
  refine ⟨_, d1.append d2, ?_⟩
  have hgt := m.stop_gt s.next
  refine ⟨hb.inv.addPrim (m.tree_WF _) _, ?_, by simp [hb.prims], ?_, ?_⟩
  · show (s.layout.addPrim _ _).1.prim = _
    unfold Layout.addPrim
    rw [hadd]
    simp only [hb.prim, Node.ty, Node.value, Node.children, List.map_append, List.map_cons, List.map_nil]
  · rw [List.pairwise_append]
    refine ⟨hb.sep, List.pairwise_singleton _ _, ?_⟩
    intro u hu y hy
    rw [List.mem_singleton.mp hy]
    exact hb.high u hu
  · intro u hu
    rcases List.mem_append.mp hu with hu | hu
    · have := hb.high u hu
      show _ ≤ m.stop s.next
      omega
    · rw [List.mem_singleton.mp hu]

/-- Everything that was made is found under its key. -/
theorem Stocked.made {s : Session Flt} {ts : List (Make × Nat)} (hb : Stocked ts s) {t : Make × Nat} (ht : t ∈ ts)
    (hk : '/' ∉ t.1.key) : s.layout.prim.At [t.1.key] (t.1.tree t.2) ∧
      s.layout.prim.getChild t.1.key = .ok (t.1.tree t.2) := by
  have h1 : s.layout.prim.At [t.1.key] (t.1.tree t.2) := by
    rw [hb.prim]
    exact .down (List.mem_map.mpr ⟨t, ht, rfl⟩) (.here _)
  refine ⟨h1, ?_⟩
  rw [Node.getChild_ok_iff, Node.find_iff_At hb.inv.prim, splitAll_noslash hk]
  exact h1

theorem Stocked.slot {s : Session Flt} {ts : List (Make × Nat)} (hb : Stocked ts s) {t : Make × Nat} (ht : t ∈ ts)
    (hk : '/' ∉ t.1.key) {sl : Slot} (hs : sl ∈ t.1.slots t.2) : s.layout.prim.getChild sl.key = .ok sl.tree := by
  obtain ⟨h1, h2⟩ := hb.made ht hk
  rcases t.1.slots_get t.2 sl hs with ⟨e1, e2⟩ | ⟨part, e1, e2, e3⟩
  · rw [e1, e2]; exact h2
  · rw [e2, Node.getChild_ok_iff, Node.find_iff_At hb.inv.prim, splitAll_append_slash, splitAll_noslash hk,
      splitAll_noslash e1]
    exact At_child h1 e3

theorem Stocked.box {s : Session Flt} {ts : List (Make × Nat)} (hb : Stocked ts s)
    (hk : ∀ t ∈ ts, '/' ∉ t.1.key) {b : Str} (h : b ∈ ts.flatMap (·.1.boxes)) :
    ∃ t ∈ ts, ∃ i, ⟨b, true, i⟩ ∈ t.1.slots t.2 ∧ s.layout.prim.getChild b = .ok (unitQuad i) := by
  obtain ⟨t, ht, hm⟩ := List.mem_flatMap.mp h
  obtain ⟨i, hi⟩ := (t.1.mem_boxes t.2 b).mp hm
  exact ⟨t, ht, i, hi, hb.slot ht (hk t ht) hi⟩

theorem Stocked.point {s : Session Flt} {ts : List (Make × Nat)} (hb : Stocked ts s)
    (hk : ∀ t ∈ ts, '/' ∉ t.1.key) {k : Str} (h : k ∈ ts.flatMap (·.1.points)) :
    ∃ t ∈ ts, ∃ i, ⟨k, false, i⟩ ∈ t.1.slots t.2 ∧ s.layout.prim.getChild k = .ok (mkPoint i 0 0) := by
  obtain ⟨t, ht, hm⟩ := List.mem_flatMap.mp h
  obtain ⟨i, hi⟩ := (t.1.mem_points t.2 k).mp hm
  exact ⟨t, ht, i, hi, hb.slot ht (hk t ht) hi⟩

theorem Stocked.axes {s : Session Flt} {ts : List (Make × Nat)} (hb : Stocked ts s)
    (hk : ∀ t ∈ ts, '/' ∉ t.1.key) {k : Str} (h : k ∈ ts.flatMap (·.1.axesKeys)) :
    ∃ x y tx ty n, s.layout.prim.getChild k = .ok (axesTree x y tx ty n) := by
  obtain ⟨⟨m, n⟩, ht, hm⟩ := List.mem_flatMap.mp h
  have := (hb.made ht (hk _ ht)).2
  cases m with
  | point => simp [Make.axesKeys] at hm
  | quad => simp [Make.axesKeys] at hm
  | axes key x y tx ty =>
    simp only [Make.axesKeys, List.mem_singleton] at hm
    subst hm
    exact ⟨x, y, tx, ty, n, this⟩

/-- Where everything is when it has just been made. -/
noncomputable def defaults : Placement := ⟨fun _ => ⟨0, 0, 1, 1⟩, fun _ => (0, 0)⟩

theorem Stocked.demand {s : Session Flt} {ts : List (Make × Nat)} (hb : Stocked ts s)
    (hk : ∀ t ∈ ts, '/' ∉ t.1.key) {d : Demand} (h1 : d.boxes ⊆ ts.flatMap (·.1.boxes))
    (h2 : d.points ⊆ ts.flatMap (·.1.points)) (h3 : d.axes ⊆ ts.flatMap (·.1.axesKeys)) :
    d.In defaults s.layout.prim where
  box b hm := by
    obtain ⟨t, _, i, _, e⟩ := hb.box hk (h1 hm)
    exact ⟨_, e, unitQuad_isQuad i⟩
  point k hm := by
    obtain ⟨t, _, i, _, e⟩ := hb.point hk (h2 hm)
    exact ⟨_, e, .refl _, rfl⟩
  axes a hm := by
    obtain ⟨x, y, tx, ty, n, e⟩ := hb.axes hk (h3 hm)
    exact ⟨_, e, .refl _⟩

/-- The demand as a constraint of the layout. -/
noncomputable def Demand.added (tool : Shipped → Cons Flt) (d : Demand) : Added Flt := ⟨tool d.kind, d.keys, d.params⟩

theorem Demand.paramsOK {d : Demand} (h : d.ParamOK) : d.kind.SizeOK ∧ d.kind.ParamsOK d.params := by
  cases d with
  | cells R C bs => exact ⟨⟨h.1, h.2.1⟩, h.1, h.2.1⟩
  | grid R C bs ws hs ms ns =>
    refine ⟨⟨h.1, h.2.1⟩, h.1, h.2.1, _, _, _, _, _, _, _, _, rfl, iter_arrOf _ _, iter_arrOf _ _, iter_arrOf _ _,
      iter_arrOf _ _, by simp, by simp, ?_, ?_⟩ <;>
    · intro p hp
      obtain ⟨i, _, rfl⟩ := List.mem_map.mp hp
      trivial
  | thickness b kind p v =>
    refine ⟨trivial, ?_⟩
    intro p' hp'
    rw [List.mem_singleton.mp hp']
    exact h.2
  | width b v => exact ⟨trivial, fun p hp => by rw [List.mem_singleton.mp hp]; trivial⟩
  | height b v => exact ⟨trivial, fun p hp => by rw [List.mem_singleton.mp hp]; trivial⟩
  | inner side b c v => exact ⟨trivial, fun p hp => by rw [List.mem_singleton.mp hp]; trivial⟩
  | outer side b c v => exact ⟨trivial, fun p hp => by rw [List.mem_singleton.mp hp]; trivial⟩
  | _ => exact ⟨trivial, trivial⟩

theorem does_items (tool : Shipped → Cons Flt) (items : List FigItem) : ∀ {s : Session Flt}
    {ts : List (Make × Nat)}, Stocked ts s → (∀ t ∈ ts, '/' ∉ t.1.key) → (∀ m ∈ figMakes items, '/' ∉ m.key) →
    (ts.map (·.1.key) ++ (figMakes items).map Make.key).Nodup →
    FigInScope (ts.flatMap (·.1.boxes)) (ts.flatMap (·.1.points)) (ts.flatMap (·.1.axesKeys)) items →
    (∀ d ∈ figDemands items, d.ParamOK) → ToolsFor tool items →
    ∃ s' ts', Does s (figProgram tool ts.length items) ((figDemands items).map (Demand.added tool)) s' ∧
      Stocked ts' s' ∧ ts'.map (·.1) = ts.map (·.1) ++ figMakes items := by
  induction items with
  | nil =>
    intro s ts hb _ _ _ _ _ _
    exact ⟨s, ts, Does.nil s, hb, by simp [figMakes]⟩
  | cons it items ih =>
    intro s ts hb hk hsl hn hsc hp hT
    cases it with
    | make m =>
      simp only [figMakes, List.mem_cons, forall_eq_or_imp, List.map_cons] at hsl hn
      obtain ⟨s1, d1, b1⟩ := hb.make hsl.1 (by
        intro hm
        rw [List.nodup_append] at hn
        exact hn.2.2 _ hm _ (by simp) rfl)
      obtain ⟨s', ts', d2, b2, e⟩ := ih b1 (by
          intro t ht
          rcases List.mem_append.mp ht with ht | ht
          · exact hk t ht
          · rw [List.mem_singleton.mp ht]; exact hsl.1)
        hsl.2 (by simpa using hn) (by simpa [FigInScope] using hsc) hp hT
      refine ⟨s', ts', ?_, b2, by simpa [figMakes] using e⟩
      simp only [List.length_append, List.length_cons, List.length_nil] at d2
      exact d1.append d2
    | ask d =>
      simp only [figDemands, List.mem_cons, forall_eq_or_imp] at hp
      obtain ⟨⟨c1, c2, c3⟩, hsc⟩ := hsc
      have hin := hb.demand hk c1 c2 c3
      obtain ⟨prims, g1, g2, _⟩ := Demand.meaning hb.inv.prim hin hp.1
      have hbld : d.kind.build = .ok (tool d.kind) := hT d (by simp [figDemands])
      obtain ⟨f1, f2⟩ := g2 _ hbld
      obtain ⟨z1, z2⟩ := Demand.paramsOK hp.1
      obtain ⟨s1, d1, b1⟩ := hb.constraint (c := tool d.kind) (ks := d.keys) (ps := d.params)
        ⟨d.kind, hbld, z1, z2⟩ ⟨prims, g1, f1⟩ f2
      obtain ⟨s', ts', d2, b2, e⟩ := ih b1 hk hsl hn hsc hp.2 (fun d' hd' => hT d' (by simp [figDemands, hd']))
      exact ⟨s', ts', d1.append d2, b2, e⟩

/-! ## Moving the boxes and the points -/

/-- The place of an identity. -/
noncomputable def Slot.find (P : Placement) (s : Slot) (id : Nat) : Option (ℝ × ℝ) :=
  if s.isBox then
    if id = s.id + 1 then some ((P.box s.key).x0, (P.box s.key).y0)
    else if id = s.id + 2 then some ((P.box s.key).x1, (P.box s.key).y0)
    else if id = s.id + 3 then some ((P.box s.key).x1, (P.box s.key).y1)
    else if id = s.id + 4 then some ((P.box s.key).x0, (P.box s.key).y1)
    else none
  else if id = s.id then some (P.point s.key) else none

theorem Slot.find_out {P : Placement} {s : Slot} {id : Nat} (h : id < s.id ∨ s.id + s.size ≤ id) :
    s.find P id = none := by
  unfold find
  unfold size at h
  split
  · rename_i hb
    rw [if_pos hb] at h
    rw [if_neg (by omega), if_neg (by omega), if_neg (by omega), if_neg (by omega)]
  · rename_i hb
    rw [if_neg hb] at h
    rw [if_neg (by omega)]

theorem find_slots {P : Placement} {slots : List Slot} (hp : slots.Pairwise fun s t => s.id + s.size ≤ t.id)
    {s : Slot} (hs : s ∈ slots) {id : Nat} (h1 : s.id ≤ id) (h2 : id < s.id + s.size) :
    slots.findSome? (fun t => t.find P id) = s.find P id := by
  induction slots with
  | nil => cases hs
  | cons a slots ih =>
    rw [List.pairwise_cons] at hp
    rw [List.findSome?_cons]
    rcases List.mem_cons.mp hs with rfl | hs
    · cases e : s.find P id with
      | some => rfl
      | none =>
        simp only
        rw [List.findSome?_eq_none_iff]
        intro t ht
        have := hp.1 t ht
        exact Slot.find_out (.inl (by omega))
    · rw [Slot.find_out (.inr (by have := hp.1 s hs; omega))]
      exact ih hp.2 hs

theorem Stocked.slots_pairwise {s : Session Flt} {ts : List (Make × Nat)} (hb : Stocked ts s) :
    (ts.flatMap fun t => t.1.slots t.2).Pairwise fun s t => s.id + s.size ≤ t.id := by
  rw [List.pairwise_flatMap]
  refine ⟨fun t _ => t.1.slots_pairwise t.2, hb.sep.imp ?_⟩
  intro t u h x hx y hy
  have := t.1.slots_range t.2 x hx
  have := u.1.slots_range u.2 y hy
  omega

/-- The tree with the boxes and points in the given places. -/
theorem Stocked.placed {s : Session Flt} {ts : List (Make × Nat)} (hb : Stocked ts s) (P : Placement)
    {sl : Slot} (hs : sl ∈ ts.flatMap fun t => t.1.slots t.2) :
    (sl.isBox = true → IsRect ((unitQuad sl.id).mapV (placeBy fun id =>
      (ts.flatMap fun t => t.1.slots t.2).findSome? fun t => t.find P id)) (P.box sl.key)) ∧
    (sl.isBox = false → IsPoint ((mkPoint sl.id 0 0).mapV (placeBy fun id =>
      (ts.flatMap fun t => t.1.slots t.2).findSome? fun t => t.find P id)) (P.point sl.key)) := by
  have hp := hb.slots_pairwise
  have look : ∀ id, sl.id ≤ id → id < sl.id + sl.size →
      (ts.flatMap fun t => t.1.slots t.2).findSome? (fun t => t.find P id) = sl.find P id :=
    fun id h1 h2 => find_slots hp hs h1 h2
  constructor
  · intro e
    have hz : sl.size = 9 := by simp [Slot.size, e]
    apply placeBy_quad
    · rw [look _ (by omega) (by omega)]; simp [Slot.find, e]
    · rw [look _ (by omega) (by omega)]; simp [Slot.find, e]
    · rw [look _ (by omega) (by omega)]; simp [Slot.find, e]
    · rw [look _ (by omega) (by omega)]; simp [Slot.find, e]
  · intro e
    have hz : sl.size = 1 := by simp [Slot.size, e]
    apply placeBy_point
    rw [look _ (by omega) (by omega)]; simp [Slot.find, e]

end MplLayout
