import Verif.Spec.LayoutHeap
import Verif.Props.LayoutUpdate

/-!
# C53: the layout returned by `update_layout_constraints` and the original
-/

namespace MplLayout

variable {K : Type}

namespace World

theorem read_write (w : World K) (r : LayoutRef) (l : Layout K) : (w.write r l).read r = l := by
  simp [read, write]

/-- Writing to `s`, seen from an object with the same primitives, constraints and keys. -/
theorem read_write_shared (w : World K) {r s : LayoutRef} (l : Layout K) (h1 : s.prim = r.prim)
    (h2 : s.cons = r.cons) (h3 : s.keys = r.keys) (h4 : r.params ≠ s.params)
    (h5 : r.counter ≠ s.counter) :
    (w.write s l).read r
      = ⟨l.prim, l.cons, l.keys, (w.read r).params, (w.read r).counter⟩ := by
  simp [read, write, h1, h2, h3, Function.update_of_ne h4, Function.update_of_ne h5]

theorem read_write_disjoint (w : World K) {r s : LayoutRef} (l : Layout K) (h : r.Disjoint s) :
    (w.write s l).read r = w.read r := by
  obtain ⟨h1, h2, h3, h4, h5⟩ := h
  simp [read, write, Function.update_of_ne h1, Function.update_of_ne h2, Function.update_of_ne h3,
    Function.update_of_ne h4, Function.update_of_ne h5]

/-- Calls on one object do what they do to a layout of its own. -/
theorem read_run (w : World K) (s : LayoutRef) (ops : List (LayoutOp K)) :
    (w.run (ops.map (s, ·))).read s = (w.read s).run ops := by
  induction ops generalizing w with
  | nil => rfl
  | cons op ops ih =>
    show ((w.step s op).1.run (ops.map (s, ·))).read s = _
    rw [ih]
    simp only [step, read_write, Layout.run, List.foldl_cons]

theorem read_run_shared (w : World K) {r s : LayoutRef} (ops : List (LayoutOp K))
    (h1 : s.prim = r.prim) (h2 : s.cons = r.cons) (h3 : s.keys = r.keys) (h4 : r.params ≠ s.params)
    (h5 : r.counter ≠ s.counter) :
    (w.run (ops.map (s, ·))).read r
      = ⟨((w.read s).run ops).prim, ((w.read s).run ops).cons, ((w.read s).run ops).keys,
          (w.read r).params, (w.read r).counter⟩ := by
  induction ops generalizing w with
  | nil => simp [run, read, Layout.run, h1, h2, h3]
  | cons op ops ih =>
    show ((w.step s op).1.run (ops.map (s, ·))).read r = _
    rw [ih]
    simp only [step, read_write, read_write_shared w _ h1 h2 h3 h4 h5, Layout.run, List.foldl_cons]

theorem read_run_disjoint (w : World K) {r s : LayoutRef} (ops : List (LayoutOp K))
    (h : r.Disjoint s) : (w.run (ops.map (s, ·))).read r = w.read r := by
  induction ops generalizing w with
  | nil => rfl
  | cons op ops ih =>
    show ((w.step s op).1.run (ops.map (s, ·))).read r = _
    rw [ih]
    simp only [step, read_write_disjoint w _ h]

end World

/-! ### Calls with top-level keys append to the flat lists -/

theorem flat_append {τ α : Type} (n : Node τ α) (k : Str) (c : Node τ α) :
    ∃ es, ((Node.mk n.ty n.value (n.children ++ [(k, c)])).iterFlat []).drop 1
      = (n.iterFlat []).drop 1 ++ es := by
  obtain ⟨t, v, cs⟩ := n
  have : ∀ (cs ds : List (Str × Node τ α)) (key : Str),
      Node.iterFlatL key (cs ++ ds) = Node.iterFlatL key cs ++ Node.iterFlatL key ds := by
    intro cs ds key
    induction cs with
    | nil => rfl
    | cons kc cs ih =>
      obtain ⟨k, c⟩ := kc
      simp only [List.cons_append, Node.iterFlatL, ih, List.append_assoc]
  refine ⟨Node.iterFlatL [] [(k, c)], ?_⟩
  show (Node.iterFlat [] (Node.mk t v (cs ++ [(k, c)]))).drop 1 = _
  simp only [Node.iterFlat, this, List.drop_one, List.tail_cons]

/-- `a` has the flat constraints and keys of `b`, and possibly more after them. -/
def FlatPrefix (b a : Layout K) : Prop :=
  b.flatConstraints.1 <+: a.flatConstraints.1 ∧ b.flatConstraints.2.1 <+: a.flatConstraints.2.1

theorem prefix_drop_map {β γ : Type} {xs ys : List β} (f : β → γ) (h : xs.drop 1 <+: ys.drop 1) :
    (xs.map f).drop 1 <+: (ys.map f).drop 1 := by
  rw [← List.map_drop, ← List.map_drop]
  exact h.map f

theorem addChild_prefix {τ α : Type} {n n' c : Node τ α} {k : Str} (hk : '/' ∉ k)
    (h : n.addChild k c = .ok n') : (n.iterFlat []).drop 1 <+: (n'.iterFlat []).drop 1 := by
  obtain ⟨e, _⟩ : n' = .mk n.ty n.value (n.children ++ [(k, c)]) ∧ True := by
    by_cases hm : k ∈ n.keys
    · have h1 : (splitAll k).dropLast = [] := (noslash_iff_dropLast k).mp hk
      have h2 : (splitAll k).getLastD [] = k := by rw [splitAll_noslash hk]; rfl
      rw [Node.addChild_eq, h1, h2] at h
      simp [Node.find, hm] at h
    · rw [Layout.addChild_top n c hk hm] at h
      exact ⟨(Except.ok.inj h).symm, trivial⟩
  obtain ⟨es, e'⟩ := flat_append n k c
  exact ⟨es, by rw [e, e']⟩

theorem FlatPrefix.step {b a : Layout K} (h : FlatPrefix b a) {op : LayoutOp K} (ht : op.TopLevel)
    (hr : op.Trees) : FlatPrefix b (a.step op).1 := by
  have key : ∀ {l' : Layout K}, FlatPrefix a l' → FlatPrefix b l' :=
    fun h' => ⟨h.1.trans h'.1, h.2.trans h'.2⟩
  apply key
  have pre : ∀ {l' : Layout K}, (a.cons.iterFlat []).drop 1 <+: (l'.cons.iterFlat []).drop 1 →
      (a.keys.iterFlat []).drop 1 <+: (l'.keys.iterFlat []).drop 1 → FlatPrefix a l' :=
    fun h1 h2 => ⟨prefix_drop_map _ h1, prefix_drop_map _ h2⟩
  cases op with
  | addPrim prim k =>
    have e := Layout.addPrim_rest a prim k
    exact pre (by simp only [Layout.step, e]; exact List.prefix_rfl)
      (by simp only [Layout.step, e]; exact List.prefix_rfl)
  | addPrims prims =>
    have e := Layout.addPrims_rest a prims
    exact pre (by simp only [Layout.step, e]; exact List.prefix_rfl)
      (by simp only [Layout.step, e]; exact List.prefix_rfl)
  | addConstraint c primKeys param k =>
    obtain ⟨ctr, k', h1, h2, e⟩ := a.addConstraint_cases hr.2 primKeys param k
    have hk' : '/' ∉ k' := by
      by_cases hk : k = []
      · exact (h2 hk).1
      · rw [(h1 hk).1]; exact ht
    simp only [Layout.step, e, Layout.checkAndStore]
    split
    · simp only [Layout.store]
      split
      · rename_i cons hc
        have p1 := addChild_prefix hk' hc
        simp only [Layout.storeKeys]
        split
        · rename_i keys hks
          simp only [py_bind_ok] at hks
          obtain ⟨t, _, hks⟩ := hks
          have p2 := addChild_prefix hk' hks
          simp only [Layout.storeParams]
          split
          · exact pre p1 p2
          · exact pre p1 p2
        · exact pre p1 List.prefix_rfl
      · exact pre List.prefix_rfl List.prefix_rfl
    · exact pre List.prefix_rfl List.prefix_rfl

theorem FlatPrefix.run {b a : Layout K} (h : FlatPrefix b a) {ops : List (LayoutOp K)}
    (ht : ∀ op ∈ ops, op.TopLevel) (hr : ∀ op ∈ ops, op.Trees) : FlatPrefix b (a.run ops) := by
  induction ops generalizing a with
  | nil => exact h
  | cons op ops ih =>
    exact ih (h.step (ht op (by simp)) (hr op (by simp))) (fun o ho => ht o (by simp [ho]))
      (fun o ho => hr o (by simp [ho]))

theorem residuals_append (cs ds : List (Cons K)) (ps : List (List (Prim K)))
    (qs : List (List (Param K))) (h : ps.length ≤ cs.length) :
    Cons.residuals (cs ++ ds) ps qs = Cons.residuals cs ps qs := by
  induction cs generalizing ps qs with
  | nil =>
    have : ps = [] := List.eq_nil_of_length_eq_zero (by simpa using h)
    subst this
    cases ds <;> rfl
  | cons c cs ih =>
    cases ps with
    | nil => rfl
    | cons p ps =>
      cases qs with
      | nil => rfl
      | cons q qs =>
        simp only [List.cons_append, Cons.residuals, ih ps qs (by simpa using h)]

theorem pyMap_length' {β γ : Type} {f : β → Py γ} : ∀ {xs : List β} {ys : List γ},
    pyMap f xs = .ok ys → ys.length = xs.length
  | [], ys, h => by cases h; rfl
  | x :: xs, ys, h => by
    simp only [pyMap, py_bind_ok] at h
    obtain ⟨y, _, zs, hz, e⟩ := h
    cases e
    simp [pyMap_length' hz]

end MplLayout

namespace MplLayout.Props

open MplLayout

variable {K : Type}

/-- C53, what is and is not shared: after `update_layout_constraints(r, axs)` returned the object
`s`, any calls on `s` act on `s` as on a layout of its own, leave the parameters and the counter of
the original `r` as they were, but `r` gets all of the primitives, constraints and primitive keys
that were added to `s`. -/
theorem C53_shared_partial (w : World K) (r s : LayoutRef) (hr : r.Exists w)
    (axs : List (Str × MplAxes K)) (w' : World K) (h : w.update r axs = .ok (w', s))
    (ops : List (LayoutOp K)) :
    ∃ l', updateLayoutConstraints (w.read r) axs = .ok l' ∧
      (w'.run (ops.map (s, ·))).read s = l'.run ops ∧
      (w'.run (ops.map (s, ·))).read r
        = ⟨(l'.run ops).prim, (l'.run ops).cons, (l'.run ops).keys, (w.read r).params,
            (w.read r).counter⟩ := by
  simp only [World.update, py_bind_ok] at h
  obtain ⟨l', h1, e⟩ := h
  injection e with e
  injection e with e1 e2
  obtain ⟨_, _, _, h4, h5⟩ := hr
  have hp : r.params ≠ s.params := by rw [← e2]; exact Nat.ne_of_lt h4
  have hc : r.counter ≠ s.counter := by rw [← e2]; exact Nat.ne_of_lt h5
  have k1 : s.prim = r.prim := by rw [← e2]
  have k2 : s.cons = r.cons := by rw [← e2]
  have k3 : s.keys = r.keys := by rw [← e2]
  have hs : w'.read s = l' := by
    rw [← e1, ← e2]; exact World.read_write w _ l'
  have hrr : w'.read r = ⟨l'.prim, l'.cons, l'.keys, (w.read r).params, (w.read r).counter⟩ := by
    rw [← e1, ← World.read_write_shared w l' k1 k2 k3 hp hc, ← e2]
    rfl
  refine ⟨l', h1, by rw [World.read_run, hs], ?_⟩
  rw [World.read_run_shared w' ops k1 k2 k3 hp hc, hs, hrr]

/-- C53, immediately: the call itself leaves the original exactly as it was. -/
theorem C53_call_partial (w : World K) (r s : LayoutRef) (hr : r.Exists w)
    (axs : List (Str × MplAxes K)) (w' : World K) (h : w.update r axs = .ok (w', s)) :
    w'.read r = w.read r := by
  obtain ⟨l', h1, _, h3⟩ := C53_shared_partial w r s hr axs w' h []
  simp only [updateLayoutConstraints, py_bind_ok] at h1
  obtain ⟨d, _, t, _, e⟩ := h1
  cases e
  exact h3

/-- C53, other layouts: no call on the new object changes a layout that shares nothing with the
original. -/
theorem C53_other_layouts (w : World K) (r s q : LayoutRef) (hq : q.Exists w)
    (hqr : q.Disjoint r) (axs : List (Str × MplAxes K)) (w' : World K)
    (h : w.update r axs = .ok (w', s)) (ops : List (LayoutOp K)) :
    (w'.run (ops.map (s, ·))).read q = w.read q := by
  simp only [World.update, py_bind_ok] at h
  obtain ⟨l', h1, e⟩ := h
  injection e with e
  injection e with e1 e2
  obtain ⟨_, _, _, h4, h5⟩ := hq
  have hd : q.Disjoint s := by
    rw [← e2]
    exact ⟨hqr.1, hqr.2.1, hqr.2.2.1, Nat.ne_of_lt h4, Nat.ne_of_lt h5⟩
  rw [World.read_run_disjoint w' ops hd, ← e1, ← World.read_write_disjoint w l' hd, ← e2]
  rfl

/-- C53, residuals: if constraints are added to the new object at the top level only, then the
residual of the original (as a function of the primitives) does not change: it has the new
constraints but ignores them, because it has no parameters for them. -/
theorem C53_residual_partial (w : World K) (r s : LayoutRef) (hr : r.Exists w)
    (hp : (w.read r).Paired) (axs : List (Str × MplAxes K)) (w' : World K)
    (h : w.update r axs = .ok (w', s)) (ops : List (LayoutOp K)) (ht : ∀ op ∈ ops, op.TopLevel)
    (hr' : ∀ op ∈ ops, op.Trees) (root : Prim K) :
    ((w'.run (ops.map (s, ·))).read r).residual root = (w.read r).residual root := by
  obtain ⟨l', h1, _, h3⟩ := C53_shared_partial w r s hr axs w' h ops
  have hl' : l'.cons = (w.read r).cons ∧ l'.keys = (w.read r).keys := by
    simp only [updateLayoutConstraints, py_bind_ok] at h1
    obtain ⟨d, _, t, _, e⟩ := h1
    cases e
    exact ⟨rfl, rfl⟩
  have hpre : FlatPrefix l' (l'.run ops) :=
    FlatPrefix.run ⟨List.prefix_rfl, List.prefix_rfl⟩ ht hr'
  rw [h3]
  generalize hl : w.read r = l at *
  obtain ⟨ps, _, _, f1, f2, f3⟩ := hp
  obtain ⟨⟨ds, p1⟩, ⟨es, p2⟩⟩ := hpre
  have q1 : l'.flatConstraints.1 = l.flatConstraints.1 := by
    simp only [Layout.flatConstraints, hl'.1]
  have q2 : l'.flatConstraints.2.1 = l.flatConstraints.2.1 := by
    simp only [Layout.flatConstraints, hl'.2]
  have n1 := f1.length_eq
  have n2 := f2.length_eq
  have n3 := f3.length_eq
  rw [q1] at p1
  rw [q2] at p2
  have r1 : (⟨(l'.run ops).prim, (l'.run ops).cons, (l'.run ops).keys, l.params, l.counter⟩ :
      Layout K).flatConstraints
      = (l.flatConstraints.1 ++ ds, l.flatConstraints.2.1 ++ es, l.flatConstraints.2.2) := by
    rw [p1, p2]; rfl
  have : (⟨(l'.run ops).prim, (l'.run ops).cons, (l'.run ops).keys, l.params, l.counter⟩ :
      Layout K).residualList root = l.residualList root := by
    unfold Layout.residualList
    rw [r1]
    simp only []
    have m1 : min (l.flatConstraints.1 ++ ds).length
        (min (l.flatConstraints.2.1 ++ es).length l.flatConstraints.2.2.length) = ps.length := by
      simp only [List.length_append]; omega
    have m2 : min l.flatConstraints.1.length
        (min l.flatConstraints.2.1.length l.flatConstraints.2.2.length) = ps.length := by omega
    rw [m1, m2]
    have t1 : (l.flatConstraints.2.1 ++ es).take ps.length = l.flatConstraints.2.1 := by
      rw [n2, List.take_left]
    have t2 : l.flatConstraints.2.1.take ps.length = l.flatConstraints.2.1 := by
      rw [n2, List.take_length]
    rw [t1, t2]
    cases hm : pyMap (Cons.lookupPrims root) l.flatConstraints.2.1 with
    | error e => rfl
    | ok prims =>
      show Cons.residuals _ _ _ = Cons.residuals _ _ _
      refine residuals_append _ _ _ _ ?_
      rw [pyMap_length' hm]; omega
  simp only [Layout.residual, this]

/-! ### Counterexample -/

attribute [local instance] exampleNum

/-- One layout object with a rectangle and a height constraint. -/
def oneLayout : World Rat × LayoutRef :=
  World.alloc ⟨fun _ => (Layout.empty 0).prim, fun _ => (Layout.empty 0).cons,
      fun _ => (Layout.empty 0 : Layout Rat).keys, fun _ => (Layout.empty 0).params, fun _ => {}, 0⟩
    ((Layout.empty 0).run (nestedOps.take 3))

example : oneLayout.2.Exists oneLayout.1 := by
  simp [LayoutRef.Exists, oneLayout, World.alloc]

/-- A call with an explicit key. -/
def addHeight (v : Rat) (key : Str) : LayoutOp Rat :=
  .addConstraint ((ct.height).toOption.getD ct.coincident) [k!"q"] [.num v] key

/-- The code violates C53: after adding a constraint to the updated layout, the original has one
constraint too many, and a constraint with height 7 added to the original is paired with the wrong
constraint: the same call that without the update succeeds and gives the residual entry `3 - 7` is
accepted, but the last residual entry is that of the other object's constraint (a width, `2 - 7`). -/
theorem C53_counterexample : ∃ w' s, oneLayout.1.update oneLayout.2 [] = .ok (w', s) ∧
    let w1 := w'.run [(oneLayout.2, addHeight 7 k!"mine")]
    let w2 := w'.run [(s, .addConstraint ((ct.width).toOption.getD ct.coincident) [k!"q"] [.num 9]
      k!"other"), (oneLayout.2, addHeight 7 k!"mine")]
    (w1.read oneLayout.2).residual (w1.read oneLayout.2).prim = .ok [2 - 7, 3 - 5, 3 - 7] ∧
    (w2.read oneLayout.2).residual (w2.read oneLayout.2).prim = .ok [2 - 7, 3 - 5, 2 - 7] := by
  have h : (match oneLayout.1.update oneLayout.2 [] with
    | .ok (w', s) =>
      let w1 := w'.run [(oneLayout.2, addHeight 7 k!"mine")]
      let w2 := w'.run [(s, .addConstraint ((ct.width).toOption.getD ct.coincident) [k!"q"] [.num 9]
        k!"other"), (oneLayout.2, addHeight 7 k!"mine")]
      decide ((w1.read oneLayout.2).residual (w1.read oneLayout.2).prim
          = .ok [2 - 7, 3 - 5, 3 - 7] ∧
        (w2.read oneLayout.2).residual (w2.read oneLayout.2).prim = .ok [2 - 7, 3 - 5, 2 - 7])
    | .error _ => false) = true := by decide +kernel
  split at h
  · rename_i w' s e
    exact ⟨w', s, e, of_decide_eq_true h⟩
  · cases h

end MplLayout.Props
