import Verif.Lemmas.Pytree
import Verif.Spec.Primitives

/-!
# C73: nodes survive `jax.tree_util` (`containers.py:504-527`, `primitives.py:562-576`)
-/

namespace MplLayout.Props

variable {τ α β γ : Type}

/-- `n'` is `n` with every value `v` replaced by `f v`: the same class and, up to order, the same
keys at every key path, and no other paths. -/
def SameUnder (f : α → β) (n : Node τ α) (n' : Node τ β) : Prop :=
  (n'.ty = n.ty ∧ n'.value = f n.value ∧ n'.keys.Perm n.keys) ∧
  ∀ key, (∀ m, n.getChild key = .ok m → ∃ m', n'.getChild key = .ok m' ∧
      m'.ty = m.ty ∧ m'.value = f m.value ∧ m'.keys.Perm m.keys) ∧
    ∀ e, n.getChild key = .error e → n'.getChild key = .error e

theorem sameUnder_smap (f : α → β) {n : Node τ α} (h : n.WF) : SameUnder f n (n.smap f) := by
  refine ⟨⟨n.smap_ty f, n.smap_value f, n.smap_keys f⟩, fun key => ⟨fun m hm => ?_, fun e he => ?_⟩⟩
  · have hm' := Node.At_of_find (Node.getChild_ok_iff.mp hm)
    refine ⟨m.smap f, ?_, m.smap_ty f, m.smap_value f, m.smap_keys f⟩
    exact Node.getChild_ok_iff.mpr
      ((Node.find_iff_At (Node.smap_WF f h)).mpr ((Node.smap_At f).mpr ⟨m, hm', rfl⟩))
  · obtain ⟨h1, rfl⟩ := Node.getChild_error_iff.mp he
    refine Node.getChild_error_iff.mpr ⟨?_, rfl⟩
    cases hf : (n.smap f).find (splitAll key) with
    | none => rfl
    | some m' =>
      obtain ⟨m, hm, _⟩ := (Node.smap_At f).mp (Node.At_of_find hf)
      rw [(Node.find_iff_At h).mpr hm] at h1
      cases h1

/-- C73: `tree_unflatten(*tree_flatten(n))` succeeds and is `n` for all purposes of key access. -/
theorem C73_round_trip (n : Node τ α) (h : n.WF) :
    ∃ n', n.treedef.jaxUnflatten n.jaxLeaves = .ok n' ∧ SameUnder id n n' := by
  have := Node.jaxMap_eq (τ := τ) (id : α → α) n
  rw [Node.jaxMap, List.map_id] at this
  exact ⟨_, this, sameUnder_smap id h⟩

/-- C73: `tree_map(f, n)` applies `f` to the value of every node and changes nothing else. -/
theorem C73_map (f : α → β) (n : Node τ α) (h : n.WF) :
    ∃ n', n.jaxMap f = .ok n' ∧ n'.WF ∧ SameUnder f n n' :=
  ⟨_, Node.jaxMap_eq f n, Node.smap_WF f h, sameUnder_smap f h⟩

/-- C73: mapping twice is mapping once, and a mapped tree flattens to the mapped leaves. -/
theorem C73_map_map (f : α → β) (g : β → γ) (n : Node τ α) :
    ∃ n₁ n₂, n.jaxMap f = .ok n₁ ∧ n₁.jaxMap g = .ok n₂ ∧ n.jaxMap (g ∘ f) = .ok n₂ ∧
      n₁.jaxLeaves = n.jaxLeaves.map f :=
  ⟨_, _, Node.jaxMap_eq f n, Node.jaxMap_eq g _, by rw [Node.jaxMap_eq, Node.smap_smap],
    Node.jaxLeaves_smap f n⟩

/-- C73: the leaves are the values of all nodes, each exactly once (in another order than
`iter_flat` if keys are not in alphabetical order). -/
theorem C73_leaves (n : Node τ α) (key : Str) :
    n.jaxLeaves.Perm ((n.iterFlat key).map (·.2.value)) := n.jaxLeaves_perm key

/-- C73: `tree_unflatten` takes exactly as many leaves as `tree_flatten` gave, and raises
`ValueError` for any other number. -/
theorem C73_leaf_count (n : Node τ α) (vs : List β) :
    (vs.length = n.jaxLeaves.length → ∃ n', n.treedef.jaxUnflatten vs = .ok n' ∧
      n'.jaxLeaves = vs) ∧
    (vs.length ≠ n.jaxLeaves.length → n.treedef.jaxUnflatten vs = .error .valueError) := by
  have hcount : (n.treedef.iterFlat []).length = n.jaxLeaves.length := by
    have h := Node.jaxBuild_eq (fun _ => ()) n []
    rw [List.append_nil] at h
    have := (Node.jaxBuild_count n.treedef (n.jaxLeaves.map fun _ => ())).1 _ h
    simpa using this.symm
  obtain ⟨h1, h2, h3⟩ := Node.jaxBuild_count n.treedef vs
  rw [hcount] at h1 h2
  constructor
  · intro hl
    obtain ⟨⟨n', rest⟩, hb⟩ := h2 hl.ge
    have := h1 _ hb
    have hr : rest = [] := List.eq_nil_of_length_eq_zero (by simp only at this; omega)
    subst hr
    refine ⟨n', by simp [Node.jaxUnflatten, hb, bind, Except.bind], ?_⟩
    -- label every node with its position: the mapped tree is the built one
    have key : ∀ (n : Node τ α) (vs rest : List β) (n' : Node τ β),
        n.treedef.jaxBuild vs = .ok (n', rest) → n'.jaxLeaves ++ rest = vs ∧
          (n'.keys.Pairwise fun a b => strLe a b = true) := by
      intro n
      induction n using Node.induct with
      | h t v cs ih =>
        have hL : ∀ ds : List (Str × Node τ α), (∀ kc ∈ ds, kc ∈ cs) → ∀ (vs rest : List β) ns,
            Node.jaxBuildL (ds.map fun kc => (kc.1, kc.2.treedef)) vs = .ok (ns, rest) →
            (ns.flatMap fun kc => kc.2.jaxLeaves) ++ rest = vs ∧
              ns.map (·.1) = ds.map (·.1) := by
          intro ds
          induction ds with
          | nil =>
            intro _ vs rest ns h
            simp only [List.map_nil, Node.jaxBuildL, Except.ok.injEq, Prod.mk.injEq] at h
            obtain ⟨rfl, rfl⟩ := h
            simp
          | cons y ys ihy =>
            intro hy vs rest ns h
            simp only [List.map_cons, Node.jaxBuildL, py_bind_ok] at h
            obtain ⟨⟨c, r1⟩, hc, ⟨cs', r2⟩, hcs, e⟩ := h
            cases e
            obtain ⟨e1, e2⟩ := ihy (fun kc h => hy kc (by simp [h])) _ _ _ hcs
            obtain ⟨e3, _⟩ := ih y.1 y.2 (hy _ (by simp)) _ _ _ hc
            simp only [List.flatMap_cons, List.append_assoc, e1, e3, List.map_cons, e2, true_and]
        intro vs rest n' h
        rw [Node.treedef_mk] at h
        cases vs with
        | nil => simp [Node.jaxBuild] at h
        | cons w ws =>
          simp only [Node.jaxBuild, py_bind_ok] at h
          obtain ⟨⟨ns, r⟩, hns, e⟩ := h
          cases e
          obtain ⟨e1, e2⟩ := hL _ (fun kc h => (sortKeys_perm cs).mem_iff.mp h) _ _ _ hns
          have hsorted : (ns.map (·.1)).Pairwise fun a b => strLe a b = true := by
            rw [e2]; exact sortKeys_sorted cs
          refine ⟨?_, hsorted⟩
          rw [Node.jaxLeaves_mk, sortKeys_of_sorted hsorted, List.cons_append, e1]
    simpa using (key n vs [] n' hb).1
  · intro hl
    cases hb : n.treedef.jaxBuild vs with
    | error e => simp [Node.jaxUnflatten, hb, bind, Except.bind, h3 e hb]
    | ok r =>
      have e1 := h1 _ hb
      have hr : r.2 ≠ [] := by
        intro e
        rw [e] at e1
        simp only [List.length_nil] at e1
        omega
      simp [Node.jaxUnflatten, hb, bind, Except.bind, hr]

/-- C73: a tree whose keys are in alphabetical order everywhere comes back identical. -/
theorem C73_sorted (n : Node τ α)
    (h : ∀ p m, n.At p m → m.keys.Pairwise fun a b => strLe a b = true) :
    n.treedef.jaxUnflatten n.jaxLeaves = .ok n := by
  have := Node.jaxMap_eq (τ := τ) (id : α → α) n
  rwa [Node.jaxMap, List.map_id, Node.smap_id_of_sorted h] at this

/-- The keys of points, lines, polygons with up to ten edges (so also quadrilaterals) and axes
without twin axes. -/
inductive CommonKeys : List Str → Prop
  | point : CommonKeys []
  | line : CommonKeys [k!"Point0", k!"Point1"]
  | polygon {n : Nat} (h : n ≤ 10) : CommonKeys ((List.range n).map lineKey)
  | axes (x y : Bool) : CommonKeys (axesKeys x y false false)

/-- C73: points, lines, polygons with up to ten edges and axes without twin axes, in any
combination, come back identical, so positions are kept as well. -/
theorem C73_common (p : Prim α) (h : ∀ path (m : Prim α), p.At path m → CommonKeys m.keys) :
    p.treedef.jaxUnflatten p.jaxLeaves = .ok p := by
  apply C73_sorted
  intro path m hm
  have hk := h path m hm
  generalize m.keys = keys at hk
  cases hk with
  | point => exact .nil
  | line => decide
  | axes x y => cases x <;> cases y <;> decide
  | @polygon n hn =>
    have h10 : ((List.range 10).map lineKey).Pairwise fun a b => strLe a b = true := by
      decide +kernel
    refine h10.sublist ?_
    apply List.Sublist.map
    have : List.range 10 = List.range n ++ (List.range (10 - n)).map (n + ·) := by
      rw [← List.range_add]; congr 1; omega
    rw [this]
    exact List.sublist_append_left _ _

/-- A line from `(0, 0)` to `(1, 2)`. -/
def exSegment : Prim Rat :=
  .mk .line ⟨2, []⟩
    [(k!"Point0", .mk .point ⟨0, [0, 0]⟩ []), (k!"Point1", .mk .point ⟨1, [1, 2]⟩ [])]

example : ∀ path (m : Prim Rat), exSegment.At path m → CommonKeys m.keys := by
  intro path m h
  cases h with
  | here => exact .line
  | down hc hm =>
    simp only [exSegment, Node.children_mk, List.mem_cons, Prod.mk.injEq, List.not_mem_nil,
      or_false] at hc
    rcases hc with ⟨rfl, rfl⟩ | ⟨rfl, rfl⟩ <;> cases hm with
    | here => exact .point
    | down hc _ => simp at hc

/-- An example tree with keys out of order: `b`, `a`. -/
def exUnsorted : Node Unit Nat :=
  .mk () 0 [(k!"b", .mk () 1 [(k!"z", .mk () 2 []), (k!"y", .mk () 3 [])]), (k!"a", .mk () 4 [])]

example : exUnsorted.WF := by
  rw [exUnsorted, Node.WF_mk]
  refine ⟨by decide, ?_⟩
  intro k c hc
  simp only [List.mem_cons, Prod.mk.injEq, List.not_mem_nil, or_false] at hc
  rcases hc with ⟨_, rfl⟩ | ⟨_, rfl⟩
  · rw [Node.WF_mk]
    refine ⟨by decide, ?_⟩
    intro k c hc
    simp only [List.mem_cons, Prod.mk.injEq, List.not_mem_nil, or_false] at hc
    rcases hc with ⟨_, rfl⟩ | ⟨_, rfl⟩ <;> simp [Node.WF_mk]
  · simp [Node.WF_mk]

example : exUnsorted.jaxLeaves = [0, 4, 1, 3, 2] := by decide

/-- C73 in terms of positions is false: after a round trip the third edge (`poly[2]`) of a polygon
with eleven edges is the one called `Line10`; and the second part of an axes with a twin x axis is
not its x axis any more. -/
theorem C73_position_counterexample :
    let poly : Node Unit Nat := .mk () 100 ((List.range 11).map fun i => (lineKey i, .mk () i []))
    let axes : Node Unit Nat :=
      .mk () 100 ((axesKeys true false true false).map fun k => (k, .mk () k.length []))
    (do let n ← poly.treedef.jaxUnflatten poly.jaxLeaves
        .ok (n.keys[2]?, poly.keys[2]?)) = (.ok (some k!"Line10", some k!"Line2") : Py _) ∧
    (do let n ← axes.treedef.jaxUnflatten axes.jaxLeaves
        .ok (n.keys[1]?, axes.keys[1]?)) = (.ok (some k!"TwinXAxis", some k!"XAxis") : Py _) := by
  decide +kernel

end MplLayout.Props
