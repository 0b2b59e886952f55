import Verif.Lemmas.Primitives
import Mathlib.Data.List.Nodup

/-!
# C14–C19: primitives (`primitives.py`)
-/

namespace MplLayout.Props

open Node

variable {τ α β ι K : Type}

section
variable [PyNum K]

/-! ## C14 -/

/-- C14: `Polygon(value, points)` succeeds exactly when the own value is empty and all vertices are
points, and then it is a closed loop through exactly these points; the edges own pairwise different
new arrays. -/
theorem C14_polygon (v : PVal K) (pts : List (Prim K)) (size n : Nat) :
    ((∃ r, newPolygon (some v) (some pts) size n = .ok r) ↔
      v.arr = [] ∧ ∀ p ∈ pts, p.ty.IsA .point) ∧
    ∀ q n', newPolygon (some v) (some pts) size n = .ok (q, n') →
      q.ty = .polygon ∧ q.value = v ∧ ClosedLoop q pts ∧
      (q.children.map (·.2.value.id)) = (List.range pts.length).map (n + ·) ∧
      n' = n + pts.length := by
  constructor
  · constructor
    · rintro ⟨⟨q, n'⟩, h⟩
      obtain ⟨h1, h2, _, _⟩ := newPolygon_some_ok.1 h
      exact ⟨h1, h2⟩
    · rintro ⟨h1, h2⟩
      exact ⟨(_, _), newPolygon_some_ok.2 ⟨h1, h2, rfl, rfl⟩⟩
  · intro q n' h
    obtain ⟨_, _, rfl, rfl⟩ := newPolygon_some_ok.1 h
    refine ⟨rfl, rfl, loop_children _ _ _ _, ?_, rfl⟩
    apply List.ext_getElem
    · simp [mkLoop, children, loopLines_length]
    · intro i h1 h2
      simp only [List.length_map, List.length_range] at h2
      simp [mkLoop, children, loopLines_getElem pts n i h2, mkLine, value]

/-- C14: the same for `Quadrilateral(value, points)`, which takes exactly four points. -/
theorem C14_quadrilateral (v : PVal K) (pts : List (Prim K)) (n : Nat) :
    ((∃ r, newQuadrilateral (some v) (some pts) n = .ok r) ↔
      v.arr = [] ∧ pts.length = 4 ∧ ∀ p ∈ pts, p.ty.IsA .point) ∧
    ∀ q n', newQuadrilateral (some v) (some pts) n = .ok (q, n') →
      q.ty = .quadrilateral ∧ q.value = v ∧ ClosedLoop q pts := by
  constructor
  · constructor
    · rintro ⟨⟨q, n'⟩, h⟩
      obtain ⟨h1, h2, h3, _, _⟩ := newQuadrilateral_some_ok.1 h
      exact ⟨h1, h2, h3⟩
    · rintro ⟨h1, h2, h3⟩
      exact ⟨(_, _), newQuadrilateral_some_ok.2 ⟨h1, h2, h3, rfl, rfl⟩⟩
  · intro q n' h
    obtain ⟨_, _, _, rfl, rfl⟩ := newQuadrilateral_some_ok.1 h
    exact ⟨rfl, rfl, loop_children _ _ _ _⟩

/-- C14: the default quadrilateral is the unit square, counter-clockwise from the origin. -/
theorem C14_default_quadrilateral (n : Nat) : ∃ q n' p0 p1 p2 p3,
    newQuadrilateral (K := K) none none n = .ok (q, n') ∧
    ClosedLoop q [p0, p1, p2, p3] ∧ p0.value.arr = [0, 0] ∧ p1.value.arr = [1, 0] ∧
    p2.value.arr = [1, 1] ∧ p3.value.arr = [0, 1] :=
  ⟨_, _, _, _, _, _, newQuadrilateral_none_ok n, loop_children _ _ _ _, rfl, rfl, rfl, rfl⟩

/-- C14: `Point()` is the origin; `Point(value)` takes exactly two coordinates and has no parts. -/
theorem C14_point (v : PVal K) (n : Nat) :
    (newPoint (K := K) none n = .ok (.mk .point ⟨n, [0, 0]⟩ [], n + 1)) ∧
    (∀ q n', newPoint (some v) n = .ok (q, n') ↔ v.arr.length = 2 ∧ q = .mk .point v [] ∧ n' = n) := by
  refine ⟨?_, fun q n' => newPoint_ok⟩
  simp only [newPoint, bind_ok, orDefault_none, liftPy_ok]
  exact ⟨_, _, ⟨rfl, rfl⟩, (primInit_ok List.nodup_nil).2 ⟨rfl, rfl, rfl⟩, rfl⟩

/-- C14: `Line()` goes from the origin to `(0, 1)`; its two ends are different arrays. -/
theorem C14_default_line (n : Nat) : ∃ q n' p0 p1,
    newLine (K := K) none none n = .ok (q, n') ∧ q.ty = .line ∧ q.value.arr = [] ∧
    q.children = [(k!"Point0", p0), (k!"Point1", p1)] ∧
    p0.ty = .point ∧ p1.ty = .point ∧ p0.value.arr = [0, 0] ∧ p1.value.arr = [0, 1] ∧
    p0.value.id ≠ p1.value.id := by
  refine ⟨mkLine ⟨n, []⟩ (mkPoint (n + 1) 0 0) (mkPoint (n + 2) 0 1), n + 3, mkPoint (n + 1) 0 0,
    mkPoint (n + 2) 0 1, ?_, rfl, rfl, rfl, rfl, rfl, rfl, rfl, ?_⟩
  · simp only [newLine, bind_ok, orDefault_none, newArray_ok, newPoint_ok, pure_ok, liftPy_ok]
    refine ⟨_, _, ⟨rfl, rfl⟩, _, _, ⟨rfl, rfl⟩, _, _, ⟨rfl, rfl, rfl⟩, _, _, ⟨rfl, rfl⟩, _, _,
      ⟨rfl, rfl, rfl⟩, _, _, ⟨rfl, rfl⟩, ?_, rfl⟩
    exact (primInit_ok (by decide)).2 ⟨rfl, ⟨_, _, rfl, .refl _, .refl _⟩, rfl⟩
  · simp [mkPoint, value]

/-- C14: `Polygon(size=n)` is a closed loop through the `n` points at the angles `2π/n · i` on the unit
circle; `size = 0` raises `ZeroDivisionError`. -/
theorem C14_default_polygon (size n : Nat) :
    (size = 0 → newPolygon (K := K) none none size n = .error .zeroDivision) ∧
    (size ≠ 0 → ∃ q n' pts, newPolygon (K := K) none none size n = .ok (q, n') ∧ q.ty = .polygon ∧
      ClosedLoop q pts ∧ pts.length = size ∧ (∀ p ∈ pts, p.ty = .point) ∧
      ∀ (i : Nat) (hi : i < pts.length), pts[i].value.arr =
        [PyNum.cos (((2 : Nat) : K) * PyNum.pi / ((size : Nat) : K) * ((i : Nat) : K)),
         PyNum.sin (((2 : Nat) : K) * PyNum.pi / ((size : Nat) : K) * ((i : Nat) : K))]) := by
  constructor
  · rintro rfl
    rfl
  · intro hs
    set l : List (K × K) := (List.range size).map fun (i : Nat) =>
      let a : K := ((2 : Nat) : K) * PyNum.pi / ((size : Nat) : K) * ((i : Nat) : K)
      (PyNum.cos a, PyNum.sin a) with hldef
    have hlen : l.length = size := by simp [l]
    set pts : List (Prim K) := (l.zipIdx (n + 1)).map (fun p => mkPoint p.2 p.1.1 p.1.2) with hpts
    have hplen : pts.length = size := by simp [pts, hlen]
    have hp : ∀ p ∈ pts, p.ty = .point := by
      intro p hp
      obtain ⟨x, _, rfl⟩ := List.mem_map.1 hp
      rfl
    refine ⟨mkLoop .polygon ⟨n, []⟩ pts (n + 1 + l.length), n + 1 + l.length + pts.length, pts, ?_, rfl, loop_children _ _ _ _,
      hplen, hp, ?_⟩
    · simp only [newPolygon, bind_ok, orDefault_none, polygonDefault, if_neg hs, newPoints_ok,
        polygonChildren_ok, liftPy_ok]
      refine ⟨_, _, ⟨rfl, rfl⟩, _, _, ⟨rfl, rfl⟩, _, _, ⟨?_, rfl, rfl⟩, ?_, rfl⟩
      · intro p hp'
        rw [hp p hp']; exact .refl _
      · refine (loop_init_ok _ _).2 ⟨rfl, ?_, rfl⟩
        intro t ht
        rw [List.eq_of_mem_replicate ht]; exact .refl _
    · intro i hi
      simp [pts, l, mkPoint, value]

/-- Three points used in the examples. -/
def exPoints : List (Prim K) := [mkPoint 1 0 0, mkPoint 2 1 0, mkPoint 3 0 1]

example : ∀ p ∈ (exPoints : List (Prim K)), p.ty.IsA .point := by
  intro p hp
  simp only [exPoints, List.mem_cons, List.not_mem_nil, or_false] at hp
  rcases hp with rfl | rfl | rfl <;> exact .refl _

end

/-! ## C15 -/

/-- C15: `issubclass` among the shipped classes, as the whole table. -/
theorem C15_classes (t u : PrimType) : t.sub u = true ↔ u = t ∨ u = .primitiveNode ∨
    (u = .primitive ∧ t ≠ .primitiveNode) ∨ (u = .staticPrimitive ∧ (t = .point ∨ t = .line)) ∨
    (u = .polygon ∧ t = .quadrilateral) := by
  cases t <;> cases u <;> decide

/-- C15: for any class hierarchy with sensible signatures, constructing a primitive succeeds exactly
when the parameter vector has the declared size and the children match the declared types (or one of
the declared alternatives); the primitive then has exactly this value and these children, and
otherwise an `AssertionError` or `ValueError` is raised. -/
theorem C15_signature (C : ClassTable τ) (t : τ) (v : PVal K)
    (cs : List (Str × Node τ (PVal K)))
    (hw : match C.sig t with
      | .tuple types => SigWellFormed types
      | .anyOf alts => ∀ a ∈ alts, SigWellFormed a) :
    let fits : Prop := match C.sig t with
      | .tuple types => SigMatches C (cs.map (·.2.ty)) types
      | .anyOf alts => ∃ a ∈ alts, SigMatches C (cs.map (·.2.ty)) a
    (v.arr.length = C.size t ∧ fits → primNodeInit C t v cs = .ok (.mk t v cs)) ∧
    (v.arr.length = C.size t ∧ ¬ fits → primNodeInit C t v cs = .error .valueError) ∧
    (v.arr.length ≠ C.size t → primNodeInit C t v cs = .error .assertionError) := by
  intro fits
  refine ⟨?_, ?_, ?_⟩
  · rintro ⟨hl, hf⟩
    unfold primNodeInit
    rw [if_neg (fun h => h hl)]
    revert hw hf
    simp only [fits]
    cases C.sig t with
    | tuple types =>
      intro hw hf
      simp only at hw hf ⊢
      rcases validatePrims_spec C (cs.map (·.2.ty)) types hw with ⟨_, h2⟩ | ⟨h1, _⟩
      · simp [h2, Bind.bind, Except.bind]
      · exact absurd hf h1
    | anyOf alts =>
      intro hw hf
      simp only at hw hf ⊢
      rcases anyMatch_spec C (cs.map (·.2.ty)) alts hw with ⟨_, h2⟩ | ⟨h1, _⟩
      · simp [h2, Bind.bind, Except.bind]
      · exact absurd hf h1
  · rintro ⟨hl, hf⟩
    unfold primNodeInit
    rw [if_neg (fun h => h hl)]
    revert hw hf
    simp only [fits]
    cases C.sig t with
    | tuple types =>
      intro hw hf
      simp only at hw hf ⊢
      rcases validatePrims_spec C (cs.map (·.2.ty)) types hw with ⟨h1, _⟩ | ⟨_, h2⟩
      · exact absurd h1 hf
      · simp [h2, Bind.bind, Except.bind]
    | anyOf alts =>
      intro hw hf
      simp only at hw hf ⊢
      rcases anyMatch_spec C (cs.map (·.2.ty)) alts hw with ⟨h1, _⟩ | ⟨_, h2⟩
      · exact absurd h1 hf
      · simp [h2, Bind.bind, Except.bind]
  · intro hl
    unfold primNodeInit
    rw [if_pos hl]

/-- C15 for the shipped classes, with the accepted children spelled out class by class
(`PrimType.Accepts`). -/
theorem C15_shipped (t : PrimType) (v : PVal K) (cs : List (Str × Prim K)) :
    (∀ q, primNodeInit PrimType.table t v cs = .ok q ↔
      v.arr.length = t.size ∧ t.Accepts (cs.map (·.2.ty)) ∧ q = .mk t v cs) ∧
    ((∃ q, primNodeInit PrimType.table t v cs = .ok q) ∨
      primNodeInit PrimType.table t v cs = .error .valueError ∨
      primNodeInit PrimType.table t v cs = .error .assertionError) := by
  refine ⟨fun q => primNodeInit_ok_iff, ?_⟩
  rcases primNodeInit_cases t v cs with ⟨_, _, h⟩ | ⟨_, _, h⟩ | ⟨_, h⟩
  · exact .inl ⟨_, h⟩
  · exact .inr (.inl h)
  · exact .inr (.inr h)

/-- The signatures of the shipped classes are sensible in the sense of `C15_signature`. -/
example (t : PrimType) : match PrimType.table.sig t with
    | .tuple types => SigWellFormed types
    | .anyOf alts => ∀ a ∈ alts, SigWellFormed a := sig_wellFormed t

section
variable [PyNum K]

/-- C15, `Line`: of the given primitives only the first two become children, and the line is built
exactly when these two are points; a third primitive is dropped silently. -/
theorem C15_line_drops_extra (v : PVal K) (hv : v.arr = []) (a b : Prim K) (rest : List (Prim K))
    (ha : a.ty.IsA .point) (hb : b.ty.IsA .point) (n : Nat) :
    newLine (some v) (some (a :: b :: rest)) n = newLine (some v) (some [a, b]) n ∧
    ∃ q, newLine (some v) (some (a :: b :: rest)) n = .ok (q, n) := by
  have h : newLine (some v) (some (a :: b :: rest)) n = newLine (some v) (some [a, b]) n := rfl
  refine ⟨h, ?_⟩
  rw [h]
  exact ⟨_, newLine_pair_ok.2 ⟨hv, ha, hb, rfl, rfl⟩⟩

/-! ## C16 -/

/-- C16: `Axes(xaxis, yaxis, twinx, twiny)` without supplied primitives succeeds and has exactly the
requested parts, in the documented classes. -/
theorem C16_default_parts (x y tx ty : Bool) (n : Nat) : ∃ q n',
    newAxes (K := K) none none x y tx ty n = .ok (q, n') ∧ q.ty = .axes ∧
    (∀ key, key ∈ q.keys ↔ key = k!"Frame" ∨ (x ∧ (key = k!"XAxis" ∨ key = k!"XAxisLabel")) ∨
      (y ∧ (key = k!"YAxis" ∨ key = k!"YAxisLabel")) ∨
      (x ∧ tx ∧ (key = k!"TwinXAxis" ∨ key = k!"TwinXAxisLabel")) ∨
      (y ∧ ty ∧ (key = k!"TwinYAxis" ∨ key = k!"TwinYAxisLabel"))) ∧
    (∀ key c, (key, c) ∈ q.children → c.ty =
      if key ∈ [k!"XAxisLabel", k!"YAxisLabel", k!"TwinXAxisLabel", k!"TwinYAxisLabel"]
      then .point else .quadrilateral) := by
  obtain ⟨ps, n', h1, h2⟩ := axesDefault_ok (K := K) x y tx ty (n + 1)
  have hlen : ps.length = (axesKeys x y tx ty).length := by
    have := congrArg List.length h2
    rw [List.length_map] at this
    rw [this, axesKeys_length]
    simp; omega
  have hty : ((axesKeys x y tx ty).zip ps).map (·.2.ty) = ps.map (·.ty) := by
    rw [show (fun p : Str × Prim K => p.2.ty) = (fun p : Prim K => p.ty) ∘ Prod.snd from rfl,
      ← List.map_map, List.map_snd_zip (by omega)]
  refine ⟨.mk .axes ⟨n, []⟩ ((axesKeys x y tx ty).zip ps), n', ?_, rfl, ?_, ?_⟩
  · simp only [newAxes, bind_ok, orDefault_none, liftPy_ok]
    refine ⟨_, _, ⟨rfl, rfl⟩, _, _, h1, ?_, rfl⟩
    refine (primInit_ok (axesKeys_nodup _ _ _ _)).2 ⟨rfl, ?_, rfl⟩
    rw [hty, h2]
    refine ⟨_, ?_, IsA_refl_all _⟩
    cases x <;> cases y <;> cases tx <;> cases ty <;> decide
  · intro key
    simp only [keys, children]
    rw [List.map_fst_zip (by omega)]
    cases x <;> cases y <;> cases tx <;> cases ty <;> simp [axesKeys, or_assoc]
  · intro key c hc
    simp only [children] at hc
    have hpair : (key, c.ty) ∈ (axesKeys x y tx ty).zip (ps.map (·.ty)) := by
      rw [List.zip_map_right]
      exact List.mem_map.2 ⟨(key, c), hc, rfl⟩
    rw [h2] at hpair
    have table : ∀ kt ∈ (axesKeys x y tx ty).zip (PrimType.quadrilateral ::
        (List.replicate (((if x then 1 else 0) + if y then 1 else 0) +
        ((if x && tx then 1 else 0) + if y && ty then 1 else 0))
        [PrimType.quadrilateral, .point]).flatten), kt.2 =
        if kt.1 ∈ [k!"XAxisLabel", k!"YAxisLabel", k!"TwinXAxisLabel", k!"TwinYAxisLabel"]
        then .point else .quadrilateral := by
      clear h1 h2 hlen hty hc hpair
      cases x <;> cases y <;> cases tx <;> cases ty <;> decide
    exact table _ hpair

/-- C16, supplied primitives: the code pairs the requested part names with the supplied primitives in
order.  With as many primitives as parts all of them are used; the result is built exactly when the
paired primitives alternate as `Quadrilateral, (Quadrilateral, Point)*`.  Missing: when the numbers
differ the surplus names or primitives are dropped instead of rejected
(`C16_surplus_dropped`, `C16_missing_accepted`). -/
theorem C16_supplied_partial (v : PVal K) (ps : List (Prim K)) (x y tx ty : Bool) (n : Nat) :
    (∀ q n', newAxes (some v) (some ps) x y tx ty n = .ok (q, n') →
      q.children = (axesKeys x y tx ty).zip ps ∧
      (ps.length = (axesKeys x y tx ty).length → q.values = ps ∧ q.keys = axesKeys x y tx ty)) ∧
    (ps.length = (axesKeys x y tx ty).length → v.arr = [] →
      ((∃ r, newAxes (some v) (some ps) x y tx ty n = .ok r) ↔
        PrimType.Accepts .axes (ps.map (·.ty)))) := by
  have key : ∀ q n', newAxes (some v) (some ps) x y tx ty n = .ok (q, n') ↔
      v.arr.length = PrimType.size .axes ∧
      PrimType.Accepts .axes (((axesKeys x y tx ty).zip ps).map (·.2.ty)) ∧
      q = .mk .axes v ((axesKeys x y tx ty).zip ps) ∧ n' = n := by
    intro q n'
    simp only [newAxes, bind_ok, orDefault_some, pure_ok, liftPy_ok,
      primInit_ok (axesKeys_nodup x y tx ty)]
    constructor
    · rintro ⟨_, _, ⟨rfl, rfl⟩, _, _, ⟨rfl, rfl⟩, ⟨h1, h2, rfl⟩, rfl⟩; exact ⟨h1, h2, rfl, rfl⟩
    · rintro ⟨h1, h2, rfl, rfl⟩
      exact ⟨_, _, ⟨rfl, rfl⟩, _, _, ⟨rfl, rfl⟩, ⟨h1, h2, rfl⟩, rfl⟩
  have hty : ps.length = (axesKeys x y tx ty).length →
      ((axesKeys x y tx ty).zip ps).map (·.2.ty) = ps.map (·.ty) := by
    intro h
    rw [show (fun p : Str × Prim K => p.2.ty) = (fun p : Prim K => p.ty) ∘ Prod.snd from rfl,
      ← List.map_map, List.map_snd_zip (by omega)]
  constructor
  · intro q n' h
    obtain ⟨_, _, rfl, _⟩ := (key q n').1 h
    refine ⟨rfl, fun hl => ⟨?_, ?_⟩⟩
    · simp only [values, children]; exact List.map_snd_zip (by omega)
    · simp only [keys, children]; exact List.map_fst_zip (by omega)
  · intro hl hv
    constructor
    · rintro ⟨⟨q, n'⟩, h⟩
      obtain ⟨_, h2, _, _⟩ := (key q n').1 h
      rw [hty hl] at h2; exact h2
    · intro h
      refine ⟨(_, n), (key _ n).2 ⟨by simp [hv, PrimType.size], ?_, rfl, rfl⟩⟩
      rw [hty hl]; exact h

/-- C16 is violated: two supplied primitives without a requested axis are silently dropped. -/
theorem C16_surplus_dropped (n : Nat) : ∃ q,
    newAxes (K := K) (some ⟨n, []⟩) (some [unitQuad (n + 1), unitQuad (n + 20), mkPoint (n + 40) 0 0])
      false false false false (n + 50) = .ok (q, n + 50) ∧ q.keys = [k!"Frame"] := by
  refine ⟨.mk .axes ⟨n, []⟩ [(k!"Frame", unitQuad (n + 1))], ?_, rfl⟩
  simp only [newAxes, bind_ok, orDefault_some, pure_ok, liftPy_ok, primInit_ok (axesKeys_nodup _ _ _ _)]
  exact ⟨_, _, ⟨rfl, rfl⟩, _, _, ⟨rfl, rfl⟩, ⟨rfl, ⟨0, by omega, .cons (.refl _) .nil⟩, rfl⟩, rfl⟩

/-- C16 is violated: an `XAxis` is requested but only the frame is supplied; the axes is accepted
without it. -/
theorem C16_missing_accepted (n : Nat) : ∃ q,
    newAxes (K := K) (some ⟨n, []⟩) (some [unitQuad (n + 1)]) true false false false (n + 50)
      = .ok (q, n + 50) ∧ k!"XAxis" ∉ q.keys := by
  refine ⟨.mk .axes ⟨n, []⟩ [(k!"Frame", unitQuad (n + 1))], ?_, by simp [keys, children]⟩
  simp only [newAxes, bind_ok, orDefault_some, pure_ok, liftPy_ok, primInit_ok (axesKeys_nodup _ _ _ _)]
  exact ⟨_, _, ⟨rfl, rfl⟩, _, _, ⟨rfl, rfl⟩, ⟨rfl, ⟨0, by omega, .cons (.refl _) .nil⟩, rfl⟩, rfl⟩

end

/-! ## C17 -/

/-- C17: every node is mapped to the index of its own value; exactly the nodes of the tree are
mapped; two nodes get the same index exactly when they hold the same object; every extracted value
is used and no object is extracted twice. -/
theorem C17_unique_values [DecidableEq ι] (ident : α → ι) (n : Node τ α) (hn : n.WF)
    (hs : n.SlashFree) (hid : IdentOK ident n) :
    let idx := (filterUnique ident n).1
    let values := (filterUnique ident n).2
    (∀ p m, n.At p m → ∃ i, dictGet idx (slashed p) = some i ∧ values[i]? = some m.value) ∧
    (∀ key i, dictGet idx key = some i → ∃ p m, n.At p m ∧ key = slashed p) ∧
    (∀ p m q m' i j, n.At p m → n.At q m' → dictGet idx (slashed p) = some i →
      dictGet idx (slashed q) = some j → (i = j ↔ ident m.value = ident m'.value)) ∧
    (∀ i, i < values.length → ∃ p m, n.At p m ∧ dictGet idx (slashed p) = some i) ∧
    (values.map ident).Nodup := by
  have inv := filterUnique_inv ident n hn hs
  have hmem : ∀ p m, n.At p m → (slashed p, m.value) ∈
      (n.iterFlat []).map fun kn => (kn.1, kn.2.value) := by
    intro p m h
    exact List.mem_map.2 ⟨(slashed p, m), (n.iterFlat_mem [] _ m).2 ⟨p, by simp, h⟩, rfl⟩
  have hmem' : ∀ kv ∈ (n.iterFlat []).map (fun kn => (kn.1, kn.2.value)),
      ∃ p m, n.At p m ∧ kv.1 = slashed p ∧ kv.2 = m.value := by
    intro kv h
    obtain ⟨⟨k, m⟩, h1, rfl⟩ := List.mem_map.1 h
    obtain ⟨p, h2, h3⟩ := (n.iterFlat_mem [] k m).1 h1
    exact ⟨p, m, h3, by simpa using h2, rfl⟩
  intro idx values
  have h1 : ∀ p m, n.At p m →
      ∃ i, dictGet idx (slashed p) = some i ∧ values[i]? = some m.value := by
    intro p m h
    obtain ⟨i, v, h1, h2, h3⟩ := inv.idx _ (hmem p m h)
    obtain ⟨kv, hkv, rfl, _⟩ := inv.used i v h2
    obtain ⟨q, m', hq, _, hv⟩ := hmem' kv hkv
    rw [hv] at h3
    have := hid q p m' m hq h h3
    exact ⟨i, h1, by rw [← this, ← hv]; exact h2⟩
  refine ⟨h1, ?_, ?_, ?_, ?_⟩
  · intro key i h
    have : key ∈ idx.map (·.1) := List.mem_map.2 ⟨_, dictGet_eq_some_mem h, rfl⟩
    have hk : idx.map (·.1) = _ := inv.keys
    rw [hk] at this
    obtain ⟨kv, hkv, rfl⟩ := List.mem_map.1 this
    obtain ⟨p, m, hp, hk, _⟩ := hmem' kv hkv
    exact ⟨p, m, hp, hk⟩
  · intro p m q m' i j hp hq hi hj
    obtain ⟨i', hi', hv⟩ := h1 p m hp
    obtain ⟨j', hj', hw⟩ := h1 q m' hq
    rw [hi] at hi'; rw [hj] at hj'
    obtain rfl := Option.some.inj hi'
    obtain rfl := Option.some.inj hj'
    constructor
    · rintro rfl
      rw [hv] at hw
      rw [Option.some.inj hw]
    · intro he
      have e1 := (inv.ids (ident m.value) i).2 (by
        show Option.map ident values[i]? = _
        rw [hv]; rfl)
      have e2 := (inv.ids (ident m.value) j).2 (by
        show Option.map ident values[j]? = _
        rw [hw, he]; rfl)
      rw [e1] at e2
      exact Option.some.inj e2
  · intro i hi
    obtain ⟨kv, hkv, _, h2⟩ := inv.used i values[i] (by simp [values, filterUnique] at hi ⊢)
    obtain ⟨p, m, hp, hk, _⟩ := hmem' kv hkv
    exact ⟨p, m, hp, by rw [← hk]; exact h2⟩
  · rw [List.nodup_iff_injective_get]
    intro a b hab
    obtain ⟨a, ha⟩ := a
    obtain ⟨b, hb⟩ := b
    simp only [List.get_eq_getElem, List.getElem_map] at hab
    simp only [List.length_map] at ha hb
    have e1 := (inv.ids (ident values[a]) a).2 (by
      show Option.map ident values[a]? = _
      rw [List.getElem?_eq_getElem ha]; rfl)
    have e2 := (inv.ids (ident values[a]) b).2 (by
      show Option.map ident values[b]? = _
      rw [List.getElem?_eq_getElem hb, hab]; rfl)
    rw [e1] at e2
    simpa using e2

/-! ## C18 -/

/-- C18: extracting the unique values and rebuilding from them gives the same primitive. -/
theorem C18_extract_rebuild [DecidableEq ι] (ident : α → ι) (n : Node τ α) (hn : n.WF)
    (hs : n.SlashFree) (hid : IdentOK ident n) :
    buildPrim (flatten [] n) (filterUnique ident n).1 (filterUnique ident n).2 = .ok n := by
  obtain ⟨h1, _⟩ := C17_unique_values ident n hn hs hid
  classical
  let g : Str → α := fun k => match lookupValue (filterUnique ident n).1 (filterUnique ident n).2 k with
    | .ok v => v
    | .error _ => n.value
  have hl : ∀ p m, n.At p m → lookupValue (filterUnique ident n).1 (filterUnique ident n).2
      (slashed p) = .ok m.value := by
    intro p m h
    obtain ⟨i, h2, h3⟩ := h1 p m h
    simp [lookupValue, h2, h3]
  have hg : ∀ p m, n.At p m → g (slashed p) = m.value := by
    intro p m h; simp only [g, hl p m h]
  rw [buildPrim_eq n hn _ _ g (fun p m h => by rw [hl p m h, hg p m h])]
  rw [revalue_self g [] n (fun p m h => by simpa using hg p m h)]

/-! ## C19 -/

/-- C19: rebuilding with any list of at least as many new values gives a tree with the same paths,
classes and child keys, in which every node has the new value with the index of its old value.  With
too few new values an `IndexError` is raised. -/
theorem C19_rebuild [DecidableEq ι] (ident : α → ι) (n : Node τ α) (hn : n.WF)
    (hs : n.SlashFree) (hid : IdentOK ident n) (new : List β) :
    let idx := (filterUnique ident n).1
    ((filterUnique ident n).2.length ≤ new.length → ∃ r,
      buildPrim (flatten [] n) idx new = .ok r ∧ r.WF ∧
      (∀ p m', r.At p m' → ∃ m, n.At p m) ∧
      (∀ p m, n.At p m → ∃ m' i, r.At p m' ∧ m'.ty = m.ty ∧ m'.keys = m.keys ∧
        dictGet idx (slashed p) = some i ∧ new[i]? = some m'.value)) ∧
    (new.length < (filterUnique ident n).2.length →
      buildPrim (flatten [] n) idx new = .error .indexError) := by
  obtain ⟨h1, _, _, h4, _⟩ := C17_unique_values ident n hn hs hid
  intro idx
  constructor
  · intro hlen
    have hl : ∀ p m, n.At p m → ∃ i v, dictGet idx (slashed p) = some i ∧ new[i]? = some v ∧
        lookupValue idx new (slashed p) = .ok v := by
      intro p m h
      obtain ⟨i, h2, h3⟩ := h1 p m h
      have hi : i < (filterUnique ident n).2.length := by
        by_contra hc
        rw [List.getElem?_eq_none (by omega)] at h3; simp at h3
      have hi' : i < new.length := by omega
      exact ⟨i, new[i], h2, List.getElem?_eq_getElem hi', by
        simp [lookupValue, idx, h2, List.getElem?_eq_getElem hi']⟩
    obtain ⟨_, v0, _, _, _⟩ := hl [] n (.here n)
    let g : Str → β := fun k => match lookupValue idx new k with
      | .ok v => v
      | .error _ => v0
    have hg : ∀ p m, n.At p m → lookupValue idx new (slashed p) = .ok (g (slashed p)) := by
      intro p m h
      obtain ⟨_, v, _, _, h3⟩ := hl p m h
      simp only [g, h3]
    refine ⟨_, buildPrim_eq n hn _ _ g hg, revalue_WF _ _ _ hn, ?_, ?_⟩
    · intro p m' h
      obtain ⟨m, h1, _⟩ := (revalue_At g).1 h
      exact ⟨m, h1⟩
    · intro p m h
      obtain ⟨i, v, h2, h3, h5⟩ := hl p m h
      refine ⟨_, i, (revalue_At g).2 ⟨m, h, rfl⟩, revalue_ty _ _ _, revalue_keys _ _ _, h2, ?_⟩
      rw [revalue_value, List.nil_append, h3]
      have := hg p m h
      rw [h5] at this
      rw [Except.ok.inj this]
  · intro hlen
    unfold buildPrim
    rw [newStructs_indexError]
    · rfl
    · intro s h
      obtain ⟨p, m, hp, hk⟩ := mem_flatten_key h
      obtain ⟨i, h2, _⟩ := h1 p m hp
      rw [hk]
      unfold lookupValue
      simp only [idx, h2]
      cases new[i]? with
      | none => right; rfl
      | some v => left; exact ⟨v, rfl⟩
    · obtain ⟨p, m, hp, hi⟩ := h4 new.length hlen
      have : ⟨slashed p, m.ty, m.value, m.keys⟩ ∈ flatten [] n := by
        simp only [flatten, List.mem_map]
        exact ⟨(slashed p, m), (n.iterFlat_mem [] _ m).2 ⟨p, by simp, hp⟩, rfl⟩
      refine ⟨_, this, ?_⟩
      unfold lookupValue
      simp only [idx, hi]
      simp

/-- C19: in the rebuilt tree, nodes that shared a value still share one, and, when the new values are
pairwise different, no others do. -/
theorem C19_sharing [DecidableEq ι] (ident : α → ι) (n : Node τ α) (hn : n.WF)
    (hs : n.SlashFree) (hid : IdentOK ident n) (new : List β) (r : Node τ β)
    (hr : buildPrim (flatten [] n) (filterUnique ident n).1 new = .ok r)
    (p q : List Str) (a b : Node τ α) (a' b' : Node τ β) (ha : n.At p a) (hb : n.At q b)
    (ha' : r.At p a') (hb' : r.At q b') :
    (ident a.value = ident b.value → a'.value = b'.value) ∧
    (new.Nodup → a'.value = b'.value → ident a.value = ident b.value) := by
  obtain ⟨_, _, h3, _, _⟩ := C17_unique_values ident n hn hs hid
  obtain ⟨hok, herr⟩ := C19_rebuild ident n hn hs hid new
  by_cases hlen : (filterUnique ident n).2.length ≤ new.length
  · obtain ⟨r', hr', hrWF, _, hfwd⟩ := hok hlen
    rw [hr] at hr'
    obtain rfl := Except.ok.inj hr'
    have hval : ∀ (p : List Str) (a : Node τ α) (a' : Node τ β), n.At p a → r.At p a' →
        ∃ i, dictGet (filterUnique ident n).1 (slashed p) = some i ∧ new[i]? = some a'.value := by
      intro p a a' ha ha'
      obtain ⟨m', i, h1, _, _, h2, h4⟩ := hfwd p a ha
      have : m' = a' := by
        have e1 := find_of_At hrWF h1
        have e2 := find_of_At hrWF ha'
        rw [e1] at e2; exact Option.some.inj e2
      subst this
      exact ⟨i, h2, h4⟩
    obtain ⟨i, hi, hvi⟩ := hval p a a' ha ha'
    obtain ⟨j, hj, hvj⟩ := hval q b b' hb hb'
    have hij := h3 p a q b i j ha hb hi hj
    constructor
    · intro he
      obtain rfl := hij.2 he
      rw [hvi] at hvj; exact Option.some.inj hvj
    · intro hnd he
      apply hij.1
      rw [← he] at hvj
      by_contra hne
      have hi' : i < new.length := by
        by_contra hc
        rw [List.getElem?_eq_none (by omega)] at hvi; simp at hvi
      exact hne ((List.getElem?_inj hi' hnd).1 (hvi.trans hvj.symm))
  · rw [herr (by omega)] at hr
    simp at hr

/-- C19: polygons stay closed.  Whatever the new values are, the end of every edge of a polygon keeps
the same value as the start of the next edge. -/
theorem C19_polygon_stays_closed [DecidableEq ι] (ident : PVal K → ι) (n : Prim K) (hn : n.WF)
    (hs : n.SlashFree) (hid : IdentOK ident n) (new : List β) (r : Node PrimType β)
    (hr : buildPrim (flatten [] n) (filterUnique ident n).1 new = .ok r)
    (p : List Str) (q : Prim K) (pts : List (Prim K)) (hq : n.At p q) (hloop : ClosedLoop q pts)
    (i : Nat) (hi : i < pts.length) : ∃ e s : Node PrimType β,
      r.At (p ++ [lineKey i, k!"Point1"]) e ∧
      r.At (p ++ [lineKey ((i + 1) % pts.length), k!"Point0"]) s ∧ e.value = s.value := by
  have hj : (i + 1) % pts.length < pts.length := Nat.mod_lt _ (by omega)
  obtain ⟨l, hl, _, _, hlc⟩ := hloop.2 i hi
  obtain ⟨l', hl', _, _, hlc'⟩ := hloop.2 _ hj
  have h1 : n.At (p ++ [lineKey i, k!"Point1"]) (pts[(i + 1) % pts.length]'hj) :=
    hq.trans (.down hl (.down (by rw [hlc]; simp) (.here _)))
  have h2 : n.At (p ++ [lineKey ((i + 1) % pts.length), k!"Point0"])
      (pts[(i + 1) % pts.length]'hj) :=
    hq.trans (.down hl' (.down (by rw [hlc']; simp) (.here _)))
  obtain ⟨hok, herr⟩ := C19_rebuild ident n hn hs hid new
  by_cases hlen : (filterUnique ident n).2.length ≤ new.length
  · obtain ⟨r', hr', _, _, hfwd⟩ := hok hlen
    rw [hr] at hr'
    obtain rfl := Except.ok.inj hr'
    obtain ⟨e, _, he, _⟩ := hfwd _ _ h1
    obtain ⟨s, _, hs', _⟩ := hfwd _ _ h2
    exact ⟨e, s, he, hs', (C19_sharing ident n hn hs hid new r hr _ _ _ _ _ _ h1 h2 he hs').1 rfl⟩
  · rw [herr (by omega)] at hr
    simp at hr

/-- A tree with a shared value, used in the examples: a node with two lines `A` and `B`; the end of
`A` and the start of `B` hold the same array (identity 3). -/
def exShared : Prim Nat :=
  .mk .primitiveNode ⟨0, []⟩
    [(k!"A", .mk .line ⟨1, []⟩ [(k!"Point0", .mk .point ⟨2, [5, 5]⟩ []),
      (k!"Point1", .mk .point ⟨3, [6, 7]⟩ [])]),
     (k!"B", .mk .line ⟨4, []⟩ [(k!"Point0", .mk .point ⟨3, [6, 7]⟩ []),
      (k!"Point1", .mk .point ⟨5, [5, 5]⟩ [])])]

theorem exShared_good : exShared.WF ∧ exShared.SlashFree ∧ IdentOK PVal.id exShared := by
  have hg := (goodB_iff exShared).1 (by decide)
  refine ⟨hg.1, hg.2, ?_⟩
  intro p q a b ha hb
  have hall : ∀ x ∈ (exShared.iterFlat []).map (fun kn => kn.2.value),
      ∀ y ∈ (exShared.iterFlat []).map (fun kn => kn.2.value), x.id = y.id → x = y := by decide
  refine hall _ ?_ _ ?_
  · exact List.mem_map.2 ⟨(slashed p, a), (iterFlat_mem _ [] _ _).2 ⟨p, by simp, ha⟩, rfl⟩
  · exact List.mem_map.2 ⟨(slashed q, b), (iterFlat_mem _ [] _ _).2 ⟨q, by simp, hb⟩, rfl⟩

example : filterUnique PVal.id exShared =
    ([(k!"", 0), (k!"/A", 1), (k!"/A/Point0", 2), (k!"/A/Point1", 3), (k!"/B", 4),
      (k!"/B/Point0", 3), (k!"/B/Point1", 5)],
     [⟨0, []⟩, ⟨1, []⟩, ⟨2, [5, 5]⟩, ⟨3, [6, 7]⟩, ⟨4, []⟩, ⟨5, [5, 5]⟩]) := by decide

example : (filterUnique PVal.id exShared).2.length ≤ [10, 11, 12, 13, 14, 15].length := by decide

end MplLayout.Props
