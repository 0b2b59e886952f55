import Verif.Lemmas.EndToEnd

/-! Trees and coordinates for the README program. -/

namespace MplLayout

open Flt Solver

/-! ## Default axes -/

section
variable {K : Type} [PyNum K]

/-- The box and the label anchor of an axis. -/
def axisParts (b : Bool) (n : Nat) : List (Prim K) := if b then [unitQuad n, mkPoint (n + 9) 0 0] else []

def axisNext (b : Bool) (n : Nat) : Nat := if b then n + 10 else n

theorem axisPrims_eq (b : Bool) (n : Nat) :
    axisPrims (K := K) b n = .ok (axisParts b n, axisNext b n) := by
  cases b with
  | false => rfl
  | true =>
    simp only [axisPrims, if_true, bind_ok, newQuadrilateral_none_ok, pure_ok]
    exact ⟨_, _, rfl, _, _, newPoint_none_ok _, rfl, rfl⟩

/-- The identity of the frame of an axes. -/
def frameId (x y tx ty : Bool) (n : Nat) : Nat :=
  axisNext (y && ty) (axisNext y (axisNext (x && tx) (axisNext x (n + 1))))

theorem frameId_gt (x y tx ty : Bool) (n : Nat) : n + 1 ≤ frameId x y tx ty n := by
  cases x <;> cases y <;> cases tx <;> cases ty <;> simp [frameId, axisNext] <;> omega

/-- The children of a default axes made when `n` is the next identity. -/
def axesKids (x y tx ty : Bool) (n : Nat) : List (Prim K) :=
  [unitQuad (frameId x y tx ty n)] ++
    (axisParts x (n + 1) ++ axisParts y (axisNext (x && tx) (axisNext x (n + 1)))) ++
    (axisParts (x && tx) (axisNext x (n + 1)) ++
      axisParts (y && ty) (axisNext y (axisNext (x && tx) (axisNext x (n + 1)))))

/-- A default axes. -/
def axesTree (x y tx ty : Bool) (n : Nat) : Prim K :=
  .mk .axes ⟨n, []⟩ ((axesKeys x y tx ty).zip (axesKids x y tx ty n))

theorem newAxes_eq (x y tx ty : Bool) (n : Nat) :
    newAxes (K := K) none none x y tx ty n
      = .ok (axesTree x y tx ty n, frameId x y tx ty n + 9) := by
  have h : axesDefault (K := K) x y tx ty (n + 1)
      = .ok (axesKids x y tx ty n, frameId x y tx ty n + 9) := by
    simp only [axesDefault, bind_ok, axisPrims_eq, newQuadrilateral_none_ok, pure_ok]
    refine ⟨_, _, rfl, _, _, rfl, _, _, rfl, _, _, rfl, _, _, rfl, rfl, rfl⟩
  simp only [newAxes, bind_ok, orDefault_none, liftPy_ok]
  refine ⟨_, _, ⟨rfl, rfl⟩, _, _, h, ?_, rfl⟩
  rw [primInit_ok (axesKeys_nodup _ _ _ _)]
  refine ⟨rfl, ⟨x.toNat + y.toNat + (x && tx).toNat + (y && ty).toNat, ?_, ?_⟩, rfl⟩
  · cases x <;> cases y <;> cases tx <;> cases ty <;> decide
  · cases x <;> cases y <;> cases tx <;> cases ty <;>
      exact List.forall₂_same.mpr fun t _ => .refl t

/-- What the children of a default axes are. -/
theorem axesTree_parts {x y tx ty : Bool} {n : Nat} {k : Str} {p : Prim K}
    (h : (k, p) ∈ (axesTree x y tx ty n).children) :
    (∃ m, p = unitQuad m ∧ k ∈ [k!"Frame", k!"XAxis", k!"YAxis", k!"TwinXAxis", k!"TwinYAxis"]) ∨
    ∃ m, p = mkPoint m 0 0 ∧
      k ∈ [k!"XAxisLabel", k!"YAxisLabel", k!"TwinXAxisLabel", k!"TwinYAxisLabel"] := by
  have h : (k, p) ∈ (axesKeys x y tx ty).zip (axesKids x y tx ty n) := h
  cases x <;> cases y <;> cases tx <;> cases ty <;>
    simp only [axesKeys, axesKids, axisParts, Bool.and_true, Bool.and_false, if_true, List.append_nil,
      List.nil_append, List.cons_append, List.zip_cons_cons, List.zip_nil_right, List.mem_cons,
      List.not_mem_nil, or_false, Prod.mk.injEq, Bool.false_eq_true, if_false] at h <;>
    aesop

theorem axesTree_keys {x y tx ty : Bool} {n : Nat} :
    (axesTree (K := K) x y tx ty n).keys = axesKeys x y tx ty := by
  cases x <;> cases y <;> cases tx <;> cases ty <;> rfl

theorem axesTree_frame (x y tx ty : Bool) (n : Nat) :
    (k!"Frame", (unitQuad (frameId x y tx ty n) : Prim K)) ∈ (axesTree x y tx ty n).children := by
  show _ ∈ (axesKeys x y tx ty).zip (axesKids x y tx ty n)
  simp [axesKeys, axesKids]

end

theorem unitQuad_eq {K : Type} [PyNum K] (n : Nat) : (unitQuad n : Prim K) = .mk .quadrilateral ⟨n, []⟩
    [(k!"Line0", mkLine ⟨n + 5, []⟩ (mkPoint (n + 1) 0 0) (mkPoint (n + 2) 1 0)),
     (k!"Line1", mkLine ⟨n + 6, []⟩ (mkPoint (n + 2) 1 0) (mkPoint (n + 3) 1 1)),
     (k!"Line2", mkLine ⟨n + 7, []⟩ (mkPoint (n + 3) 1 1) (mkPoint (n + 4) 0 1)),
     (k!"Line3", mkLine ⟨n + 8, []⟩ (mkPoint (n + 4) 0 1) (mkPoint (n + 1) 0 0))] := by
  have h : (List.range 4).map lineKey = [k!"Line0", k!"Line1", k!"Line2", k!"Line3"] := by decide +kernel
  have e : ([mkPoint (n + 1) 0 0, mkPoint (n + 2) 1 0, mkPoint (n + 3) 1 1, mkPoint (n + 4) 0 1] :
    List (Prim K)).length = 4 := rfl
  rw [unitQuad, mkLoop, e, h]
  rfl

theorem unitQuad_WF (n : Nat) : (unitQuad n : Prim Flt).WF := by
  rw [unitQuad_eq]
  exact (Node.goodB_iff _).mp (by rfl) |>.1

theorem axesTree_WF (x y tx ty : Bool) (n : Nat) : (axesTree x y tx ty n : Prim Flt).WF := by
  rw [axesTree, Node.WF_mk]
  refine ⟨?_, ?_⟩
  · have := axesKeys_nodup x y tx ty
    rw [← axesTree_keys (K := Flt) (n := n)] at this
    exact this
  · intro k c hkc
    rcases axesTree_parts (k := k) (p := c) hkc with ⟨m, e, _⟩ | ⟨m, e, _⟩
    · rw [e]; exact unitQuad_WF m
    · rw [e, mkPoint, Node.WF_mk]
      simp

theorem unitQuad_isQuad (n : Nat) : IsQuad (unitQuad n) (0, 0) (1, 0) (1, 1) (0, 1) := by
  have pt : ∀ {n : Nat} {x y : ℝ}, IsPoint (mkPoint n (fin x) (fin y)) (x, y) := ⟨.refl _, rfl⟩
  have ln : ∀ {v : PVal Flt} {a b : Prim Flt} {u w : ℝ × ℝ}, IsPoint a u → IsPoint b w →
      IsLine (mkLine v a b) u w := fun ha hb => ⟨.refl _, _, _, rfl, ha, hb⟩
  rw [unitQuad_eq]
  refine ⟨.refl _, _, _, _, _, rfl, ?_, ?_, ?_, ?_⟩
  · exact ln (v := ⟨n + 5, []⟩) (a := mkPoint (n + 1) (fin 0) (fin 0)) (b := mkPoint (n + 2) (fin 1) (fin 0)) pt pt
  · exact ln (v := ⟨n + 6, []⟩) (a := mkPoint (n + 2) (fin 1) (fin 0)) (b := mkPoint (n + 3) (fin 1) (fin 1)) pt pt
  · exact ln (v := ⟨n + 7, []⟩) (a := mkPoint (n + 3) (fin 1) (fin 1)) (b := mkPoint (n + 4) (fin 0) (fin 1)) pt pt
  · exact ln (v := ⟨n + 8, []⟩) (a := mkPoint (n + 4) (fin 0) (fin 1)) (b := mkPoint (n + 1) (fin 0) (fin 0)) pt pt

/-- A default axes in a tree has the shape that drawing expects. -/
theorem axesTree_shape {root : Prim Flt} {key : Str} {x y tx ty : Bool} {n : Nat}
    (h : root.getChild key = .ok (axesTree x y tx ty n)) :
    AxesShape root key (0, 0) (1, 0) (1, 1) (0, 1) := by
  have hn : (axesTree (K := Flt) x y tx ty n).keys.Nodup := by
    rw [axesTree_keys]; exact axesKeys_nodup _ _ _ _
  refine ⟨_, _, h, ⟨hn, axesTree_frame _ _ _ _ _⟩, unitQuad_isQuad _, fun kind => ⟨fun hk => ?_, fun hk => ?_⟩⟩
  · obtain ⟨⟨k, q⟩, hq, rfl⟩ := List.mem_map.mp hk
    rcases axesTree_parts hq with ⟨m, rfl, _⟩ | ⟨m, rfl, hm⟩
    · exact ⟨_, _, _, _, _, ⟨hn, hq⟩, unitQuad_isQuad _⟩
    · cases kind <;> exact absurd hm (by decide)
  · obtain ⟨⟨k, q⟩, hq, rfl⟩ := List.mem_map.mp hk
    rcases axesTree_parts hq with ⟨m, rfl, hm⟩ | ⟨m, rfl, _⟩
    · cases kind <;> exact absurd hm (by decide)
    · exact ⟨_, (0, 0), ⟨hn, hq⟩, .refl _, rfl⟩

/-! ## Moving points -/

/-- The place of the point `id`, if it is a vertex of one of the given boxes. -/
noncomputable def vertexOf (tbl : List (Nat × Rect)) (id : Nat) : Option (ℝ × ℝ) :=
  tbl.findSome? fun mr =>
    if id = mr.1 + 1 then some (mr.2.x0, mr.2.y0) else if id = mr.1 + 2 then some (mr.2.x1, mr.2.y0)
    else if id = mr.1 + 3 then some (mr.2.x1, mr.2.y1) else if id = mr.1 + 4 then some (mr.2.x0, mr.2.y1)
    else none

theorem vertexOf_eq {tbl : List (Nat × Rect)} (hp : tbl.Pairwise fun a b => a.1 + 9 ≤ b.1)
    {mr : Nat × Rect} (h : mr ∈ tbl) :
    vertexOf tbl (mr.1 + 1) = some (mr.2.x0, mr.2.y0) ∧ vertexOf tbl (mr.1 + 2) = some (mr.2.x1, mr.2.y0) ∧
    vertexOf tbl (mr.1 + 3) = some (mr.2.x1, mr.2.y1) ∧ vertexOf tbl (mr.1 + 4) = some (mr.2.x0, mr.2.y1) := by
  induction tbl with
  | nil => cases h
  | cons a tbl ih =>
    rw [List.pairwise_cons] at hp
    rcases List.mem_cons.mp h with rfl | h
    · simp [vertexOf, List.findSome?_cons]
    · have := hp.1 _ h
      obtain ⟨h1, h2, h3, h4⟩ := ih hp.2 h
      have e : ∀ j, 1 ≤ j → j ≤ 4 → vertexOf (a :: tbl) (mr.1 + j) = vertexOf tbl (mr.1 + j) := by
        intro j _ _
        unfold vertexOf
        rw [List.findSome?_cons, if_neg (by omega), if_neg (by omega), if_neg (by omega),
          if_neg (by omega)]
      rw [e 1 (by omega) (by omega), e 2 (by omega) (by omega), e 3 (by omega) (by omega),
        e 4 (by omega) (by omega)]
      exact ⟨h1, h2, h3, h4⟩

/-- Move points, given by their identities. -/
noncomputable def placeBy (f : Nat → Option (ℝ × ℝ)) (v : PVal Flt) : PVal Flt :=
  ⟨v.id, if v.arr.length = 2 then
    match f v.id with
    | some a => [fin a.1, fin a.2]
    | none => v.arr
    else v.arr⟩

theorem placeBy_length (f : Nat → Option (ℝ × ℝ)) (v : PVal Flt) :
    (placeBy f v).arr.length = v.arr.length := by
  unfold placeBy
  simp only
  split
  · split
    · simp_all
    · rfl
  · rfl

theorem placeBy_finite (f : Nat → Option (ℝ × ℝ)) {v : PVal Flt} (h : ∀ x ∈ v.arr, ∃ r, x = fin r) :
    ∀ x ∈ (placeBy f v).arr, ∃ r, x = fin r := by
  unfold placeBy
  simp only
  split
  · split
    · intro x hx
      simp only [List.mem_cons, List.not_mem_nil, or_false] at hx
      rcases hx with rfl | rfl <;> exact ⟨_, rfl⟩
    · exact h
  · exact h

theorem placeBy_solved (f : Nat → Option (ℝ × ℝ)) {t : Prim Flt} (hok : PrimOK t) (hf : t.Finite) :
    Solved t (t.mapV (placeBy f)) where
  okA := hok
  okB := by
    refine ⟨WF_mapV _ hok.wf, ?_, ?_⟩
    · intro p m hm k hk
      obtain ⟨m0, h1, rfl⟩ := (At_mapV _).mp hm
      rw [Node.keys_mapV] at hk
      exact hok.slashFree p m0 h1 k hk
    · intro p q a b ha hb he
      obtain ⟨a0, h1, rfl⟩ := (At_mapV _).mp ha
      obtain ⟨b0, h2, rfl⟩ := (At_mapV _).mp hb
      rw [Node.value_mapV, Node.value_mapV] at he ⊢
      rw [hok.ident p q a0 b0 h1 h2 he]
  same := by
    refine ⟨fun p => ⟨fun ⟨m, h⟩ => ⟨_, (At_mapV _).mpr ⟨m, h, rfl⟩⟩, fun ⟨m, h⟩ => ?_⟩, ?_, ?_⟩
    · obtain ⟨m0, h1, _⟩ := (At_mapV _).mp h
      exact ⟨m0, h1⟩
    · intro p m m' hm hm'
      obtain ⟨m0, h1, rfl⟩ := (At_mapV _).mp hm'
      obtain rfl := At_unique hok.wf hm h1
      rw [Node.ty_mapV, Node.keys_mapV, Node.value_mapV, placeBy_length]
      exact ⟨rfl, rfl, rfl⟩
    · intro p q m n m' n' hm hn hm' hn'
      obtain ⟨m0, h1, rfl⟩ := (At_mapV _).mp hm'
      obtain ⟨n0, h2, rfl⟩ := (At_mapV _).mp hn'
      obtain rfl := At_unique hok.wf hm h1
      obtain rfl := At_unique hok.wf hn h2
      rw [Node.value_mapV, Node.value_mapV]
      exact Iff.rfl
  fin := by
    intro p m hm x hx
    obtain ⟨m0, h1, rfl⟩ := (At_mapV _).mp hm
    rw [Node.value_mapV] at hx
    exact placeBy_finite f (hf p m0 h1) x hx

theorem placeBy_point {f : Nat → Option (ℝ × ℝ)} {n : Nat} {x y : Flt} {u : ℝ × ℝ} (hu : f n = some u) :
    IsPoint ((mkPoint n x y).mapV (placeBy f)) u := by
  refine ⟨.refl _, ?_⟩
  show (placeBy f ⟨n, [x, y]⟩).arr = _
  unfold placeBy
  simp only [List.length_cons, List.length_nil, if_true, hu]
  rfl

theorem placeBy_quad {f : Nat → Option (ℝ × ℝ)} {m : Nat} {r : Rect} (h1 : f (m + 1) = some (r.x0, r.y0))
    (h2 : f (m + 2) = some (r.x1, r.y0)) (h3 : f (m + 3) = some (r.x1, r.y1)) (h4 : f (m + 4) = some (r.x0, r.y1)) :
    IsRect ((unitQuad m).mapV (placeBy f)) r := by
  have pt : ∀ {n : Nat} {x y : Flt} {u : ℝ × ℝ}, f n = some u →
      IsPoint ((mkPoint n x y).mapV (placeBy f)) u := placeBy_point
  have ln : ∀ {v : PVal Flt} {a b : Prim Flt} {u w : ℝ × ℝ}, IsPoint (a.mapV (placeBy f)) u →
      IsPoint (b.mapV (placeBy f)) w → IsLine ((mkLine v a b).mapV (placeBy f)) u w := by
    intro v a b u w ha hb
    exact ⟨.refl _, _, _, rfl, ha, hb⟩
  rw [unitQuad_eq]
  refine ⟨.refl _, _, _, _, _, rfl, ?_, ?_, ?_, ?_⟩
  · exact ln (v := ⟨m + 5, []⟩) (a := mkPoint (m + 1) (fin 0) (fin 0)) (b := mkPoint (m + 2) (fin 1) (fin 0))
      (pt h1) (pt h2)
  · exact ln (v := ⟨m + 6, []⟩) (a := mkPoint (m + 2) (fin 1) (fin 0)) (b := mkPoint (m + 3) (fin 1) (fin 1))
      (pt h2) (pt h3)
  · exact ln (v := ⟨m + 7, []⟩) (a := mkPoint (m + 3) (fin 1) (fin 1)) (b := mkPoint (m + 4) (fin 0) (fin 1))
      (pt h3) (pt h4)
  · exact ln (v := ⟨m + 8, []⟩) (a := mkPoint (m + 4) (fin 0) (fin 1)) (b := mkPoint (m + 1) (fin 0) (fin 0))
      (pt h4) (pt h1)

/-- Put the vertices of the given boxes in place. -/
noncomputable def place (tbl : List (Nat × Rect)) : PVal Flt → PVal Flt := placeBy (vertexOf tbl)

theorem place_solved (tbl : List (Nat × Rect)) {t : Prim Flt} (hok : PrimOK t) (hf : t.Finite) :
    Solved t (t.mapV (place tbl)) := placeBy_solved (vertexOf tbl) hok hf

theorem place_quad {tbl : List (Nat × Rect)} (hp : tbl.Pairwise fun a b => a.1 + 9 ≤ b.1)
    {m : Nat} {r : Rect} (h : (m, r) ∈ tbl) : IsRect ((unitQuad m).mapV (place tbl)) r := by
  obtain ⟨h1, h2, h3, h4⟩ := vertexOf_eq hp h
  exact placeBy_quad h1 h2 h3 h4

end MplLayout
