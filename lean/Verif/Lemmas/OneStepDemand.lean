import Verif.Lemmas.OneStepGrid
import Verif.Lemmas.Figure

/-! The demands along the way from the default geometry. -/

namespace MplLayout

open Flt Cons Props

/-- The placement at the time `t` on the way from the default one. -/
noncomputable def Placement.way (P : Placement) (t : ℝ) : Placement :=
  ⟨fun b => (P.box b).way t, fun k => (t * (P.point k).1, t * (P.point k).2)⟩

theorem Placement.way_one (P : Placement) : P.way 1 = P := by
  obtain ⟨box, point⟩ := P
  simp [way, Rect.way]

theorem Edge.getWay {e : Edge} {P : Placement} {r : ℝ → Prim Flt}
    (h : ∃ q : ℝ → Prim Flt, (∀ t, (r t).getChild e.box = .ok (q t)) ∧ OnWay q (P.box e.box)) :
    ∃ l : ℝ → Prim Flt, (∀ t, (r t).getChild e.key = .ok (l t)) ∧
      ∀ t, IsLine (l t) (e.start (P.way t)) (e.stop (P.way t)) := by
  obtain ⟨q, h1, h2⟩ := h
  choose l g1 g2 using fun t => Edge.get (e := e) (P := P.way t) (r := r t) ⟨q t, h1 t, h2 t⟩
  exact ⟨l, g1, g2⟩

theorem Edge.dist_way (e : Edge) (P : Placement) (t : ℝ) :
    dist2 (e.start (P.way t)) (e.stop (P.way t)) = |(1 - t) + t * e.run P| := by
  obtain ⟨b, side⟩ := e
  cases side <;> simp only [start, stop, run, Placement.way, Rect.way] <;>
    first | rw [dist2_h] | rw [dist2_v]
  · congr 1; ring
  · rw [abs_sub_comm]; congr 1; ring
  · rw [abs_sub_comm]; congr 1; ring
  · congr 1; ring

theorem evT_collinear {e e' : Edge} (hs : e.side = e'.side) {P : Placement} {l l' : ℝ → Prim Flt}
    (h : ∀ t, IsLine (l t) (e.start (P.way t)) (e.stop (P.way t)))
    (h' : ∀ t, IsLine (l' t) (e'.start (P.way t)) (e'.stop (P.way t))) :
    EvT ct.collinear (fun t => [l t, l' t]) [] (e.level P = e'.level P) := by
  obtain ⟨b, side⟩ := e
  obtain ⟨b', side'⟩ := e'
  obtain rfl : side = side' := hs
  cases side
  · refine (evT_collinear_h h h' (σ := 1) (D := (P.box b).x1 - (P.box b).x0) (E := (P.box b).y0 - (P.box b').y0)
      (by norm_num) (fun t => ?_) (fun t => ?_)).congr sub_eq_zero <;> simp only [Placement.way, Rect.way] <;> ring
  · refine (evT_collinear_h h h' (σ := -1) (D := (P.box b).x1 - (P.box b).x0) (E := (P.box b).y1 - (P.box b').y1)
      (by norm_num) (fun t => ?_) (fun t => ?_)).congr sub_eq_zero <;> simp only [Placement.way, Rect.way] <;> ring
  · refine (evT_collinear_v h h' (σ := -1) (D := (P.box b).y1 - (P.box b).y0) (E := (P.box b).x0 - (P.box b').x0)
      (by norm_num) (fun t => ?_) (fun t => ?_)).congr sub_eq_zero <;> simp only [Placement.way, Rect.way] <;> ring
  · refine (evT_collinear_v h h' (σ := 1) (D := (P.box b).y1 - (P.box b).y0) (E := (P.box b).x1 - (P.box b').x1)
      (by norm_num) (fun t => ?_) (fun t => ?_)).congr sub_eq_zero <;> simp only [Placement.way, Rect.way] <;> ring

theorem cells_way {R C : Nat} {bs : List Str} {P : Placement} {r : ℝ → Prim Flt} (h : bs.length = R * C)
    (B : ∀ b ∈ bs, ∃ q : ℝ → Prim Flt, (∀ t, (r t).getChild b = .ok (q t)) ∧ OnWay q (P.box b)) :
    ∃ prims : ℝ → List (Prim Flt), (∀ t, List.Forall₂ (fun k p => (r t).getChild k = .ok p) bs (prims t)) ∧
      GridWay prims R C (cellOf C bs P) := by
  have : Nonempty (Prim Flt) := ⟨unitQuad 0⟩
  choose! q h1 h2 using B
  refine ⟨fun t => bs.map fun b => q b t, fun t => ?_, ⟨fun t => by rw [List.length_map, h], ?_⟩⟩
  · rw [List.forall₂_map_right_iff, List.forall₂_same]
    exact fun b hb => h1 b hb t
  · intro i j hi hj
    have hm := cells_mem h hi hj
    have hlt : i * C + j < bs.length := by
      rw [h]
      calc i * C + j < i * C + C := by omega
        _ = (i + 1) * C := by ring
        _ ≤ R * C := Nat.mul_le_mul_right C hi
    refine ⟨q (bs.getD (i * C + j) []), fun t => ?_, h2 _ hm⟩
    rw [List.getElem?_map, List.getD_eq_getElem?_getD, List.getElem?_eq_getElem hlt]
    rfl

/-- The value near the start of the way and at its end, if `S` holds. -/
def EvW (c : Cons Flt) (prims : ℝ → List (Prim Flt)) (params : List (Param Flt)) (P S : Prop) : Prop :=
  ∃ gs : List (ℝ → ℝ), (∀ᶠ t in nhds 0, Returns c (prims t) params (gs.map (· t))) ∧
    ((∀ g ∈ gs, TanZero g) ↔ P) ∧ (P → S → Returns c (prims 1) params (gs.map fun _ => 0))

theorem EvT.weak {c : Cons Flt} {prims : ℝ → List (Prim Flt)} {params : List (Param Flt)} {P S : Prop}
    (h : EvT c prims params P) : EvW c prims params P S := by
  obtain ⟨gs, h1, h2, h3⟩ := h
  refine ⟨gs, .of_forall fun t => (h1 t).returns, h2, fun p _ => ?_⟩
  have := (h1 1).returns
  rwa [List.map_congr_left (fun g hg => h3 p g hg)] at this

theorem aspect_call {q : Prim Flt} {a b c d : ℝ × ℝ} (h : IsQuad q a b c d) (hne : b ≠ c) (v : ℝ) :
    Returns (cstr con.aspectRatio) [q] [.num (fin v)] [dist2 a b / dist2 b c - v] := by
  obtain ⟨h1, h2, h3⟩ := MplLayout.cstr_num (c := con.aspectRatio)
    (v := [fin (dist2 a b) / fin (dist2 b c)])
    (prims := [q]) (params := []) (leaf_WF _ _) (by simp [con.aspectRatio, con.leaf0, leaf])
    (leaf_consistent _ _ [] rfl) (leaf_sized _ _ _ _ fun x hx => by
      have e : Except.ok _ = Except.ok x := (Props.aspectA h).symm.trans hx
      cases e
      rfl) ⟨.cons h.1 .nil, rfl⟩ (leaf0_eval (Props.aspectA h)) (fin v)
  have hc : (cstr con.aspectRatio).call [q] [.num (fin v)]
      = .ok [fin (dist2 a b) / fin (dist2 b c) - fin v] :=
    (call_ok_iff _ (sumTree_WF (leaf_WF _ _) (negVec_shape _)) _ _ h3 _).mpr ⟨h1, h2⟩
  rw [Returns, hc, fin_div (dist2_pos hne).ne']
  rfl

/-- A square on its way. -/
theorem evW_square {q : ℝ → Prim Flt} {r : Rect} (h : OnWay q r) :
    EvW (cstr con.aspectRatio) (fun t => [q t]) [.num (fin 1)] (r.x1 - r.x0 = 1 * (r.y1 - r.y0)) r.Proper := by
  have hval : ∀ t, (1 - t) + t * (r.y1 - r.y0) ≠ 0 → Returns (cstr con.aspectRatio) [q t] [.num (fin 1)]
      [|(1 - t) + t * (r.x1 - r.x0)| / |(1 - t) + t * (r.y1 - r.y0)| - 1] := by
    intro t ht
    have hq := h t
    have hne : (((1 - t) + t * r.x1, t * r.y0) : ℝ × ℝ) ≠ ((1 - t) + t * r.x1, (1 - t) + t * r.y1) := by
      intro e
      apply ht
      have := congrArg Prod.snd e
      simp only at this
      linarith
    have := aspect_call hq hne 1
    rw [dist2_h, dist2_v] at this
    convert this using 5 <;> simp only [Rect.way] <;> ring
  have near : ∀ᶠ t : ℝ in nhds 0, 0 < (1 - t) + t * (r.y1 - r.y0) := by
    have hc : ContinuousAt (fun t : ℝ => (1 - t) + t * (r.y1 - r.y0)) 0 := by fun_prop
    have := hc.eventually_mem (IsOpen.mem_nhds isOpen_Ioi
      (show (1 - (0 : ℝ)) + 0 * (r.y1 - r.y0) ∈ Set.Ioi (0 : ℝ) by simp))
    simpa using this
  refine ⟨[fun t => |(1 - t) + t * (r.x1 - r.x0)| / |(1 - t) + t * (r.y1 - r.y0)| - 1],
    near.mono fun t ht => hval t ht.ne', ?_, fun e hp => ?_⟩
  · simp only [List.mem_singleton, forall_eq]
    have e : (fun t : ℝ => |(1 - t) + t * (r.x1 - r.x0)| / |(1 - t) + t * (r.y1 - r.y0)| - 1) =ᶠ[nhds 0]
        fun t => (1 + ((r.x1 - r.x0) - 1) * t) / (1 + ((r.y1 - r.y0) - 1) * t) - 1 := by
      filter_upwards [abs_way (r.x1 - r.x0), abs_way (r.y1 - r.y0)] with t ht ht'
      rw [ht, ht']
    rw [tanZero_congr e]
    have hd : HasDerivAt (fun t : ℝ => (1 + ((r.x1 - r.x0) - 1) * t) / (1 + ((r.y1 - r.y0) - 1) * t) - 1)
        ((r.x1 - r.x0) - (r.y1 - r.y0)) 0 := by
      have h1 := ((hasDerivAt_id (0 : ℝ)).const_mul ((r.x1 - r.x0) - 1)).const_add 1
      have h2 := ((hasDerivAt_id (0 : ℝ)).const_mul ((r.y1 - r.y0) - 1)).const_add 1
      have := (h1.fun_div h2 (by simp)).sub_const 1
      simpa using this
    rw [tanZero_iff hd]
    constructor <;> intro h <;> simp at h ⊢ <;> linarith
  · have h1 := hval 1 (fun e' => hp.2 (by linarith))
    have h0 : r.y1 - r.y0 ≠ 0 := fun e' => hp.2 (by linarith)
    rw [one_mul] at e
    simpa [e, h0, div_self] using h1

/-- The tangents of the demands that are not affine. -/
theorem Demand.tangent {d : Demand} (hd : d.OneStep) (hna : ¬ d.kind.IsAffine) (hpar : d.ParamOK) {P : Placement}
    {r : ℝ → Prim Flt}
    (B : ∀ b ∈ d.boxes, ∃ q : ℝ → Prim Flt, (∀ t, (r t).getChild b = .ok (q t)) ∧ OnWay q (P.box b)) :
    ∃ c prims, d.kind.build = .ok c ∧ (∀ t, List.Forall₂ (fun k p => (r t).getChild k = .ok p) d.keys (prims t)) ∧
      EvW c prims d.params (d.Straight P) (d.Solid P) := by
  cases d with
  | row b c =>
    obtain ⟨q, h1, h2⟩ := B b (by simp [boxes])
    obtain ⟨q', h1', h2'⟩ := B c (by simp [boxes])
    exact ⟨_, fun t => [q t, q' t], align_eq true, fun t => .cons (h1 t) (.cons (h1' t) .nil), (evT_align_row h2 h2').weak⟩
  | column b c =>
    obtain ⟨q, h1, h2⟩ := B b (by simp [boxes])
    obtain ⟨q', h1', h2'⟩ := B c (by simp [boxes])
    exact ⟨_, fun t => [q t, q' t], align_eq false, fun t => .cons (h1 t) (.cons (h1' t) .nil), (evT_align_col h2 h2').weak⟩
  | length e v =>
    obtain ⟨l, h1, h2⟩ := Edge.getWay (B e.box (by simp [boxes]))
    exact ⟨_, fun t => [l t], ct_length_eq, fun t => .cons (h1 t) .nil, (evT_length h2 (fun t => e.dist_way P t) hd).weak⟩
  | relative e e' v =>
    obtain ⟨l, h1, h2⟩ := Edge.getWay (B e.box (by simp [boxes]))
    obtain ⟨l', h1', h2'⟩ := Edge.getWay (B e'.box (by simp [boxes]))
    exact ⟨_, fun t => [l t, l' t], relativeLength_eq, fun t => .cons (h1 t) (.cons (h1' t) .nil),
      (evT_relLen h2 h2' (fun t => e.dist_way P t) (fun t => e'.dist_way P t) hd).weak⟩
  | collinear e e' =>
    obtain ⟨l, h1, h2⟩ := Edge.getWay (B e.box (by simp [boxes]))
    obtain ⟨l', h1', h2'⟩ := Edge.getWay (B e'.box (by simp [boxes]))
    exact ⟨_, fun t => [l t, l' t], rfl, fun t => .cons (h1 t) (.cons (h1' t) .nil), (evT_collinear hd h2 h2').weak⟩
  | cells R C bs =>
    obtain ⟨hR, hC, hl⟩ := hpar
    obtain ⟨prims, g1, g2⟩ := cells_way (P := P) hl B
    obtain ⟨R, rfl⟩ : ∃ n, R = n + 1 := ⟨R - 1, by omega⟩
    obtain ⟨C, rfl⟩ : ∃ n, C = n + 1 := ⟨C - 1, by omega⟩
    exact ⟨_, prims, rectilinearGrid_eq _ _, g1, (evT_rectGrid g2).weak⟩
  | grid R C bs ws hs ms ns =>
    obtain ⟨hR, hC, hl⟩ := hpar
    obtain ⟨prims, g1, g2⟩ := cells_way (P := P) hl B
    obtain ⟨R, rfl⟩ : ∃ n, R = n + 1 := ⟨R - 1, by omega⟩
    obtain ⟨C, rfl⟩ : ∃ n, C = n + 1 := ⟨C - 1, by omega⟩
    refine ⟨_, prims, grid_eq (ct_margin_eq true .right) (ct_margin_eq true .bottom) _ _, g1, ?_⟩
    have := evT_grid g2 ws hs ms ns (fun c hc => hd.1 c (by omega)) (fun r hr => hd.2 r (by omega))
    simp only [params, Nat.add_sub_cancel]
    refine EvT.weak (this.congr ?_)
    simp only [Straight, Nat.add_lt_add_iff_right]
  | aspect b v =>
    obtain rfl : v = 1 := hd
    obtain ⟨q, h1, h2⟩ := B b (by simp [boxes])
    exact ⟨_, fun t => [q t], ct_aspectRatio_eq, fun t => .cons (h1 t) .nil, evW_square h2⟩
  | _ => exact absurd hd hna

theorem Demand.straight_affine {d : Demand} (h : d.kind.IsAffine) (P : Placement) : d.Straight P ↔ d.Holds P := by
  cases d <;> first | exact Iff.rfl | exact absurd h (by simp [kind, Shipped.IsAffine])

theorem line_h (x x' u u' y : ℝ) : OnOneLine (x, y) (x', y) (u, y) (u', y) := by
  refine ⟨(0, y), (1, 0), by simp, fun p hp => ?_⟩
  simp only [List.mem_cons, List.not_mem_nil, or_false] at hp
  rcases hp with rfl | rfl | rfl | rfl
  · exact ⟨x, by simp⟩
  · exact ⟨x', by simp⟩
  · exact ⟨u, by simp⟩
  · exact ⟨u', by simp⟩

theorem line_v (x y y' w w' : ℝ) : OnOneLine (x, y) (x, y') (x, w) (x, w') := by
  refine ⟨(x, 0), (0, 1), by simp, fun p hp => ?_⟩
  simp only [List.mem_cons, List.not_mem_nil, or_false] at hp
  rcases hp with rfl | rfl | rfl | rfl
  · exact ⟨y, by simp⟩
  · exact ⟨y', by simp⟩
  · exact ⟨w, by simp⟩
  · exact ⟨w', by simp⟩

/-- A demand that holds straight holds. -/
theorem Demand.Straight.holds {d : Demand} (hd : d.OneStep) {P : Placement} (h : d.Straight P)
    (hs : d.Solid P) : d.Holds P := by
  have hrun : ∀ e : Edge, dist2 (e.start P) (e.stop P) = |e.run P| := by
    intro e
    have := e.dist_way P 1
    rw [P.way_one] at this
    simpa using this
  cases d with
  | length e v =>
    simp only [Straight, Holds, OneStep] at *
    rw [hrun, h, abs_of_nonneg hd]
  | relative e e' v =>
    simp only [Straight, Holds, OneStep] at *
    rw [hrun, hrun, h, abs_mul, abs_of_nonneg hd]
  | collinear e e' =>
    obtain ⟨b, side⟩ := e
    obtain ⟨b', side'⟩ := e'
    obtain rfl : side = side' := hd
    simp only [Straight, Holds] at *
    cases side <;> simp only [Edge.level] at h <;> simp only [Edge.start, Edge.stop, h]
    · exact line_h _ _ _ _ _
    · exact line_h _ _ _ _ _
    · exact line_v _ _ _ _ _
    · exact line_v _ _ _ _ _
  | grid R C bs ws hs ms ns =>
    obtain ⟨h0, h1, h2, h3, h4⟩ := h
    refine ⟨h0, fun c hc => ?_, fun r hr => ?_, h3, h4⟩
    · rw [h1 c hc, abs_mul, abs_of_nonneg (hd.1 c hc)]
    · rw [h2 r hr, abs_mul, abs_of_nonneg (hd.2 r hr)]
  | aspect b v =>
    obtain rfl : v = 1 := hd
    simp only [Straight, Holds] at *
    exact ⟨fun e => hs.2 e.symm, by rw [h, one_mul, one_mul]⟩
  | _ => exact h

end MplLayout
