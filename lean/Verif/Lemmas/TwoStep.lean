import Verif.Spec.TwoStep
import Verif.Lemmas.OneStepNewton

/-!
# Distances to edges and label positions on the way between two geometries
-/

namespace MplLayout

open Flt Props Solver

/-! ## Placements on the way -/

/-- The placement on the way between two. -/
noncomputable def Placement.mix (P Q : Placement) (t : ℝ) : Placement :=
  ⟨fun b => ⟨(1 - t) * (P.box b).x0 + t * (Q.box b).x0, (1 - t) * (P.box b).y0 + t * (Q.box b).y0,
      (1 - t) * (P.box b).x1 + t * (Q.box b).x1, (1 - t) * (P.box b).y1 + t * (Q.box b).y1⟩,
    fun k => mixPt t (P.point k) (Q.point k)⟩

theorem Edge.start_mix (e : Edge) (P Q : Placement) (t : ℝ) :
    e.start (P.mix Q t) = mixPt t (e.start P) (e.start Q) := by
  obtain ⟨b, side⟩ := e
  cases side <;> rfl

theorem Edge.stop_mix (e : Edge) (P Q : Placement) (t : ℝ) :
    e.stop (P.mix Q t) = mixPt t (e.stop P) (e.stop Q) := by
  obtain ⟨b, side⟩ := e
  cases side <;> rfl

theorem Spot.place_mix (s : Spot) (P Q : Placement) (t : ℝ) :
    s.place (P.mix Q t) = mixPt t (s.place P) (s.place Q) := by
  cases s with
  | point k => rfl
  | first e => exact e.start_mix P Q t
  | last e => exact e.stop_mix P Q t

theorem Edge.run_mix (e : Edge) (P Q : Placement) (t : ℝ) :
    e.run (P.mix Q t) = (1 - t) * e.run P + t * e.run Q := by
  obtain ⟨b, side⟩ := e
  cases side <;> simp only [run, Placement.mix] <;> ring

theorem Edge.inward_mix (e : Edge) (P Q : Placement) (t : ℝ) (c d : ℝ × ℝ) :
    e.inward (P.mix Q t) (mixPt t c d) = (1 - t) * e.inward P c + t * e.inward Q d := by
  obtain ⟨b, side⟩ := e
  cases side <;> simp only [inward, level, Placement.mix, mixPt] <;> ring

theorem labelOffset_mix (a : Str) (twin : Bool) (kind : AxisKind) (P Q : Placement) (t : ℝ) :
    labelOffset a twin (P.mix Q t) kind = (1 - t) * labelOffset a twin P kind + t * labelOffset a twin Q kind := by
  cases kind <;> simp only [labelOffset, Placement.mix, mixPt] <;> ring

/-! ## The values -/

theorem Edge.dist_run (e : Edge) (P : Placement) : dist2 (e.start P) (e.stop P) = |e.run P| := by
  have := e.dist_way P 1
  rw [P.way_one] at this
  simpa using this

theorem Edge.ne_of_run {e : Edge} {P : Placement} (h : 0 < e.run P) : e.start P ≠ e.stop P := by
  intro h'
  have := e.dist_run P
  rw [h', dist2_self, abs_of_pos h] at this
  exact h.ne this

theorem Edge.leftOf_run {e : Edge} {P : Placement} (h : 0 < e.run P) (c : ℝ × ℝ) :
    leftOf (e.start P) (e.stop P) c = e.inward P c := by
  have hd := e.dist_run P
  rw [abs_of_pos h] at hd
  rw [leftOf, hd, div_eq_iff h.ne']
  obtain ⟨b, side⟩ := e
  cases side <;> simp only [start, stop, run, inward, level] <;> ring

theorem along_label {a : Str} {kind : AxisKind} {P : Placement} (h : 0 < (labelEdge a kind).run P) (twin : Bool) :
    along ((labelEdge a kind).start P) ((labelEdge a kind).stop P) (P.point (a ++ '/' :: axisLabelKey kind twin))
      = labelOffset a twin P kind := by
  have hd := (labelEdge a kind).dist_run P
  rw [abs_of_pos h] at hd
  rw [along, hd, div_eq_iff h.ne']
  cases kind <;> simp only [labelEdge, Edge.start, Edge.stop, Edge.run, labelOffset] <;> ring

theorem near_pos {p q : ℝ} (h : 0 < p) : ∀ᶠ t : ℝ in nhds 0, 0 < (1 - t) * p + t * q := by
  have hc : ContinuousAt (fun t : ℝ => (1 - t) * p + t * q) 0 := by fun_prop
  have := hc.eventually_mem (IsOpen.mem_nhds isOpen_Ioi
    (show (1 - (0 : ℝ)) * p + 0 * q ∈ Set.Ioi (0 : ℝ) by simpa using h))
  simpa using this

theorem tanZero_mix (p q v : ℝ) : TanZero (fun t => ((1 - t) * p + t * q) - v) ↔ q = v := by
  have e : (fun t : ℝ => ((1 - t) * p + t * q) - v) = fun t => (p - v) + (q - p) * t + 0 * t ^ 2 := by
    funext t; ring
  rw [e, tanZero_poly]
  constructor <;> intro h <;> linarith

theorem tanZero_ratio {o o' r r' v : ℝ} (h : 0 < r) :
    TanZero (fun t => ((1 - t) * o + t * o') / ((1 - t) * r + t * r') - v) ↔
      o / r - v + ((o' - o) * r - o * (r' - r)) / r ^ 2 = 0 := by
  have h1 : HasDerivAt (fun t : ℝ => (1 - t) * o + t * o') (o' - o) 0 := by
    have := ((hasDerivAt_id (0 : ℝ)).const_mul (o' - o)).const_add o
    refine (this.congr_deriv (by ring)).congr_of_eventuallyEq (.of_forall fun t => ?_)
    simp only [id]; ring
  have h2 : HasDerivAt (fun t : ℝ => (1 - t) * r + t * r') (r' - r) 0 := by
    have := ((hasDerivAt_id (0 : ℝ)).const_mul (r' - r)).const_add r
    refine (this.congr_deriv (by ring)).congr_of_eventuallyEq (.of_forall fun t => ?_)
    simp only [id]; ring
  have := (h1.fun_div h2 (by simpa using h.ne')).sub_const v
  rw [tanZero_iff this]
  simp

/-! ## Coordinates of points as functions -/

/-- Both coordinates are affine functions. -/
def Aff2 {n : Nat} (c : (Fin n → ℝ) → ℝ × ℝ) : Prop :=
  ∃ (a b : Fin n → ℝ) (k l : ℝ), ∀ y, c y = (∑ i, a i * y i + k, ∑ i, b i * y i + l)

theorem Aff2.mix {n : Nat} {c : (Fin n → ℝ) → ℝ × ℝ} (h : Aff2 c) (x e : Fin n → ℝ) (t : ℝ) :
    c (x + t • e) = mixPt t (c x) (c (x + e)) := by
  obtain ⟨a, b, k, l, h⟩ := h
  have key : ∀ (a : Fin n → ℝ) (k : ℝ), ∑ i, a i * (x + t • e) i + k
      = (1 - t) * (∑ i, a i * x i + k) + t * (∑ i, a i * (x + e) i + k) := by
    intro a k
    simp only [Pi.add_apply, Pi.smul_apply, smul_eq_mul, mul_add, Finset.sum_add_distrib]
    rw [Finset.sum_congr rfl fun i _ => (by ring : a i * (t * e i) = t * (a i * e i)), ← Finset.mul_sum]
    ring
  rw [h, h, h, mixPt, key, key]

theorem Aff2.diff {n : Nat} {c : (Fin n → ℝ) → ℝ × ℝ} (h : Aff2 c) : Differentiable ℝ c := by
  obtain ⟨a, b, k, l, h⟩ := h
  have : c = fun y => (∑ i, a i * y i + k, ∑ i, b i * y i + l) := funext h
  rw [this]
  fun_prop

section
variable {l : Layout Flt} {base n : Nat} {x : Fin n → ℝ}

theorem point_aff {m : Prim Flt} {u : ℝ × ℝ} (h : IsPoint (m.mapV (paramVal l base n x)) u) :
    ∃ c, Aff2 c ∧ ∀ y, IsPoint (m.mapV (paramVal l base n y)) (c y) := by
  rw [isPoint_mapV] at h
  obtain ⟨gs, h1, h2⟩ := paramVal_aff l base n m.value
  have hx := h2 x
  rw [h.2] at hx
  have hl : gs.length = 2 := by simpa using (congrArg List.length hx).symm
  match gs, hl with
  | [g1, g2], _ =>
    simp only [List.map_cons, List.map_nil, List.cons.injEq, and_true] at hx
    have ok : ∀ g ∈ [g1, g2], ∀ v, fin v = g x → ∃ (a : Fin n → ℝ) (k : ℝ), ∀ y, g y = fin (∑ i, a i * y i + k) := by
      intro g hg v hv
      rcases h1 g hg with hb | hg
      · rw [hb] at hv; cases hv
      · exact hg
    obtain ⟨a, k, ha⟩ := ok g1 (by simp) _ hx.1
    obtain ⟨b, k', hb⟩ := ok g2 (by simp) _ hx.2
    refine ⟨fun y => (∑ i, a i * y i + k, ∑ i, b i * y i + k'), ⟨a, b, k, k', fun y => rfl⟩, fun y => ?_⟩
    rw [isPoint_mapV]
    refine ⟨h.1, ?_⟩
    rw [h2 y]
    simp [ha, hb]

theorem line_aff {m : Prim Flt} {u v : ℝ × ℝ} (h : IsLine (m.mapV (paramVal l base n x)) u v) :
    ∃ c d, Aff2 c ∧ Aff2 d ∧ ∀ y, IsLine (m.mapV (paramVal l base n y)) (c y) (d y) := by
  rw [isLine_mapV] at h
  obtain ⟨ht, p, q, e, h1, h2⟩ := h
  obtain ⟨c, c1, c2⟩ := point_aff h1
  obtain ⟨d, d1, d2⟩ := point_aff h2
  refine ⟨c, d, c1, d1, fun y => ?_⟩
  rw [isLine_mapV]
  exact ⟨ht, p, q, e, c2 y, d2 y⟩

theorem key_point {T : Prim Flt} {k : Str} {p : Prim Flt} {u : ℝ × ℝ}
    (hk : (T.mapV (paramVal l base n x)).getChild k = .ok p) (h : IsPoint p u) :
    ∃ c, Aff2 c ∧ ∀ y, ∃ p, (T.mapV (paramVal l base n y)).getChild k = .ok p ∧ IsPoint p (c y) := by
  rw [Node.getChild_mapV] at hk
  cases hm : T.getChild k with
  | error e => rw [hm] at hk; cases hk
  | ok m =>
    rw [hm] at hk
    obtain rfl := Except.ok.inj hk
    obtain ⟨c, c1, c2⟩ := point_aff h
    exact ⟨c, c1, fun y => ⟨_, by rw [Node.getChild_mapV, hm]; rfl, c2 y⟩⟩

theorem key_line {T : Prim Flt} {k : Str} {p : Prim Flt} {u v : ℝ × ℝ}
    (hk : (T.mapV (paramVal l base n x)).getChild k = .ok p) (h : IsLine p u v) :
    ∃ c d, Aff2 c ∧ Aff2 d ∧ ∀ y, ∃ p, (T.mapV (paramVal l base n y)).getChild k = .ok p ∧ IsLine p (c y) (d y) := by
  rw [Node.getChild_mapV] at hk
  cases hm : T.getChild k with
  | error e => rw [hm] at hk; cases hk
  | ok m =>
    rw [hm] at hk
    obtain rfl := Except.ok.inj hk
    obtain ⟨c, d, c1, d1, c2⟩ := line_aff h
    exact ⟨c, d, c1, d1, fun y => ⟨_, by rw [Node.getChild_mapV, hm]; rfl, c2 y⟩⟩

end

theorem isPoint_unique {p : Prim Flt} {u v : ℝ × ℝ} (hu : IsPoint p u) (hv : IsPoint p v) : u = v := by
  have := hu.2.symm.trans hv.2
  simp only [List.cons.injEq, up, Flt.fin.injEq, and_true] at this
  exact Prod.ext this.1 this.2

theorem isLine_unique {l : Prim Flt} {u v u' v' : ℝ × ℝ} (h : IsLine l u v) (h' : IsLine l u' v') : u = u' ∧ v = v' := by
  obtain ⟨_, p, q, e, h1, h2⟩ := h
  obtain ⟨_, p', q', e', h1', h2'⟩ := h'
  rw [e] at e'
  simp only [List.cons.injEq, Prod.mk.injEq, true_and, and_true] at e'
  obtain ⟨rfl, rfl⟩ := e'
  exact ⟨isPoint_unique h1 h1', isPoint_unique h2 h2'⟩

theorem diff_dist {n : Nat} {A B : (Fin n → ℝ) → ℝ × ℝ} {x : Fin n → ℝ} (hA : Aff2 A) (hB : Aff2 B)
    (hne : A x ≠ B x) : DifferentiableAt ℝ (fun y => dist2 (A y) (B y)) x := by
  have h1 := hA.diff.differentiableAt (x := x)
  have h2 := hB.diff.differentiableAt (x := x)
  have hpos := dist2_pos hne
  unfold dist2 at hpos ⊢
  refine DifferentiableAt.sqrt (by fun_prop) ?_
  intro h0
  rw [h0, Real.sqrt_zero] at hpos
  exact hpos.false

theorem diff_quot {n : Nat} {f D : (Fin n → ℝ) → ℝ} {x : Fin n → ℝ} (hf : DifferentiableAt ℝ f x)
    (hD : DifferentiableAt ℝ D x) (h : D x ≠ 0) : DifferentiableAt ℝ (fun y => f y / D y) x := by
  simp only [div_eq_mul_inv]
  exact hf.fun_mul (hD.fun_inv h)

theorem diff_leftOf {n : Nat} {A B c : (Fin n → ℝ) → ℝ × ℝ} {x : Fin n → ℝ} (hA : Aff2 A) (hB : Aff2 B) (hc : Aff2 c)
    (hne : A x ≠ B x) : DifferentiableAt ℝ (fun y => leftOf (A y) (B y) (c y)) x := by
  have h1 := hA.diff.differentiableAt (x := x)
  have h2 := hB.diff.differentiableAt (x := x)
  have h3 := hc.diff.differentiableAt (x := x)
  have h4 := diff_dist hA hB hne
  have h5 : (fun y => dist2 (A y) (B y)) x ≠ 0 := (dist2_pos hne).ne'
  have h6 : DifferentiableAt ℝ (fun y => ((B y).1 - (A y).1) * ((c y).2 - (A y).2) - ((B y).2 - (A y).2) * ((c y).1 - (A y).1)) x := by fun_prop
  exact diff_quot (D := fun y => dist2 (A y) (B y)) h6 h4 h5

theorem diff_along {n : Nat} {A B c : (Fin n → ℝ) → ℝ × ℝ} {x : Fin n → ℝ} (hA : Aff2 A) (hB : Aff2 B) (hc : Aff2 c)
    (hne : A x ≠ B x) : DifferentiableAt ℝ (fun y => along (A y) (B y) (c y)) x := by
  have h1 := hA.diff.differentiableAt (x := x)
  have h2 := hB.diff.differentiableAt (x := x)
  have h3 := hc.diff.differentiableAt (x := x)
  have h4 := diff_dist hA hB hne
  have h5 : (fun y => dist2 (A y) (B y)) x ≠ 0 := (dist2_pos hne).ne'
  have h6 : DifferentiableAt ℝ (fun y => ((c y).1 - (A y).1) * ((B y).1 - (A y).1) + ((c y).2 - (A y).2) * ((B y).2 - (A y).2)) x := by fun_prop
  exact diff_quot (D := fun y => dist2 (A y) (B y)) h6 h4 h5

theorem near_ne {n : Nat} {A B : (Fin n → ℝ) → ℝ × ℝ} {x : Fin n → ℝ} (hA : Aff2 A) (hB : Aff2 B)
    (hne : A x ≠ B x) : ∀ᶠ y in nhds x, A y ≠ B y :=
  hA.diff.continuous.continuousAt.ne_iff_eventually_ne hB.diff.continuous.continuousAt |>.mp hne

end MplLayout
