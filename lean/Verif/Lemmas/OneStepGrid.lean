import Verif.Lemmas.OneStep
import Verif.Spec.OneStep

/-! Tangents of the residuals of alignments, lengths and grids along the way from the default geometry. -/

namespace MplLayout

open Flt Cons Props

theorem tanZero_poly (a b c : ℝ) : TanZero (fun t => a + b * t + c * t ^ 2) ↔ a + b = 0 := by
  have h : HasDerivAt (fun t : ℝ => a + b * t + c * t ^ 2) b 0 := by
    have h1 := ((hasDerivAt_id (0 : ℝ)).const_mul b).const_add a
    have h2 := (hasDerivAt_pow 2 (0 : ℝ)).const_mul c
    have := h1.fun_add h2
    simpa using this
  rw [tanZero_iff h]
  simp

theorem tanZero_congr {g h : ℝ → ℝ} (e : g =ᶠ[nhds 0] h) : TanZero g ↔ TanZero h := by
  unfold TanZero
  rw [e.self_of_nhds]
  exact e.hasDerivAt_iff

/-- The residual along a line, as functions: their tangents vanish at 1 exactly if `P` holds, and then they
vanish at 1. -/
def EvT (c : Cons Flt) (prims : ℝ → List (Prim Flt)) (params : List (Param Flt)) (P : Prop) : Prop :=
  ∃ gs : List (ℝ → ℝ), (∀ t, Ev c (prims t) params (gs.map (· t))) ∧ ((∀ g ∈ gs, TanZero g) ↔ P) ∧
    (P → ∀ g ∈ gs, g 1 = 0)

theorem EvT.congr {c : Cons Flt} {prims : ℝ → List (Prim Flt)} {params : List (Param Flt)} {P Q : Prop}
    (h : EvT c prims params P) (hp : P ↔ Q) : EvT c prims params Q := by
  obtain ⟨v, h1, h2, h3⟩ := h
  exact ⟨v, h1, h2.trans hp, fun q => h3 (hp.mpr q)⟩

theorem evT_L {prims : ℝ → List (Prim Flt)} (cs : List (Str × Cons Flt)) :
    ∀ (kss : List (List Str)) (pss : List (List (Param Flt))) (P : Nat → Prop),
    kss.length = cs.length → cs.length ≤ pss.length →
    (∀ (i : Nat) kc ks ps, cs[i]? = some kc → kss[i]? = some ks → pss[i]? = some ps →
      ∃ cps : ℝ → List (Prim Flt), (∀ t, pyMap (resolve (prims t)) ks = .ok (cps t)) ∧ EvT kc.2 cps ps (P i)) →
    ∃ vs : List (List (ℝ → ℝ)), (∀ t, EvL (prims t) cs kss pss (vs.map (List.map (· t)))) ∧
      ((∀ g ∈ vs.flatten, TanZero g) ↔ ∀ i, i < cs.length → P i) ∧
      ((∀ i, i < cs.length → P i) → ∀ g ∈ vs.flatten, g 1 = 0) := by
  induction cs with
  | nil =>
    intro kss pss P h1 _ _
    cases kss with
    | nil => exact ⟨[], fun _ => .nil _, by simp, by simp⟩
    | cons => simp at h1
  | cons kc cs ih =>
    intro kss pss P h1 h2 h
    obtain ⟨k, c⟩ := kc
    cases kss with
    | nil => simp at h1
    | cons ks kss =>
      cases pss with
      | nil => simp at h2
      | cons ps pss =>
        obtain ⟨cps, hk, v, hv, hv', hv''⟩ := h 0 (k, c) ks ps rfl rfl rfl
        obtain ⟨vs, hvs, hvs', hvs''⟩ := ih kss pss (fun i => P (i + 1)) (by simpa using h1)
          (by simpa using h2) (fun i kc ks ps a b d => h (i + 1) kc ks ps (by simpa using a)
            (by simpa using b) (by simpa using d))
        have hall : (P 0 ∧ ∀ i, i < cs.length → P (i + 1)) ↔ ∀ i, i < ((k, c) :: cs).length → P i := by
          simp only [List.length_cons]
          constructor
          · rintro ⟨a, b⟩ i hi
            cases i with
            | zero => exact a
            | succ i => exact b i (by omega)
          · intro a
            exact ⟨a 0 (by omega), fun i hi => a (i + 1) (by omega)⟩
        refine ⟨v :: vs, fun t => .cons (hk t) (hv t) (hvs t), ?_, ?_⟩
        · simp only [List.flatten_cons, List.mem_append, or_imp, forall_and, hv', hvs']
          exact hall
        · intro hp
          obtain ⟨a, b⟩ := hall.mpr hp
          simp only [List.flatten_cons, List.mem_append, or_imp, forall_and]
          exact ⟨hv'' a, hvs'' b⟩

theorem EvT.compound {cls : ConsClass Flt} {kss : List (List Str)}
    {cp : List (Param Flt) → Py (List (List (Param Flt)))} {sig : ConsSig}
    {cs : List (Str × Cons Flt)} {prims : ℝ → List (Prim Flt)} {params : List (Param Flt)}
    {pss : List (List (Param Flt))} {P : Nat → Prop}
    (hn : (cs.map (·.1)).Nodup) (hown : ∀ t, cls.assem (prims t) params = .ok (.vec []))
    (hcp : cp params = .ok pss)
    (hacc : ∀ t, List.Forall₂ (fun (p : Prim Flt) t => p.ty.IsA t) (prims t) sig.primTypes)
    (hpar : params.length = sig.paramTypes.length)
    (hk : kss.length = cs.length) (hp : cs.length ≤ pss.length)
    (h : ∀ (i : Nat) kc ks ps, cs[i]? = some kc → kss[i]? = some ks → pss[i]? = some ps →
      ∃ cps : ℝ → List (Prim Flt), (∀ t, pyMap (resolve (prims t)) ks = .ok (cps t)) ∧ EvT kc.2 cps ps (P i)) :
    EvT (.mk cls ⟨kss, cp, sig⟩ cs) prims params (∀ i, i < cs.length → P i) := by
  obtain ⟨vs, h1, h2, h3⟩ := evT_L cs kss pss P hk hp h
  refine ⟨vs.flatten, fun t => ?_, h2, h3⟩
  rw [List.map_flatten]
  exact Ev.compound hn (hown t) hcp (hacc t) hpar (h1 t)

/-- `transform_map` of a construction of two primitives. -/
theorem EvT.map2 {c : Cons Flt} {ty : PrimType} (ht : c.value.sig.primTypes = [ty, ty])
    {n : Nat} {prims : ℝ → List (Prim Flt)} (hl : ∀ t, (prims t).length = n + 1)
    (hacc : ∀ t, ∀ p ∈ prims t, p.ty.IsA ty) {params : List (Param Flt)}
    (hpar : params.length = n * c.value.sig.paramTypes.length) {P : Nat → Prop}
    (h : ∀ i (p q : ℝ → Prim Flt), i < n → (∀ t, (prims t)[i]? = some (p t)) → (∀ t, (prims t)[n]? = some (q t)) →
      EvT c (fun t => [p t, q t]) ((params.drop (i * c.value.sig.paramTypes.length)).take
        c.value.sig.paramTypes.length) (P i)) :
    EvT (mapCons c (n + 1)) prims params (∀ i, i < n → P i) := by
  have hnum : n + 1 + 1 - c.value.sig.primTypes.length = n := by rw [ht]; simp
  unfold mapCons
  simp only [hnum]
  have hlen : (((List.range n).map fun i => c.ty.name ++ natStr i).zip
      (List.replicate n c)).length = n := by simp
  have key := EvT.compound (P := P)
    (cls := { name := k!"Map" ++ c.ty.name, assem := fun _ _ => .ok (.vec []) })
    (kss := (List.range n).map fun i => (k!"arg" ++ natStr i) ::
        (List.range (c.value.sig.primTypes.length - 1)).map fun j => k!"arg" ++ natStr (n + j))
    (cp := fun params => .ok ((List.range n).map fun i =>
      pySlice params (some ((i * c.value.sig.paramTypes.length : Nat) : Int))
        (some (((i + 1) * c.value.sig.paramTypes.length : Nat) : Int))))
    (sig := ⟨(List.replicate n (c.value.sig.primTypes.take 1)).flatten ++
      c.value.sig.primTypes.drop 1, (List.replicate n c.value.sig.paramTypes).flatten, 0⟩)
    (cs := ((List.range n).map fun i => c.ty.name ++ natStr i).zip (List.replicate n c))
    (prims := prims) (params := params) ?_ (fun _ => rfl) rfl ?_ ?_ ?_ ?_ ?_
  · rw [hlen] at key
    exact key
  · rw [List.map_fst_zip (by simp)]; exact mapKeys_nodup _ _
  · have : (List.replicate n (c.value.sig.primTypes.take 1)).flatten ++ c.value.sig.primTypes.drop 1
        = List.replicate (n + 1) ty := by
      rw [ht]
      simp [List.replicate_succ']
    simp only [this]
    exact fun t => forall₂_replicate_take (hl t) (hacc t)
  · simp [hpar]
  · simp
  · simp
  · intro i kc ks ps h1 h2 h3
    have hi : i < n := by
      have := (List.getElem?_eq_some_iff.mp h1).1
      rwa [hlen] at this
    have hkc : kc.2 = c := List.eq_of_mem_replicate
      (List.of_mem_zip (a := kc.1) (b := kc.2) (List.mem_of_getElem? h1)).2
    simp only [List.getElem?_map, List.getElem?_range hi, Option.map_some, Option.some.injEq]
      at h2 h3
    subst h2 h3
    have g1 : ∀ t, (prims t)[i]? = some ((prims t)[i]'(by have := hl t; omega)) :=
      fun t => List.getElem?_eq_getElem (by have := hl t; omega)
    have g2 : ∀ t, (prims t)[n]? = some ((prims t)[n]'(by have := hl t; omega)) :=
      fun t => List.getElem?_eq_getElem (by have := hl t; omega)
    refine ⟨fun t => [(prims t)[i]'(by have := hl t; omega), (prims t)[n]'(by have := hl t; omega)], ?_, ?_⟩
    · intro t
      rw [ht]
      exact pyMap2 (resolve_argKey_ok.mpr (g1 t)) (resolve_argKey_ok.mpr (g2 t))
    · have hle : (i + 1) * c.value.sig.paramTypes.length ≤ params.length := by
        rw [hpar]; exact Nat.mul_le_mul_right _ hi
      rw [hkc, pySlice_block _ _ (Nat.mul_le_mul_right _ (by omega)) hle]
      have : (i + 1) * c.value.sig.paramTypes.length - i * c.value.sig.paramTypes.length
        = c.value.sig.paramTypes.length := by rw [Nat.add_mul]; omega
      rw [this]
      exact h i _ _ hi g1 g2

/-! ## Rectangles on their way from the unit square -/

/-- The rectangle at the time `t` on the way from the unit square. -/
noncomputable def Rect.way (r : Rect) (t : ℝ) : Rect :=
  ⟨t * r.x0, t * r.y0, (1 - t) + t * r.x1, (1 - t) + t * r.y1⟩

/-- A quadrilateral on its way. -/
def OnWay (q : ℝ → Prim Flt) (r : Rect) : Prop := ∀ t, IsRect (q t) (r.way t)

variable {q q' : ℝ → Prim Flt} {s s' : Rect}

theorem evT_collinear_h {l l' : ℝ → Prim Flt} {x x' y u u' w : ℝ → ℝ} (h : ∀ t, IsLine (l t) (x t, y t) (x' t, y t))
    (h' : ∀ t, IsLine (l' t) (u t, w t) (u' t, w t)) {σ D E : ℝ} (hσ : σ ≠ 0)
    (hx : ∀ t, x' t - x t = σ * ((1 - t) + t * D)) (hy : ∀ t, y t - w t = t * E) :
    EvT ct.collinear (fun t => [l t, l' t]) [] (E = 0) := by
  refine ⟨[fun t => 0 + 0 * t + 0 * t ^ 2, fun t => 0 + σ * E * t + σ * E * (D - 1) * t ^ 2], fun t => ?_, ?_, ?_⟩
  · have := ev_collinear (h t) (h' t)
    simp only [sub_self, mul_zero, zero_mul, sub_zero, hx, hy] at this
    simp only [List.map_cons, List.map_nil]
    convert this using 3
    · ring
    · ring
  · simp only [List.mem_cons, List.not_mem_nil, or_false, forall_eq_or_imp, forall_eq, tanZero_poly]
    simp [hσ]
  · rintro rfl g hg
    simp only [List.mem_cons, List.not_mem_nil, or_false] at hg
    rcases hg with rfl | rfl <;> simp

theorem evT_collinear_v {l l' : ℝ → Prim Flt} {x y y' u w w' : ℝ → ℝ} (h : ∀ t, IsLine (l t) (x t, y t) (x t, y' t))
    (h' : ∀ t, IsLine (l' t) (u t, w t) (u t, w' t)) {σ D E : ℝ} (hσ : σ ≠ 0)
    (hy : ∀ t, y' t - y t = σ * ((1 - t) + t * D)) (hx : ∀ t, x t - u t = t * E) :
    EvT ct.collinear (fun t => [l t, l' t]) [] (E = 0) := by
  refine ⟨[fun t => 0 + 0 * t + 0 * t ^ 2, fun t => 0 + -(σ * E) * t + -(σ * E * (D - 1)) * t ^ 2], fun t => ?_, ?_, ?_⟩
  · have := ev_collinear (h t) (h' t)
    simp only [sub_self, mul_zero, zero_mul, zero_sub, hx, hy] at this
    simp only [List.map_cons, List.map_nil]
    convert this using 3
    · ring
    · ring
  · simp only [List.mem_cons, List.not_mem_nil, or_false, forall_eq_or_imp, forall_eq, tanZero_poly]
    simp [hσ]
  · rintro rfl g hg
    simp only [List.mem_cons, List.not_mem_nil, or_false] at hg
    rcases hg with rfl | rfl <;> simp

theorem evT_two {cls : ConsClass Flt} {k1 k2 : Str} {c1 c2 : Cons Flt} {ks1 ks2 : List Str}
    {prims cps1 cps2 : ℝ → List (Prim Flt)} {sig : ConsSig} {P1 P2 : Prop} (hne : k1 ≠ k2)
    (hown : ∀ t, cls.assem (prims t) [] = .ok (.vec []))
    (hacc : ∀ t, List.Forall₂ (fun (p : Prim Flt) t => p.ty.IsA t) (prims t) sig.primTypes)
    (hpar : sig.paramTypes = [])
    (h1 : ∀ t, pyMap (resolve (prims t)) ks1 = .ok (cps1 t)) (h2 : ∀ t, pyMap (resolve (prims t)) ks2 = .ok (cps2 t))
    (e1 : EvT c1 cps1 [] P1) (e2 : EvT c2 cps2 [] P2) :
    EvT (.mk cls ⟨[ks1, ks2], fun _ => .ok [[], []], sig⟩ [(k1, c1), (k2, c2)]) prims []
      (P1 ∧ P2) := by
  have := EvT.compound (P := fun i => if i = 0 then P1 else P2) (cls := cls) (kss := [ks1, ks2])
    (cp := fun _ => .ok [[], []]) (sig := sig) (cs := [(k1, c1), (k2, c2)]) (prims := prims)
    (params := []) (by simp [hne]) hown rfl hacc (by simp [hpar]) rfl (by simp) (by
      intro i kc ks ps a b d
      match i with
      | 0 =>
        simp only [List.getElem?_cons_zero, Option.some.injEq] at a b d
        subst a b d
        exact ⟨_, h1, by simpa using e1⟩
      | 1 =>
        simp only [List.getElem?_cons_succ, List.getElem?_cons_zero, Option.some.injEq] at a b d
        subst a b d
        exact ⟨_, h2, by simpa using e2⟩
      | n + 2 => simp at a)
  refine this.congr ⟨fun h => ⟨by simpa using h 0 (by simp), by simpa using h 1 (by simp)⟩, ?_⟩
  rintro ⟨a, b⟩ i hi
  by_cases h0 : i = 0 <;> simp [h0, a, b]

theorem evT_align_row (h : OnWay q s) (h' : OnWay q' s') :
    EvT (alignT true) (fun t => [q t, q' t]) [] (s.y0 = s'.y0 ∧ s.y1 = s'.y1) := by
  choose l0 l1 l2 l3 h0 h1 h2 h3 g0 g1 g2 g3 using fun t => quad_resolve (h t) [q' t]
  choose m0 m1 m2 m3 i0 i1 i2 i3 j0 j1 j2 j3 using fun t => quad_resolve1 (q0 := q t) (h' t) []
  have := evT_two (cls := { name := k!"AlignRow", assem := compoundAssem 0 })
    (sig := ⟨[.quadrilateral, .quadrilateral], [], 0⟩) (k1 := k!"AlignBottom") (k2 := k!"AlignTop")
    (by decide) (fun _ => rfl) (fun t => .cons (h t).1 (.cons (h' t).1 .nil)) rfl
    (fun t => pyMap2 (g0 t) (j0 t)) (fun t => pyMap2 (g2 t) (j2 t))
    (evT_collinear_h h0 i0 (σ := 1) (D := s.x1 - s.x0) (E := s.y0 - s'.y0) (by norm_num)
      (fun t => by simp only [Rect.way]; ring) (fun t => by simp only [Rect.way]; ring))
    (evT_collinear_h h2 i2 (σ := -1) (D := s.x1 - s.x0) (E := s.y1 - s'.y1) (by norm_num)
      (fun t => by simp only [Rect.way]; ring) (fun t => by simp only [Rect.way]; ring))
  exact this.congr (by rw [sub_eq_zero, sub_eq_zero])

theorem evT_align_col (h : OnWay q s) (h' : OnWay q' s') :
    EvT (alignT false) (fun t => [q t, q' t]) [] (s.x0 = s'.x0 ∧ s.x1 = s'.x1) := by
  choose l0 l1 l2 l3 h0 h1 h2 h3 g0 g1 g2 g3 using fun t => quad_resolve (h t) [q' t]
  choose m0 m1 m2 m3 i0 i1 i2 i3 j0 j1 j2 j3 using fun t => quad_resolve1 (q0 := q t) (h' t) []
  have := evT_two (cls := { name := k!"AlignColumn", assem := compoundAssem 0 })
    (sig := ⟨[.quadrilateral, .quadrilateral], [], 0⟩) (k1 := k!"AlignLeft") (k2 := k!"AlignRight")
    (by decide) (fun _ => rfl) (fun t => .cons (h t).1 (.cons (h' t).1 .nil)) rfl
    (fun t => pyMap2 (g3 t) (j3 t)) (fun t => pyMap2 (g1 t) (j1 t))
    (evT_collinear_v h3 i3 (σ := -1) (D := s.y1 - s.y0) (E := s.x0 - s'.x0) (by norm_num)
      (fun t => by simp only [Rect.way]; ring) (fun t => by simp only [Rect.way]; ring))
    (evT_collinear_v h1 i1 (σ := 1) (D := s.y1 - s.y0) (E := s.x1 - s'.x1) (by norm_num)
      (fun t => by simp only [Rect.way]; ring) (fun t => by simp only [Rect.way]; ring))
  exact this.congr (by rw [sub_eq_zero, sub_eq_zero])

/-! ## Lengths -/

theorem abs_way (D : ℝ) : (fun t : ℝ => |(1 - t) + t * D|) =ᶠ[nhds 0] fun t => 1 + (D - 1) * t := by
  have hc : ContinuousAt (fun t : ℝ => (1 - t) + t * D) 0 := by fun_prop
  have : ∀ᶠ t : ℝ in nhds 0, 0 < (1 - t) + t * D := by
    have := hc.eventually_mem (IsOpen.mem_nhds isOpen_Ioi (show (1 - (0 : ℝ)) + 0 * D ∈ Set.Ioi (0 : ℝ) by simp))
    simpa using this
  filter_upwards [this] with t ht
  rw [abs_of_pos ht]; ring

theorem evT_length {l : ℝ → Prim Flt} {a b : ℝ → ℝ × ℝ} (h : ∀ t, IsLine (l t) (a t) (b t)) {D : ℝ}
    (hd : ∀ t, dist2 (a t) (b t) = |(1 - t) + t * D|) {v : ℝ} (hv : 0 ≤ v) :
    EvT (cstr con.length) (fun t => [l t]) [.num (fin v)] (D = v) := by
  refine ⟨[fun t => |(1 - t) + t * D| - v], fun t => ?_, ?_, ?_⟩
  · have := ev_ct_length (h t) v
    rw [hd] at this
    exact this
  · simp only [List.mem_singleton, forall_eq]
    have e : (fun t : ℝ => |(1 - t) + t * D| - v) =ᶠ[nhds 0] fun t => (1 - v) + (D - 1) * t + 0 * t ^ 2 := by
      filter_upwards [abs_way D] with t ht
      rw [ht]; ring
    rw [tanZero_congr e, tanZero_poly]
    constructor <;> intro h <;> linarith
  · rintro rfl g hg
    rw [List.mem_singleton.mp hg]
    simp [abs_of_nonneg hv]

theorem evT_relLen {l l' : ℝ → Prim Flt} {a b c d : ℝ → ℝ × ℝ} (h : ∀ t, IsLine (l t) (a t) (b t))
    (h' : ∀ t, IsLine (l' t) (c t) (d t)) {D D' : ℝ} (hd : ∀ t, dist2 (a t) (b t) = |(1 - t) + t * D|)
    (hd' : ∀ t, dist2 (c t) (d t) = |(1 - t) + t * D'|) {v : ℝ} (hv : 0 ≤ v) :
    EvT relLenT (fun t => [l t, l' t]) [.num (fin v)] (D = v * D') := by
  refine ⟨[fun t => |(1 - t) + t * D| - v * |(1 - t) + t * D'|], fun t => ?_, ?_, ?_⟩
  · have := ev_relLen (h t) (h' t) v
    rw [hd, hd'] at this
    exact this
  · simp only [List.mem_singleton, forall_eq]
    have e : (fun t : ℝ => |(1 - t) + t * D| - v * |(1 - t) + t * D'|) =ᶠ[nhds 0]
        fun t => (1 - v) + ((D - 1) - v * (D' - 1)) * t + 0 * t ^ 2 := by
      filter_upwards [abs_way D, abs_way D'] with t ht ht'
      rw [ht, ht']; ring
    rw [tanZero_congr e, tanZero_poly]
    constructor <;> intro h <;> linarith
  · rintro rfl g hg
    rw [List.mem_singleton.mp hg]
    simp [abs_mul, abs_of_nonneg hv]

/-! ## Grids -/

/-- A list of rectangles on their way. -/
structure RowWay (prims : ℝ → List (Prim Flt)) (n : Nat) (rect : Nat → Rect) : Prop where
  len : ∀ t, (prims t).length = n
  at' : ∀ i, i < n → ∃ q : ℝ → Prim Flt, (∀ t, (prims t)[i]? = some (q t)) ∧ OnWay q (rect i)

/-- A grid of rectangles on their way. -/
structure GridWay (prims : ℝ → List (Prim Flt)) (R C : Nat) (rect : Nat → Nat → Rect) : Prop where
  len : ∀ t, (prims t).length = R * C
  at' : ∀ r c, r < R → c < C → ∃ q : ℝ → Prim Flt, (∀ t, (prims t)[r * C + c]? = some (q t)) ∧ OnWay q (rect r c)

theorem RowWay.isRow {prims : ℝ → List (Prim Flt)} {n : Nat} {rect : Nat → Rect} (h : RowWay prims n rect) (t : ℝ) :
    IsRow (prims t) n fun i => (rect i).way t :=
  ⟨h.len t, fun i hi => by obtain ⟨q, h1, h2⟩ := h.at' i hi; exact ⟨_, h1 t, h2 t⟩⟩

theorem GridWay.isGrid {prims : ℝ → List (Prim Flt)} {R C : Nat} {rect : Nat → Nat → Rect} (h : GridWay prims R C rect)
    (t : ℝ) : IsGrid (prims t) R C fun r c => (rect r c).way t :=
  ⟨h.len t, fun r c hr hc => by obtain ⟨q, h1, h2⟩ := h.at' r c hr hc; exact ⟨_, h1 t, h2 t⟩⟩

theorem evT_alignMap {row : Bool} {Q : Rect → Rect → Prop}
    (hal : ∀ {q q' : ℝ → Prim Flt} {s s' : Rect}, OnWay q s → OnWay q' s' →
      EvT (alignT row) (fun t => [q t, q' t]) [] (Q s s'))
    {prims : ℝ → List (Prim Flt)} {n : Nat} {rect : Nat → Rect} (h : RowWay prims (n + 1) rect) :
    EvT (mapCons (alignT row) (n + 1)) prims [] (∀ i, i < n → Q (rect i) (rect n)) := by
  have ht : (alignT (K := Flt) row).value.sig.primTypes = [.quadrilateral, .quadrilateral] := by
    cases row <;> rfl
  have hpt : (alignT (K := Flt) row).value.sig.paramTypes = [] := by cases row <;> rfl
  refine EvT.map2 ht h.len (fun t => (h.isRow t).quads) (by simp [hpt]) ?_
  intro i p p' hi hp1 hp2
  obtain ⟨a, ha, ha'⟩ := h.at' i (by omega)
  obtain ⟨b, hb, hb'⟩ := h.at' n (by omega)
  have e1 : a = p := funext fun t => by have := ha t; rw [hp1 t] at this; exact (Option.some.inj this).symm
  have e2 : b = p' := funext fun t => by have := hb t; rw [hp2 t] at this; exact (Option.some.inj this).symm
  subst e1 e2
  simpa using hal ha' hb'

theorem way_keys {prims : ℝ → List (Prim Flt)} {n : Nat} {f : Nat → Nat} {rect : Nat → Rect}
    (h : ∀ i, i < n → ∃ q : ℝ → Prim Flt, (∀ t, (prims t)[f i]? = some (q t)) ∧ OnWay q (rect i)) :
    ∃ cps : ℝ → List (Prim Flt), (∀ t, pyMap (resolve (prims t)) ((List.range n).map fun i => ct.argKey (f i)) = .ok (cps t)) ∧
      RowWay cps n rect := by
  have : ∀ i : Fin n, ∃ q : ℝ → Prim Flt, (∀ t, (prims t)[f i]? = some (q t)) ∧ OnWay q (rect i) := fun i => h i i.2
  choose g hg hr using this
  refine ⟨fun t => List.ofFn fun i => g i t, fun t => ?_, fun t => by simp, ?_⟩
  · rw [pyMap_ok, List.forall₂_iff_get]
    refine ⟨by simp, ?_⟩
    intro i h1 h2
    simp only [List.get_eq_getElem, List.getElem_map, List.getElem_range, List.getElem_ofFn]
    exact resolve_argKey_ok.mpr (hg ⟨i, by simpa using h2⟩ t)
  · intro i hi
    exact ⟨g ⟨i, hi⟩, fun t => by simp [hi], hr ⟨i, hi⟩⟩

theorem evT_rectGrid {prims : ℝ → List (Prim Flt)} {R C : Nat} {rect : Nat → Nat → Rect}
    (h : GridWay prims (R + 1) (C + 1) rect) :
    EvT (rectGridT (R + 1) (C + 1)) prims [] (GridAligned (R + 1) (C + 1) rect) := by
  have key := EvT.compound
    (P := fun i => if i < R + 1 then
        ∀ c, c < C → (rect i c).y0 = (rect i C).y0 ∧ (rect i c).y1 = (rect i C).y1
      else ∀ r, r < R → (rect r (i - (R + 1))).x0 = (rect R (i - (R + 1))).x0 ∧
        (rect r (i - (R + 1))).x1 = (rect R (i - (R + 1))).x1)
    (cls := { name := k!"RectilinearGrid", assem := compoundAssem 0 })
    (kss := (List.range (R + 1)).map (fun r => (List.range (C + 1)).map fun c =>
        ct.argKey (gidx (R + 1) (C + 1) r c)) ++
      (List.range (C + 1)).map (fun c => (List.range (R + 1)).map fun r =>
        ct.argKey (gidx (R + 1) (C + 1) r c)))
    (cp := fun _ => .ok (List.replicate (4 * (R + 1) * (C + 1)) []))
    (sig := ⟨List.replicate ((R + 1) * (C + 1)) .quadrilateral, [], 0⟩)
    (cs := (rectGridKeys (R + 1) (C + 1)).zip
      (List.replicate (R + 1) (mapCons (alignT true) (C + 1)) ++
      List.replicate (C + 1) (mapCons (alignT false) (R + 1))))
    (prims := prims) (params := []) ?_ (fun _ => rfl) rfl
    (fun t => forall₂_replicate (h.len t) (h.isGrid t).quads) rfl ?_ ?_ ?_
  · refine key.congr ?_
    have hlen : ((rectGridKeys (R + 1) (C + 1)).zip
      (List.replicate (R + 1) (mapCons (alignT (K := Flt) true) (C + 1)) ++
      List.replicate (C + 1) (mapCons (alignT false) (R + 1)))).length = (R + 1) + (C + 1) := by
      simp [rectGridKeys]
    rw [hlen]
    constructor
    · intro hh
      constructor
      · intro r c c' hr hc hc'
        have h1 := hh r (by omega)
        rw [if_pos hr] at h1
        have h2 : ∀ c, c < C + 1 → (rect r c).y0 = (rect r C).y0 ∧ (rect r c).y1 = (rect r C).y1 := by
          intro c hc
          rcases Nat.lt_succ_iff_lt_or_eq.mp hc with h3 | rfl
          · exact h1 c h3
          · exact ⟨rfl, rfl⟩
        exact ⟨(h2 c hc).1.trans (h2 c' hc').1.symm, (h2 c hc).2.trans (h2 c' hc').2.symm⟩
      · intro c r r' hc hr hr'
        have h1 := hh ((R + 1) + c) (by omega)
        rw [if_neg (by omega), Nat.add_sub_cancel_left] at h1
        have h2 : ∀ r, r < R + 1 → (rect r c).x0 = (rect R c).x0 ∧ (rect r c).x1 = (rect R c).x1 := by
          intro r hr
          rcases Nat.lt_succ_iff_lt_or_eq.mp hr with h3 | rfl
          · exact h1 r h3
          · exact ⟨rfl, rfl⟩
        exact ⟨(h2 r hr).1.trans (h2 r' hr').1.symm, (h2 r hr).2.trans (h2 r' hr').2.symm⟩
    · rintro ⟨h1, h2⟩ i hi
      split
      · next hi => exact fun c hc => h1 i c C hi (by omega) (by omega)
      · next hi' => exact fun r hr => h2 _ r R (by omega) (by omega) (by omega)
  · rw [List.map_fst_zip (by simp [rectGridKeys])]
    exact rectGridKeys_nodup _ _
  · simp [rectGridKeys]
  · simp only [List.length_zip, rectGridKeys, List.length_append, List.length_map,
      List.length_range, List.length_replicate, Nat.min_self]
    nlinarith
  · intro i kc ks ps a b d
    have hps : ps = [] := List.eq_of_mem_replicate (List.mem_of_getElem? d)
    subst hps
    obtain ⟨k, c⟩ := kc
    have a2 := (List.getElem?_zip_eq_some.mp a).2
    simp only [gidx_eq] at b
    by_cases hi : i < R + 1
    · rw [List.getElem?_append_left (by simpa using hi)] at a2 b
      simp only [List.getElem?_map, List.getElem?_range hi, Option.map_some, Option.some.injEq]
        at b
      have hc := List.eq_of_mem_replicate (List.mem_of_getElem? a2)
      subst hc b
      obtain ⟨cps, h1, h2⟩ := way_keys (prims := prims) (n := C + 1)
        (f := fun c => i * (C + 1) + c) (rect := fun c => rect i c)
        (fun c hc => h.at' i c hi hc)
      refine ⟨cps, h1, ?_⟩
      rw [if_pos hi]
      exact evT_alignMap (Q := fun s s' => s.y0 = s'.y0 ∧ s.y1 = s'.y1) evT_align_row h2
    · rw [List.getElem?_append_right (by simpa using hi)] at a2 b
      simp only [List.length_replicate, List.length_map, List.length_range] at a2 b
      have hlt : i - (R + 1) < C + 1 := by
        have := (List.getElem?_eq_some_iff.mp a2).1
        simpa using this
      simp only [List.getElem?_map, List.getElem?_range hlt, Option.map_some, Option.some.injEq]
        at b
      have hc := List.eq_of_mem_replicate (List.mem_of_getElem? a2)
      subst hc b
      obtain ⟨cps, h1, h2⟩ := way_keys (prims := prims) (n := R + 1)
        (f := fun r => r * (C + 1) + (i - (R + 1))) (rect := fun r => rect r (i - (R + 1)))
        (fun r hr => h.at' r _ hr hlt)
      refine ⟨cps, h1, ?_⟩
      rw [if_neg hi]
      exact evT_alignMap (Q := fun s s' => s.x0 = s'.x0 ∧ s.x1 = s'.x1) evT_align_col h2


theorem evT_relLenMap {lines : ℝ → List (Prim Flt)} {n : Nat} {a b : Nat → ℝ → ℝ × ℝ} {D : Nat → ℝ}
    (hl : ∀ t, (lines t).length = n + 1)
    (h : ∀ i, i < n + 1 → ∃ l : ℝ → Prim Flt, (∀ t, (lines t)[i]? = some (l t)) ∧ (∀ t, IsLine (l t) (a i t) (b i t)) ∧
      ∀ t, dist2 (a i t) (b i t) = |(1 - t) + t * D i|) (ws : Nat → ℝ) (hw : ∀ i, i < n → 0 ≤ ws i) :
    EvT (mapCons relLenT (n + 1)) lines ((List.range n).map fun i => .num (fin (ws i)))
      (∀ i, i < n → D i = ws i * D n) := by
  have hpt : (relLenT (K := Flt)).value.sig.paramTypes.length = 1 := rfl
  refine EvT.map2 (c := relLenT) (ty := .line) rfl hl ?_ (by simp [hpt]) ?_
  · intro t p hp
    obtain ⟨i, hi, rfl⟩ := List.getElem_of_mem hp
    obtain ⟨q, hq, hr, _⟩ := h i (hl t ▸ hi)
    have hq := hq t
    rw [List.getElem?_eq_getElem hi] at hq
    rw [Option.some.inj hq]
    exact (hr t).1
  · intro i p q hi h1 h2
    obtain ⟨l, hl1, hl2, hl3⟩ := h i (by omega)
    obtain ⟨m, hm1, hm2, hm3⟩ := h n (by omega)
    have e1 : l = p := funext fun t => by have := hl1 t; rw [h1 t] at this; exact (Option.some.inj this).symm
    have e2 : m = q := funext fun t => by have := hm1 t; rw [h2 t] at this; exact (Option.some.inj this).symm
    subst e1 e2
    rw [hpt, take_drop_one (x := .num (fin (ws i))) (by simp [hi])]
    exact evT_relLen hl2 hm2 hl3 hm3 (hw i hi)

theorem way_lineKeys {prims : ℝ → List (Prim Flt)} {n : Nat} {f : Nat → Nat} {a b : Nat → ℝ → ℝ × ℝ} {D : Nat → ℝ}
    {k : Str}
    (h : ∀ i, i < n → ∃ q l : ℝ → Prim Flt, (∀ t, (prims t)[f i]? = some (q t)) ∧ (∀ t, (q t).getChild k = .ok (l t)) ∧
      (∀ t, IsLine (l t) (a i t) (b i t)) ∧ ∀ t, dist2 (a i t) (b i t) = |(1 - t) + t * D i|) :
    ∃ lines : ℝ → List (Prim Flt),
      (∀ t, pyMap (resolve (prims t)) ((List.range n).map fun i => ct.argKey (f i) ++ '/' :: k) = .ok (lines t)) ∧
      (∀ t, (lines t).length = n) ∧
      ∀ i, i < n → ∃ l : ℝ → Prim Flt, (∀ t, (lines t)[i]? = some (l t)) ∧ (∀ t, IsLine (l t) (a i t) (b i t)) ∧
        ∀ t, dist2 (a i t) (b i t) = |(1 - t) + t * D i| := by
  have : ∀ i : Fin n, ∃ q l : ℝ → Prim Flt, (∀ t, (prims t)[f i]? = some (q t)) ∧ (∀ t, (q t).getChild k = .ok (l t)) ∧
      (∀ t, IsLine (l t) (a i t) (b i t)) ∧ ∀ t, dist2 (a i t) (b i t) = |(1 - t) + t * D i| := fun i => h i i.2
  choose q g hq hg hr hd using this
  refine ⟨fun t => List.ofFn fun i => g i t, fun t => ?_, fun t => by simp, ?_⟩
  · rw [pyMap_ok, List.forall₂_iff_get]
    refine ⟨by simp, ?_⟩
    intro i h1 h2
    simp only [List.get_eq_getElem, List.getElem_map, List.getElem_range, List.getElem_ofFn]
    have := resolve_argKey_path (prims t) (f i) k
    rw [hq ⟨i, by simpa using h2⟩ t] at this
    exact this.trans (hg _ t)
  · intro i hi
    exact ⟨g ⟨i, hi⟩, fun t => by simp [hi], hr ⟨i, hi⟩, hd ⟨i, hi⟩⟩

theorem evT_marginArray {prims : ℝ → List (Prim Flt)} {n : Nat} {rect : Nat → Rect}
    (h : RowWay prims (n + 1) rect) {m : Cons Flt} {gap : Rect → Rect → ℝ}
    (hm : ∀ {q q' : ℝ → Prim Flt} {s s' : Rect}, OnWay q s → OnWay q' s' → ∀ y : ℝ,
      EvT m (fun t => [q t, q' t]) [.num (fin y)] (gap s s' = y)) (ms : Nat → ℝ) :
    EvT (marginArrayT m (n + 1)) prims ((List.range n).map fun i => .num (fin (ms i)))
      (∀ i, i < n → gap (rect i) (rect (i + 1)) = ms i) := by
  have key := EvT.compound (P := fun i => gap (rect i) (rect (i + 1)) = ms i)
    (cls := { name := k!"OuterMarginArray", assem := fun _ _ => .ok (.vec []) })
    (kss := (List.range (n + 1 - 1)).map (fun i => [ct.argKey i, ct.argKey (i + 1)]))
    (cp := fun params => .ok (params.map fun p => [p]))
    (sig := ⟨List.replicate (n + 1) .quadrilateral, List.replicate (n + 1 - 1) .float, 0⟩)
    (cs := ((List.range (n + 1)).map fun i => k!"OuterMargin" ++ natStr i).zip
      (List.replicate (n + 1 - 1) m))
    (prims := prims) (params := (List.range n).map fun i => .num (fin (ms i)))
    ?_ (fun _ => rfl) rfl (fun t => forall₂_replicate (h.len t) (h.isRow t).quads) (by simp) (by simp) (by simp) ?_
  · have hlen : (((List.range (n + 1)).map fun i => k!"OuterMargin" ++ natStr i).zip
      (List.replicate (n + 1 - 1) m)).length = n := by simp
    rw [hlen] at key
    exact key
  · have hz := dictOfZip_keys_nodup ((List.range (n + 1)).map fun i => k!"OuterMargin" ++ natStr i)
      (List.replicate (n + 1 - 1) m)
    rwa [dictOfZip_of_nodup (mapKeys_nodup _ _)] at hz
  · intro i kc ks ps a b d
    obtain ⟨k, c⟩ := kc
    have a2 := (List.getElem?_zip_eq_some.mp a).2
    have hi : i < n := by simpa using (List.getElem?_eq_some_iff.mp a2).1
    have hc := List.eq_of_mem_replicate (List.mem_of_getElem? a2)
    simp only [Nat.add_sub_cancel, List.getElem?_map, List.getElem?_range hi, Option.map_some,
      Option.some.injEq] at b d
    subst hc b d
    obtain ⟨q, hq, hr⟩ := h.at' i (by omega)
    obtain ⟨q', hq', hr'⟩ := h.at' (i + 1) (by omega)
    exact ⟨fun t => [q t, q' t], fun t => pyMap2 (resolve_argKey_ok.mpr (hq t)) (resolve_argKey_ok.mpr (hq' t)),
      hm hr hr' _⟩

theorem evT_marginRight (h : OnWay q s) (h' : OnWay q' s') (y : ℝ) :
    EvT (cstr (marginT true .right)) (fun t => [q t, q' t]) [.num (fin y)] (s'.x0 - s.x1 = y) := by
  refine ⟨[fun t => (-1 - y) + (s'.x0 - s.x1 + 1) * t + 0 * t ^ 2], fun t => ?_, ?_, ?_⟩
  · have := (ev_margin (h t) (h' t) true .right).2 y
    simp only [List.map_cons, List.map_nil]
    convert this using 2
    simp only [marginVal, Rect.way]; ring
  · simp only [List.mem_singleton, forall_eq, tanZero_poly]
    constructor <;> intro h <;> linarith
  · intro e g hg
    rw [List.mem_singleton.mp hg]
    simp only []
    linarith

theorem evT_marginBottom (h : OnWay q s) (h' : OnWay q' s') (y : ℝ) :
    EvT (cstr (marginT true .bottom)) (fun t => [q t, q' t]) [.num (fin y)] (s.y0 - s'.y1 = y) := by
  refine ⟨[fun t => (-1 - y) + (s.y0 - s'.y1 + 1) * t + 0 * t ^ 2], fun t => ?_, ?_, ?_⟩
  · have := (ev_margin (h t) (h' t) true .bottom).2 y
    simp only [List.map_cons, List.map_nil]
    convert this using 2
    simp only [marginVal, Rect.way]; ring
  · simp only [List.mem_singleton, forall_eq, tanZero_poly]
    constructor <;> intro h <;> linarith
  · intro e g hg
    rw [List.mem_singleton.mp hg]
    simp only []
    linarith

theorem evT_grid {prims : ℝ → List (Prim Flt)} {R C : Nat} {rect : Nat → Nat → Rect}
    (h : GridWay prims (R + 1) (C + 1) rect) (ws hs ms ns : Nat → ℝ) (hw : ∀ c, c < C → 0 ≤ ws c)
    (hh : ∀ r, r < R → 0 ≤ hs r) :
    EvT (gridT (cstr (marginT true .right)) (cstr (marginT true .bottom)) (R + 1) (C + 1)) prims
      [arrOf C ws, arrOf R hs, arrOf C ms, arrOf R ns] (GridAligned (R + 1) (C + 1) rect ∧
      (∀ c, c < C → (rect 0 (c + 1)).x1 - (rect 0 (c + 1)).x0 = ws c * ((rect 0 0).x1 - (rect 0 0).x0)) ∧
      (∀ r, r < R → (rect (r + 1) 0).y1 - (rect (r + 1) 0).y0 = hs r * ((rect 0 0).y1 - (rect 0 0).y0)) ∧
      (∀ c, c < C → (rect 0 (c + 1)).x0 - (rect 0 c).x1 = ms c) ∧
      (∀ r, r < R → (rect r 0).y0 - (rect (r + 1) 0).y1 = ns r)) := by
  have e1 := evT_rectGrid h
  obtain ⟨lw, w1, w2, w3⟩ := way_lineKeys (prims := prims) (n := C + 1)
    (f := fun i => if i < C then i + 1 else 0) (k := k!"Line0")
    (a := fun i t => (((rect 0 (if i < C then i + 1 else 0)).way t).x0, ((rect 0 (if i < C then i + 1 else 0)).way t).y0))
    (b := fun i t => (((rect 0 (if i < C then i + 1 else 0)).way t).x1, ((rect 0 (if i < C then i + 1 else 0)).way t).y0))
    (D := fun i => (rect 0 (if i < C then i + 1 else 0)).x1 - (rect 0 (if i < C then i + 1 else 0)).x0)
    (by
      intro i hi
      obtain ⟨q, hq, hr⟩ := h.at' 0 (if i < C then i + 1 else 0) (by omega)
        (by split <;> omega)
      choose l0 l1 l2 l3 g0 g1 g2 g3 h0 h1 h2 h3 using fun t => QuadAt.lines (hr t)
      refine ⟨q, l0, fun t => by simpa using hq t, g0, h0, fun t => ?_⟩
      rw [dist2_h]
      congr 1
      simp only [Rect.way]; ring)
  have e2 := evT_relLenMap w2 w3 ws hw
  obtain ⟨lh, v1, v2, v3⟩ := way_lineKeys (prims := prims) (n := R + 1)
    (f := fun i => (if i < R then i + 1 else 0) * (C + 1)) (k := k!"Line1")
    (a := fun i t => (((rect (if i < R then i + 1 else 0) 0).way t).x1, ((rect (if i < R then i + 1 else 0) 0).way t).y0))
    (b := fun i t => (((rect (if i < R then i + 1 else 0) 0).way t).x1, ((rect (if i < R then i + 1 else 0) 0).way t).y1))
    (D := fun i => (rect (if i < R then i + 1 else 0) 0).y1 - (rect (if i < R then i + 1 else 0) 0).y0)
    (by
      intro i hi
      obtain ⟨q, hq, hr⟩ := h.at' (if i < R then i + 1 else 0) 0
        (by split <;> omega) (by omega)
      choose l0 l1 l2 l3 g0 g1 g2 g3 h0 h1 h2 h3 using fun t => QuadAt.lines (hr t)
      refine ⟨q, l1, fun t => by simpa using hq t, g1, h1, fun t => ?_⟩
      rw [dist2_v]
      congr 1
      simp only [Rect.way]; ring)
  have e3 := evT_relLenMap v2 v3 hs hh
  obtain ⟨qc, c1, c2⟩ := way_keys (prims := prims) (n := C + 1) (f := fun c => 0 * (C + 1) + c)
    (rect := fun c => rect 0 c) (fun c hc => h.at' 0 c (by omega) hc)
  have e4 := evT_marginArray c2 (gap := fun s s' => s'.x0 - s.x1) evT_marginRight ms
  obtain ⟨qr, r1, r2⟩ := way_keys (prims := prims) (n := R + 1) (f := fun r => r * (C + 1) + 0)
    (rect := fun r => rect r 0) (fun r hr => h.at' r 0 hr (by omega))
  have e5 := evT_marginArray r2 (gap := fun s s' => s.y0 - s'.y1) evT_marginBottom ns
  let P : Nat → Prop := fun i => match i with
    | 0 => GridAligned (R + 1) (C + 1) rect
    | 1 => ∀ c, c < C → (rect 0 (c + 1)).x1 - (rect 0 (c + 1)).x0 = ws c * ((rect 0 0).x1 - (rect 0 0).x0)
    | 2 => ∀ r, r < R → (rect (r + 1) 0).y1 - (rect (r + 1) 0).y0 = hs r * ((rect 0 0).y1 - (rect 0 0).y0)
    | 3 => ∀ c, c < C → (rect 0 (c + 1)).x0 - (rect 0 c).x1 = ms c
    | _ => ∀ r, r < R → (rect r 0).y0 - (rect (r + 1) 0).y1 = ns r
  have key : EvT (gridT (cstr (marginT true .right)) (cstr (marginT true .bottom)) (R + 1) (C + 1))
      prims [arrOf C ws, arrOf R hs, arrOf C ms, arrOf R ns] (∀ i, i < 5 → P i) := by
    refine EvT.compound (P := P)
      (pss := [[], (List.range C).map fun i => .num (fin (ws i)),
        (List.range R).map fun i => .num (fin (hs i)),
        (List.range C).map fun i => .num (fin (ms i)),
        (List.range R).map fun i => .num (fin (ns i))])
      (by simp only [List.map_cons, List.map_nil]; decide) (fun _ => rfl) ?_
      (fun t => forall₂_replicate (h.len t) (h.isGrid t).quads) rfl rfl (by simp) ?_
    · simp only [ct.gridParams, iter_arrOf, bind, Except.bind]
    · intro i kc ks ps a b d
      match i with
      | 0 =>
        simp only [List.getElem?_cons_zero, Option.some.injEq] at a b d
        subst a b d
        exact ⟨prims, fun t => pyMap_all (h.len t), e1⟩
      | 1 =>
        simp only [List.getElem?_cons_succ, List.getElem?_cons_zero, Option.some.injEq] at a b d
        subst a b d
        refine ⟨lw, ?_, e2.congr ?_⟩
        · intro t
          simp only [gidx_eq, rot1_range, List.map_map]
          simpa [Function.comp_def] using w1 t
        · constructor
          · intro hh c hc
            have := hh c hc
            simpa [hc] using this
          · intro hh c hc
            have := hh c hc
            simpa [hc] using this
      | 2 =>
        simp only [List.getElem?_cons_succ, List.getElem?_cons_zero, Option.some.injEq] at a b d
        subst a b d
        refine ⟨lh, ?_, e3.congr ?_⟩
        · intro t
          simp only [gidx_eq, rot1_range, List.map_map]
          simpa [Function.comp_def] using v1 t
        · constructor
          · intro hh c hc
            have := hh c hc
            simpa [hc] using this
          · intro hh c hc
            have := hh c hc
            simpa [hc] using this
      | 3 =>
        simp only [List.getElem?_cons_succ, List.getElem?_cons_zero, Option.some.injEq] at a b d
        subst a b d
        refine ⟨qc, ?_, e4⟩
        simpa only [gidx_eq] using c1
      | 4 =>
        simp only [List.getElem?_cons_succ, List.getElem?_cons_zero, Option.some.injEq] at a b d
        subst a b d
        refine ⟨qr, ?_, e5⟩
        simpa only [gidx_eq] using r1
      | n + 5 => simp at a
  refine key.congr ⟨fun hh => ⟨hh 0 (by omega), hh 1 (by omega), hh 2 (by omega), hh 3 (by omega), hh 4 (by omega)⟩, ?_⟩
  rintro ⟨h0, h1, h2, h3, h4⟩ i hi
  match i with
  | 0 => exact h0
  | 1 => exact h1
  | 2 => exact h2
  | 3 => exact h3
  | 4 => exact h4
  | n + 5 => omega

end MplLayout
