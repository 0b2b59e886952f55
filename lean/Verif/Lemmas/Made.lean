import Verif.Lemmas.LayoutRefs

/-! Primitives made by the constructors are well shaped. -/

namespace MplLayout

variable {K : Type} {parts : List (Str × PrimType)}

/-- A tree that is well shaped. -/
def Prim.SW (parts : List (Str × PrimType)) (p : Prim K) : Prop := p.WF ∧ p.Shaped parts

theorem shaped_mk {t : PrimType} {v : PVal K} {cs : List (Str × Prim K)}
    (hnd : (cs.map (·.1)).Nodup) (hc : ∀ kc ∈ cs, Prim.SW parts kc.2)
    (h1 : t = .line → ∀ k ∈ [k!"Point0", k!"Point1"], ∃ q, (k, q) ∈ cs ∧ q.ty.IsA .point)
    (h2 : t = .quadrilateral → ∀ k ∈ [k!"Line0", k!"Line1", k!"Line2", k!"Line3"],
      ∃ q, (k, q) ∈ cs ∧ q.ty.IsA .line)
    (h3 : t = .axes → ∀ kt ∈ parts, '/' ∉ kt.1 ∧ ∃ q, (kt.1, q) ∈ cs ∧ q.ty.IsA kt.2) :
    Prim.SW parts (.mk t v cs) := by
  have isa : ∀ u, t.IsA u → u = .line ∨ u = .quadrilateral ∨ u = .axes → t = u := by
    intro u h hu
    have := (PrimType.sub_iff t u).mpr h
    rcases hu with rfl | rfl | rfl <;> revert this <;> cases t <;> decide
  have child : ∀ k u, '/' ∉ k → (∃ q, (k, q) ∈ cs ∧ q.ty.IsA u) →
      Prim.HasChild (.mk t v cs : Prim K) k u := by
    rintro k u hk ⟨q, hq, hu⟩
    refine ⟨q, ?_, hu⟩
    rw [Node.getChild_ok_iff, splitAll_noslash hk]
    simp only [Node.find, Node.children_mk, dictGet_of_mem hnd hq]
  refine ⟨?_, ?_⟩
  · rw [Node.WF_mk]; exact ⟨hnd, fun k c hm => (hc (k, c) hm).1⟩
  · intro path n hn
    generalize hN : (Node.mk t v cs : Prim K) = N at hn
    cases hn with
    | here =>
      subst hN
      refine ⟨fun hl k hk => child k _ ?_ (h1 (isa _ hl (by simp)) k hk),
        fun hq k hk => child k _ ?_ (h2 (isa _ hq (by simp)) k hk),
        fun ha kt hkt => child kt.1 _ (h3 (isa _ ha (by simp)) kt hkt).1
          (h3 (isa _ ha (by simp)) kt hkt).2⟩
      · simp only [List.mem_cons, List.not_mem_nil, or_false] at hk
        rcases hk with rfl | rfl <;> decide
      · simp only [List.mem_cons, List.not_mem_nil, or_false] at hk
        rcases hk with rfl | rfl | rfl | rfl <;> decide
    | @down _ c _ k p hm hrest =>
      subst hN
      exact (hc (k, c) hm).2 p n hrest

variable [PyNum K]

theorem sw_point {v : PVal K} : Prim.SW parts (.mk .point v []) :=
  shaped_mk (by simp) (by simp) (by rintro ⟨⟩) (by rintro ⟨⟩) (by rintro ⟨⟩)

theorem sw_newPoint {v : Option (PVal K)} {n n' : Nat} {q : Prim K}
    (h : newPoint v n = .ok (q, n')) : Prim.SW parts q ∧ q.ty = .point := by
  simp only [newPoint, bind_ok, liftPy_ok, primInit_ok List.nodup_nil, List.zip_nil_left] at h
  obtain ⟨_, _, _, ⟨_, _, rfl⟩, _⟩ := h
  exact ⟨sw_point, rfl⟩

theorem sw_line {v : PVal K} {a b : Prim K} (ha : Prim.SW parts a) (hb : Prim.SW parts b)
    (ta : a.ty.IsA .point) (tb : b.ty.IsA .point) : Prim.SW parts (mkLine v a b) := by
  refine shaped_mk (show [k!"Point0", k!"Point1"].Nodup by decide) ?_ ?_ (by rintro ⟨⟩)
    (by rintro ⟨⟩)
  · intro kc hkc
    simp only [List.mem_cons, List.not_mem_nil, or_false] at hkc
    rcases hkc with rfl | rfl
    · exact ha
    · exact hb
  · intro _ k hk
    simp only [List.mem_cons, List.not_mem_nil, or_false] at hk
    rcases hk with rfl | rfl
    · exact ⟨a, by simp, ta⟩
    · exact ⟨b, by simp, tb⟩

theorem sw_newLine {v : Option (PVal K)} {ps : Option (List (Prim K))} {n n' : Nat} {q : Prim K}
    (hp : ∀ l, ps = some l → ∀ p ∈ l, Prim.SW parts p) (h : newLine v ps n = .ok (q, n')) :
    Prim.SW parts q := by
  have key : ∃ w l m m', (∀ p ∈ l, Prim.SW parts p) ∧
      liftPy (primInit .line w [k!"Point0", k!"Point1"] l) m = .ok (q, m') := by
    cases ps with
    | some l' =>
      simp only [newLine, bind_ok, pure_ok] at h
      obtain ⟨w, m, _, l, m', ⟨rfl, rfl⟩, h⟩ := h
      exact ⟨w, _, _, _, hp _ rfl, h⟩
    | none =>
      simp only [newLine, bind_ok, pure_ok] at h
      obtain ⟨w, m, _, _, _, _, p0, _, h0, _, _, _, p1, _, h1, _, _, ⟨rfl, rfl⟩, h⟩ := h
      refine ⟨w, _, _, _, ?_, h⟩
      intro p hm
      simp only [List.mem_cons, List.not_mem_nil, or_false] at hm
      rcases hm with rfl | rfl
      · exact (sw_newPoint h0).1
      · exact (sw_newPoint h1).1
  obtain ⟨w, l, m, m', hsw, h⟩ := key
  simp only [liftPy_ok, primInit_ok (show [k!"Point0", k!"Point1"].Nodup by decide)] at h
  obtain ⟨⟨_, hacc, rfl⟩, _⟩ := h
  obtain ⟨a, b, he, h1, h2⟩ := hacc
  match l, he with
  | x :: y :: r, he =>
    simp only [List.zip_cons_cons, List.zip_nil_left, List.map_cons, List.map_nil, List.cons.injEq,
      and_true] at he
    obtain ⟨rfl, rfl⟩ := he
    exact sw_line (v := w) (hsw x (by simp)) (hsw y (by simp)) h1 h2
  | [x], he => simp at he
  | [], he => simp at he

theorem sw_newPoints {xs : List (K × K)} {n n' : Nat} {ps : List (Prim K)}
    (h : newPoints xs n = .ok (ps, n')) : ∀ p ∈ ps, Prim.SW parts p := by
  induction xs generalizing n n' ps with
  | nil => simp only [newPoints, pure_ok] at h; rw [h.1]; simp
  | cons xy xs ih =>
    obtain ⟨x, y⟩ := xy
    simp only [newPoints, bind_ok, pure_ok] at h
    obtain ⟨_, _, _, p, _, hp, qs, _, hq, rfl, _⟩ := h
    intro r hr
    rcases List.mem_cons.mp hr with rfl | hr
    · exact (sw_newPoint hp).1
    · exact ih hq r hr

theorem sw_loopLines {pts : List (Prim K)} (hp : ∀ p ∈ pts, Prim.SW parts p ∧ p.ty.IsA .point)
    (n : Nat) : ∀ q ∈ loopLines pts n, Prim.SW parts q ∧ q.ty = .line := by
  intro q hq
  obtain ⟨i, hi, rfl⟩ := List.getElem_of_mem hq
  rw [loopLines_length] at hi
  rw [loopLines_getElem pts n i hi]
  have h1 := hp pts[i] (List.getElem_mem _)
  have h2 := hp (pts[(i + 1) % pts.length]'(Nat.mod_lt _ (by omega))) (List.getElem_mem _)
  exact ⟨sw_line h1.1 h2.1 h1.2 h2.2, rfl⟩

theorem sw_loop {t : PrimType} (ht : t = .polygon ∨ t = .quadrilateral) {v : PVal K}
    {pts : List (Prim K)} (hp : ∀ p ∈ pts, Prim.SW parts p ∧ p.ty.IsA .point) (n : Nat)
    (hl : t = .quadrilateral → pts.length = 4) :
    Prim.SW parts (.mk t v (((List.range pts.length).map lineKey).zip (loopLines pts n))) := by
  have hlines := sw_loopLines hp n
  have hmem : ∀ kc ∈ ((List.range pts.length).map lineKey).zip (loopLines pts n),
      kc.2 ∈ loopLines pts n := fun kc h => (List.of_mem_zip (a := kc.1) (b := kc.2) h).2
  refine shaped_mk ?_ (fun kc h => (hlines _ (hmem kc h)).1) ?_ ?_ ?_
  · rw [List.map_fst_zip (by simp [loopLines_length])]; exact lineKeys_nodup _
  · rintro rfl; rcases ht with h | h <;> cases h
  · intro hq k hk
    have h4 := hl hq
    have : ∃ i, i < 4 ∧ k = lineKey i := by
      simp only [List.mem_cons, List.not_mem_nil, or_false] at hk
      rcases hk with rfl | rfl | rfl | rfl
      · exact ⟨0, by omega, rfl⟩
      · exact ⟨1, by omega, rfl⟩
      · exact ⟨2, by omega, rfl⟩
      · exact ⟨3, by omega, rfl⟩
    obtain ⟨i, hi, rfl⟩ := this
    have hi' : i < (loopLines pts n).length := by rw [loopLines_length]; omega
    refine ⟨(loopLines pts n)[i], ?_, ?_⟩
    · rw [List.mem_iff_getElem]
      exact ⟨i, by simp [loopLines_length]; omega, by simp⟩
    · rw [(hlines _ (List.getElem_mem hi')).2]; exact .refl _
  · rintro rfl; rcases ht with h | h <;> cases h

theorem sw_newPolygon {v : Option (PVal K)} {ps : Option (List (Prim K))} {size n n' : Nat}
    {q : Prim K} (hp : ∀ l, ps = some l → ∀ p ∈ l, Prim.SW parts p)
    (h : newPolygon v ps size n = .ok (q, n')) : Prim.SW parts q := by
  have key : ∃ w l m m', (∀ p ∈ l, Prim.SW parts p) ∧
      (do let (keys, lines) ← polygonChildren l
          liftPy (primInit .polygon w keys lines) : Alloc (Prim K)) m = .ok (q, m') := by
    cases ps with
    | some l' =>
      simp only [newPolygon] at h
      obtain ⟨w, m, _, h⟩ := bind_ok.mp h
      obtain ⟨l, m', hl, h⟩ := bind_ok.mp h
      rw [(pure_ok.mp hl).1] at h
      exact ⟨w, _, _, _, hp _ rfl, h⟩
    | none =>
      simp only [newPolygon] at h
      obtain ⟨w, m, _, h⟩ := bind_ok.mp h
      obtain ⟨l, m', hl, h⟩ := bind_ok.mp h
      refine ⟨w, _, _, _, ?_, h⟩
      simp only [polygonDefault] at hl
      split at hl
      · simp [liftPy] at hl
      · exact sw_newPoints hl
  obtain ⟨w, l, m, m', hsw, h⟩ := key
  obtain ⟨r, m'', hr, h⟩ := bind_ok.mp h
  obtain ⟨hpt, rfl, _⟩ := polygonChildren_ok.mp hr
  simp only [liftPy_ok, primInit_ok (lineKeys_nodup _)] at h
  obtain ⟨⟨_, _, rfl⟩, _⟩ := h
  exact sw_loop (.inl rfl) (fun p hpm => ⟨hsw p hpm, hpt p hpm⟩) _ (by rintro ⟨⟩)

theorem sw_newQuad {v : Option (PVal K)} {ps : Option (List (Prim K))} {n n' : Nat}
    {q : Prim K} (hp : ∀ l, ps = some l → ∀ p ∈ l, Prim.SW parts p)
    (h : newQuadrilateral v ps n = .ok (q, n')) : Prim.SW parts q ∧ q.ty = .quadrilateral := by
  have key : ∃ w l m m', (∀ p ∈ l, Prim.SW parts p) ∧
      (do let (keys, lines) ← polygonChildren l
          liftPy (primInit .quadrilateral w keys lines) : Alloc (Prim K)) m = .ok (q, m') := by
    cases ps with
    | some l' =>
      simp only [newQuadrilateral] at h
      obtain ⟨w, m, _, h⟩ := bind_ok.mp h
      obtain ⟨l, m', hl, h⟩ := bind_ok.mp h
      rw [(pure_ok.mp hl).1] at h
      exact ⟨w, _, _, _, hp _ rfl, h⟩
    | none =>
      simp only [newQuadrilateral] at h
      obtain ⟨w, m, _, h⟩ := bind_ok.mp h
      obtain ⟨l, m', hl, h⟩ := bind_ok.mp h
      exact ⟨w, _, _, _, sw_newPoints hl, h⟩
  obtain ⟨w, l, m, m', hsw, h⟩ := key
  obtain ⟨r, m'', hr, h⟩ := bind_ok.mp h
  obtain ⟨hpt, rfl, _⟩ := polygonChildren_ok.mp hr
  simp only [liftPy_ok, primInit_ok (lineKeys_nodup _)] at h
  obtain ⟨⟨_, hacc, rfl⟩, _⟩ := h
  refine ⟨sw_loop (.inr rfl) (fun p hpm => ⟨hsw p hpm, hpt p hpm⟩) _ ?_, rfl⟩
  intro _
  have := hacc.1
  rw [loop_types] at this
  simpa using this

theorem axesParts_types (x y tx ty : Bool) : ∃ k, (axesParts x y tx ty).map (·.2)
    = .quadrilateral :: (List.replicate k [PrimType.quadrilateral, .point]).flatten := by
  cases x <;> cases y <;> cases tx <;> cases ty <;>
    first
    | exact ⟨0, rfl⟩
    | exact ⟨1, rfl⟩
    | exact ⟨2, rfl⟩
    | exact ⟨3, rfl⟩
    | exact ⟨4, rfl⟩

theorem axesKeys_nodup' (x y tx ty : Bool) : (axesKeys x y tx ty).Nodup := by
  cases x <;> cases y <;> cases tx <;> cases ty <;> decide

theorem axesParts_noslash (x y tx ty : Bool) : ∀ kt ∈ axesParts x y tx ty, '/' ∉ kt.1 := by
  cases x <;> cases y <;> cases tx <;> cases ty <;> decide

theorem sw_axisPrims {b : Bool} {n n' : Nat} {ps : List (Prim K)}
    (h : axisPrims b n = .ok (ps, n')) : (∀ p ∈ ps, Prim.SW parts p) ∧
      ps.length = if b then 2 else 0 := by
  cases b with
  | false => simp only [axisPrims, Bool.false_eq_true, if_false, pure_ok] at h; rw [h.1]; simp
  | true =>
    simp only [axisPrims, if_true, bind_ok, pure_ok] at h
    obtain ⟨q, _, hq, p, _, hp, rfl, _⟩ := h
    refine ⟨?_, rfl⟩
    intro r hr
    simp only [List.mem_cons, List.not_mem_nil, or_false] at hr
    rcases hr with rfl | rfl
    · exact (sw_newQuad (by rintro l ⟨⟩) hq).1
    · exact (sw_newPoint hp).1

theorem sw_axesDefault {x y tx ty : Bool} {n n' : Nat} {ps : List (Prim K)}
    (h : axesDefault x y tx ty n = .ok (ps, n')) : (∀ p ∈ ps, Prim.SW parts p) ∧
      ps.length = (axesKeys x y tx ty).length := by
  simp only [axesDefault, bind_ok, pure_ok] at h
  obtain ⟨a, _, ha, b, _, hb, c, _, hc, d, _, hd, f, _, hf, rfl, _⟩ := h
  obtain ⟨a1, a2⟩ := sw_axisPrims (parts := parts) ha
  obtain ⟨b1, b2⟩ := sw_axisPrims (parts := parts) hb
  obtain ⟨c1, c2⟩ := sw_axisPrims (parts := parts) hc
  obtain ⟨d1, d2⟩ := sw_axisPrims (parts := parts) hd
  constructor
  · intro p hp
    simp only [List.mem_append, List.mem_cons, List.not_mem_nil, or_false] at hp
    rcases hp with ((rfl | (hp | hp)) | (hp | hp))
    · exact (sw_newQuad (by rintro l ⟨⟩) hf).1
    · exact a1 p hp
    · exact c1 p hp
    · exact b1 p hp
    · exact d1 p hp
  · simp only [List.length_append, List.length_cons, List.length_nil, a2, b2, c2, d2]
    cases x <;> cases y <;> cases tx <;> cases ty <;> rfl

theorem flat_pairs_length (k : Nat) :
    (List.replicate k [PrimType.quadrilateral, .point]).flatten.length = 2 * k := by
  induction k with
  | zero => rfl
  | succ k ih => simp [List.replicate_succ]; omega

theorem sw_newAxes {v : Option (PVal K)} {ps : Option (List (Prim K))} {x y tx ty : Bool} {n n' : Nat}
    {q : Prim K} (hp : ∀ l, ps = some l → ∀ p ∈ l, Prim.SW parts p)
    (hl : ∀ l, ps = some l → l.length = (axesKeys x y tx ty).length)
    (hparts : parts ⊆ axesParts x y tx ty)
    (h : newAxes v ps x y tx ty n = .ok (q, n')) : Prim.SW parts q := by
  have key : ∃ w l m m', ((∀ p ∈ l, Prim.SW parts p) ∧ l.length = (axesKeys x y tx ty).length) ∧
      liftPy (primInit .axes w (axesKeys x y tx ty) l) m = .ok (q, m') := by
    cases ps with
    | some l' =>
      simp only [newAxes] at h
      obtain ⟨w, m, _, h⟩ := bind_ok.mp h
      obtain ⟨l, m', hl', h⟩ := bind_ok.mp h
      rw [(pure_ok.mp hl').1] at h
      exact ⟨w, _, _, _, ⟨hp _ rfl, hl _ rfl⟩, h⟩
    | none =>
      simp only [newAxes] at h
      obtain ⟨w, m, _, h⟩ := bind_ok.mp h
      obtain ⟨l, m', hl', h⟩ := bind_ok.mp h
      exact ⟨w, _, _, _, sw_axesDefault hl', h⟩
  obtain ⟨w, l, m, m', ⟨hsw, hlen⟩, h⟩ := key
  simp only [liftPy_ok, primInit_ok (axesKeys_nodup' x y tx ty)] at h
  obtain ⟨⟨_, hacc, rfl⟩, _⟩ := h
  obtain ⟨k, _, hk⟩ := hacc
  obtain ⟨k', hk'⟩ := axesParts_types x y tx ty
  have hkk : k = k' := by
    have e1 := hk.length_eq
    have e2 := congrArg List.length hk'
    simp only [List.length_map, List.length_zip, List.length_cons, flat_pairs_length, axesParts,
      hlen] at e1 e2
    omega
  subst hkk
  rw [← hk'] at hk
  refine shaped_mk ?_ ?_ (by rintro ⟨⟩) (by rintro ⟨⟩) ?_
  · rw [List.map_fst_zip (by rw [hlen])]; exact axesKeys_nodup' x y tx ty
  · intro kc hkc
    exact hsw _ (List.of_mem_zip (a := kc.1) (b := kc.2) hkc).2
  · intro _ kt hkt
    have hm := hparts hkt
    refine ⟨axesParts_noslash x y tx ty kt hm, ?_⟩
    obtain ⟨i, hi, e⟩ := List.getElem_of_mem hm
    have hi1 : i < (axesKeys x y tx ty).length := by simpa [axesParts] using hi
    have hi2 : i < l.length := by omega
    rw [List.forall₂_iff_get] at hk
    have := hk.2 i (by simp; omega) (by simpa using hi)
    simp only [List.get_eq_getElem, List.getElem_map, List.getElem_zip, e] at this
    refine ⟨l[i], ?_, this⟩
    have ek : kt.1 = (axesKeys x y tx ty)[i] := by
      rw [← e]; simp [axesParts]
    rw [ek, List.mem_iff_getElem]
    exact ⟨i, by simp; omega, by simp⟩

/-- Primitives made by the constructors are trees and well shaped. -/
theorem Prim.Made.sw {p : Prim K} (h : p.Made parts) : Prim.SW parts p := by
  induction h with
  | point h => exact (sw_newPoint h).1
  | line _ h ih => exact sw_newLine ih h
  | polygon _ h ih => exact sw_newPolygon ih h
  | quadrilateral _ h ih => exact (sw_newQuad ih h).1
  | axes _ hl hparts h ih => exact sw_newAxes ih hl hparts h

end MplLayout
