import Verif.Props.Geometry2

/-!
# C37, C38, C46: grids of boxes
-/

namespace MplLayout.Props

open Flt Cons

/-- `prims` are `R * C` rectangles, row after row; the one in row `r` and column `c` is
`rect r c`. -/
structure IsGrid (prims : List (Prim Flt)) (R C : Nat) (rect : Nat → Nat → Rect) : Prop where
  len : prims.length = R * C
  at' : ∀ r c, r < R → c < C → ∃ q, prims[r * C + c]? = some q ∧ IsRect q (rect r c)

/-- The rectangle has a nonzero width and height. -/
def _root_.MplLayout.Rect.Proper (r : Rect) : Prop := r.x0 ≠ r.x1 ∧ r.y0 ≠ r.y1

/-- All boxes in a row share bottom and top, all boxes in a column share left and right. -/
def GridAligned (R C : Nat) (rect : Nat → Nat → Rect) : Prop :=
  (∀ r c c', r < R → c < C → c' < C →
    (rect r c).y0 = (rect r c').y0 ∧ (rect r c).y1 = (rect r c').y1) ∧
  (∀ c r r', c < C → r < R → r' < R →
    (rect r c).x0 = (rect r' c).x0 ∧ (rect r c).x1 = (rect r' c).x1)

variable {q q' : Prim Flt} {s s' : Rect}

theorem evS_collinear_h {l l' : Prim Flt} {x x' y u u' w : ℝ} (h : IsLine l (x, y) (x', y))
    (h' : IsLine l' (u, w) (u', w)) (hne : x ≠ x') :
    EvS ct.collinear [l, l'] [] (y = w) := by
  refine .of (ev_collinear h h') ?_
  have : x' - x ≠ 0 := sub_ne_zero.mpr hne.symm
  simp [this, sub_eq_zero]

theorem evS_collinear_v {l l' : Prim Flt} {x y y' u w w' : ℝ} (h : IsLine l (x, y) (x, y'))
    (h' : IsLine l' (u, w) (u, w')) (hne : y ≠ y') :
    EvS ct.collinear [l, l'] [] (x = u) := by
  refine .of (ev_collinear h h') ?_
  have : y' - y ≠ 0 := sub_ne_zero.mpr hne.symm
  simp [this, sub_eq_zero]

theorem evS_two {cls : ConsClass Flt} {k1 k2 : Str} {c1 c2 : Cons Flt} {ks1 ks2 : List Str}
    {prims cps1 cps2 : List (Prim Flt)} {sig : ConsSig} {P1 P2 : Prop} (hne : k1 ≠ k2)
    (hown : cls.assem prims [] = .ok (.vec []))
    (hacc : List.Forall₂ (fun (p : Prim Flt) t => p.ty.IsA t) prims sig.primTypes)
    (hpar : sig.paramTypes = [])
    (h1 : pyMap (resolve prims) ks1 = .ok cps1) (h2 : pyMap (resolve prims) ks2 = .ok cps2)
    (e1 : EvS c1 cps1 [] P1) (e2 : EvS c2 cps2 [] P2) :
    EvS (.mk cls ⟨[ks1, ks2], fun _ => .ok [[], []], sig⟩ [(k1, c1), (k2, c2)]) prims []
      (P1 ∧ P2) := by
  have := EvS.compound (P := fun i => if i = 0 then P1 else P2) (cls := cls) (kss := [ks1, ks2])
    (cp := fun _ => .ok [[], []]) (sig := sig) (cs := [(k1, c1), (k2, c2)]) (prims := prims)
    (params := []) (by simp [hne]) hown rfl hacc (by simp [hpar]) rfl (by simp) (by
      intro i kc ks ps a b d
      match i with
      | 0 =>
        simp only [List.getElem?_cons_zero, Option.some.injEq] at a b d
        subst a b d
        exact ⟨_, h1, by simpa using e1⟩
      | 1 =>
        simp only [List.getElem?_cons_succ, List.getElem?_cons_zero, Option.some.injEq] at a b d
        subst a b d
        exact ⟨_, h2, by simpa using e2⟩
      | n + 2 => simp at a)
  refine this.congr ⟨fun h => ⟨by simpa using h 0 (by simp), by simpa using h 1 (by simp)⟩, ?_⟩
  rintro ⟨a, b⟩ i hi
  by_cases h0 : i = 0 <;> simp [h0, a, b]

theorem evS_align_row (h : IsRect q s) (h' : IsRect q' s') (hp : s.Proper) :
    EvS (alignT true) [q, q'] [] (s.y0 = s'.y0 ∧ s.y1 = s'.y1) := by
  obtain ⟨l0, l1, l2, l3, h0, h1, h2, h3, g0, g1, g2, g3⟩ := quad_resolve h [q']
  obtain ⟨m0, m1, m2, m3, i0, i1, i2, i3, j0, j1, j2, j3⟩ := quad_resolve1 (q0 := q) h' []
  exact evS_two (by decide) rfl (.cons h.1 (.cons h'.1 .nil)) rfl (pyMap2 g0 j0) (pyMap2 g2 j2)
    (evS_collinear_h h0 i0 hp.1) (evS_collinear_h h2 i2 hp.1.symm)

theorem evS_align_col (h : IsRect q s) (h' : IsRect q' s') (hp : s.Proper) :
    EvS (alignT false) [q, q'] [] (s.x0 = s'.x0 ∧ s.x1 = s'.x1) := by
  obtain ⟨l0, l1, l2, l3, h0, h1, h2, h3, g0, g1, g2, g3⟩ := quad_resolve h [q']
  obtain ⟨m0, m1, m2, m3, i0, i1, i2, i3, j0, j1, j2, j3⟩ := quad_resolve1 (q0 := q) h' []
  exact evS_two (by decide) rfl (.cons h.1 (.cons h'.1 .nil)) rfl (pyMap2 g3 j3) (pyMap2 g1 j1)
    (evS_collinear_v h3 i3 hp.2.symm) (evS_collinear_v h1 i1 hp.2)

/-- A list of rectangles. -/
structure IsRow (prims : List (Prim Flt)) (n : Nat) (rect : Nat → Rect) : Prop where
  len : prims.length = n
  at' : ∀ i, i < n → ∃ q, prims[i]? = some q ∧ IsRect q (rect i)

theorem IsRow.quads {prims : List (Prim Flt)} {n : Nat} {rect : Nat → Rect}
    (h : IsRow prims n rect) : ∀ p ∈ prims, p.ty.IsA .quadrilateral := by
  intro p hp
  obtain ⟨i, hi, rfl⟩ := List.getElem_of_mem hp
  obtain ⟨q, hq, hr⟩ := h.at' i (h.len ▸ hi)
  rw [List.getElem?_eq_getElem hi] at hq
  cases hq
  exact hr.1

theorem evS_alignMap {row : Bool} {Q : Rect → Rect → Prop}
    (hal : ∀ {q q' : Prim Flt} {s s' : Rect}, IsRect q s → IsRect q' s' → s.Proper →
      EvS (alignT row) [q, q'] [] (Q s s'))
    {prims : List (Prim Flt)} {n : Nat} {rect : Nat → Rect} (h : IsRow prims (n + 1) rect)
    (hp : ∀ i, i < n + 1 → (rect i).Proper) :
    EvS (mapCons (alignT row) (n + 1)) prims [] (∀ i, i < n → Q (rect i) (rect n)) := by
  have ht : (alignT (K := Flt) row).value.sig.primTypes = [.quadrilateral, .quadrilateral] := by
    cases row <;> rfl
  have hpt : (alignT (K := Flt) row).value.sig.paramTypes = [] := by cases row <;> rfl
  refine EvS.map2 ht h.len h.quads (by simp [hpt]) ?_
  intro i p p' hi hp1 hp2
  obtain ⟨a, ha, ha'⟩ := h.at' i (by omega)
  obtain ⟨b, hb, hb'⟩ := h.at' n (by omega)
  rw [hp1] at ha
  rw [hp2] at hb
  cases ha; cases hb
  simpa using hal ha' hb' (hp i (by omega))

/-- The arguments that the keys of a row or column of a grid name. -/
theorem pyMap_keys {prims : List (Prim Flt)} {n : Nat} {f : Nat → Nat} {rect : Nat → Rect}
    (h : ∀ i, i < n → ∃ q, prims[f i]? = some q ∧ IsRect q (rect i)) :
    ∃ cps, pyMap (resolve prims) ((List.range n).map fun i => ct.argKey (f i)) = .ok cps ∧
      IsRow cps n rect := by
  have : ∀ i : Fin n, ∃ q, prims[f i]? = some q ∧ IsRect q (rect i) := fun i => h i i.2
  choose g hg hr using this
  refine ⟨List.ofFn g, ?_, by simp, ?_⟩
  · rw [pyMap_ok, List.forall₂_iff_get]
    refine ⟨by simp, ?_⟩
    intro i h1 h2
    simp only [List.get_eq_getElem, List.getElem_map, List.getElem_range, List.getElem_ofFn]
    exact resolve_argKey_ok.mpr (hg ⟨i, by simpa using h2⟩)
  · intro i hi
    exact ⟨g ⟨i, hi⟩, by simp [hi], hr ⟨i, hi⟩⟩

theorem IsGrid.quads {prims : List (Prim Flt)} {R C : Nat} {rect : Nat → Nat → Rect}
    (h : IsGrid prims R C rect) : ∀ p ∈ prims, p.ty.IsA .quadrilateral := by
  intro p hp
  obtain ⟨i, hi, rfl⟩ := List.getElem_of_mem hp
  have hi' : i < R * C := h.len ▸ hi
  have hC : 0 < C := by
    rcases Nat.eq_zero_or_pos C with h0 | h0
    · subst h0; simp at hi'
    · exact h0
  obtain ⟨q, hq, hr⟩ := h.at' (i / C) (i % C)
    (Nat.div_lt_of_lt_mul (by rwa [Nat.mul_comm] at hi')) (Nat.mod_lt _ hC)
  rw [Nat.div_add_mod', List.getElem?_eq_getElem hi] at hq
  cases hq
  exact hr.1

theorem evS_rectGrid {prims : List (Prim Flt)} {R C : Nat} {rect : Nat → Nat → Rect}
    (h : IsGrid prims (R + 1) (C + 1) rect)
    (hp : ∀ r c, r < R + 1 → c < C + 1 → (rect r c).Proper) :
    EvS (rectGridT (R + 1) (C + 1)) prims [] (GridAligned (R + 1) (C + 1) rect) := by
  have key := EvS.compound
    (P := fun i => if i < R + 1 then
        ∀ c, c < C → (rect i c).y0 = (rect i C).y0 ∧ (rect i c).y1 = (rect i C).y1
      else ∀ r, r < R → (rect r (i - (R + 1))).x0 = (rect R (i - (R + 1))).x0 ∧
        (rect r (i - (R + 1))).x1 = (rect R (i - (R + 1))).x1)
    (cls := { name := k!"RectilinearGrid", assem := compoundAssem 0 })
    (kss := (List.range (R + 1)).map (fun r => (List.range (C + 1)).map fun c =>
        ct.argKey (gidx (R + 1) (C + 1) r c)) ++
      (List.range (C + 1)).map (fun c => (List.range (R + 1)).map fun r =>
        ct.argKey (gidx (R + 1) (C + 1) r c)))
    (cp := fun _ => .ok (List.replicate (4 * (R + 1) * (C + 1)) []))
    (sig := ⟨List.replicate ((R + 1) * (C + 1)) .quadrilateral, [], 0⟩)
    (cs := (rectGridKeys (R + 1) (C + 1)).zip
      (List.replicate (R + 1) (mapCons (alignT true) (C + 1)) ++
      List.replicate (C + 1) (mapCons (alignT false) (R + 1))))
    (prims := prims) (params := []) ?_ rfl rfl (forall₂_replicate h.len h.quads) rfl ?_ ?_ ?_
  · refine key.congr ?_
    have hlen : ((rectGridKeys (R + 1) (C + 1)).zip
      (List.replicate (R + 1) (mapCons (alignT (K := Flt) true) (C + 1)) ++
      List.replicate (C + 1) (mapCons (alignT false) (R + 1)))).length = (R + 1) + (C + 1) := by
      simp [rectGridKeys]
    rw [hlen]
    constructor
    · intro hh
      constructor
      · intro r c c' hr hc hc'
        have h1 := hh r (by omega)
        rw [if_pos hr] at h1
        have h2 : ∀ c, c < C + 1 → (rect r c).y0 = (rect r C).y0 ∧ (rect r c).y1 = (rect r C).y1 := by
          intro c hc
          rcases Nat.lt_succ_iff_lt_or_eq.mp hc with h3 | rfl
          · exact h1 c h3
          · exact ⟨rfl, rfl⟩
        exact ⟨(h2 c hc).1.trans (h2 c' hc').1.symm, (h2 c hc).2.trans (h2 c' hc').2.symm⟩
      · intro c r r' hc hr hr'
        have h1 := hh ((R + 1) + c) (by omega)
        rw [if_neg (by omega), Nat.add_sub_cancel_left] at h1
        have h2 : ∀ r, r < R + 1 → (rect r c).x0 = (rect R c).x0 ∧ (rect r c).x1 = (rect R c).x1 := by
          intro r hr
          rcases Nat.lt_succ_iff_lt_or_eq.mp hr with h3 | rfl
          · exact h1 r h3
          · exact ⟨rfl, rfl⟩
        exact ⟨(h2 r hr).1.trans (h2 r' hr').1.symm, (h2 r hr).2.trans (h2 r' hr').2.symm⟩
    · rintro ⟨h1, h2⟩ i hi
      split
      · next hi => exact fun c hc => h1 i c C hi (by omega) (by omega)
      · next hi' => exact fun r hr => h2 _ r R (by omega) (by omega) (by omega)
  · rw [List.map_fst_zip (by simp [rectGridKeys])]
    exact rectGridKeys_nodup _ _
  · simp [rectGridKeys]
  · simp only [List.length_zip, rectGridKeys, List.length_append, List.length_map,
      List.length_range, List.length_replicate, Nat.min_self]
    nlinarith
  · intro i kc ks ps a b d
    have hps : ps = [] := List.eq_of_mem_replicate (List.mem_of_getElem? d)
    subst hps
    obtain ⟨k, c⟩ := kc
    have a2 := (List.getElem?_zip_eq_some.mp a).2
    simp only [gidx_eq] at b
    by_cases hi : i < R + 1
    · rw [List.getElem?_append_left (by simpa using hi)] at a2 b
      simp only [List.getElem?_map, List.getElem?_range hi, Option.map_some, Option.some.injEq]
        at b
      have hc := List.eq_of_mem_replicate (List.mem_of_getElem? a2)
      subst hc b
      obtain ⟨cps, h1, h2⟩ := pyMap_keys (prims := prims) (n := C + 1)
        (f := fun c => i * (C + 1) + c) (rect := fun c => rect i c)
        (fun c hc => h.at' i c hi hc)
      refine ⟨cps, h1, ?_⟩
      rw [if_pos hi]
      exact evS_alignMap (Q := fun s s' => s.y0 = s'.y0 ∧ s.y1 = s'.y1) evS_align_row h2
        (fun c hc => hp i c hi hc)
    · rw [List.getElem?_append_right (by simpa using hi)] at a2 b
      simp only [List.length_replicate, List.length_map, List.length_range] at a2 b
      have hlt : i - (R + 1) < C + 1 := by
        have := (List.getElem?_eq_some_iff.mp a2).1
        simpa using this
      simp only [List.getElem?_map, List.getElem?_range hlt, Option.map_some, Option.some.injEq]
        at b
      have hc := List.eq_of_mem_replicate (List.mem_of_getElem? a2)
      subst hc b
      obtain ⟨cps, h1, h2⟩ := pyMap_keys (prims := prims) (n := R + 1)
        (f := fun r => r * (C + 1) + (i - (R + 1))) (rect := fun r => rect r (i - (R + 1)))
        (fun r hr => h.at' r _ hr hlt)
      refine ⟨cps, h1, ?_⟩
      rw [if_neg hi]
      exact evS_alignMap (Q := fun s s' => s.x0 = s'.x0 ∧ s.x1 = s'.x1) evS_align_col h2
        (fun r hr => hp r _ hr hlt)

/-- C37: for every grid shape, `RectilinearGrid` is satisfied by boxes of nonzero size exactly if
all boxes in a row share bottom and top and all boxes in a column share left and right. -/
theorem C37_rectilinearGrid {prims : List (Prim Flt)} {R C : Nat} {rect : Nat → Nat → Rect}
    (hR : 0 < R) (hC : 0 < C) (h : IsGrid prims R C rect)
    (hp : ∀ r c, r < R → c < C → (rect r c).Proper) :
    SatisfiedPy (ct.rectilinearGrid R C) prims [] ↔ GridAligned R C rect := by
  obtain ⟨R, rfl⟩ : ∃ n, R = n + 1 := ⟨R - 1, by omega⟩
  obtain ⟨C, rfl⟩ : ∃ n, C = n + 1 := ⟨C - 1, by omega⟩
  exact (evS_rectGrid h hp).satisfied (rectilinearGrid_eq _ _)

/-! ## C38 -/

/-- The grid is aligned; the other columns are `ws` times as wide as the first, the other rows
`hs` times as high as the first; the gaps between columns, from left to right, are `ms`, the gaps
between rows, from top to bottom, are `ns`. -/
def GridLaidOut (R C : Nat) (rect : Nat → Nat → Rect) (ws hs ms ns : Nat → ℝ) : Prop :=
  GridAligned R C rect ∧
  (∀ c, c + 1 < C → |(rect 0 (c + 1)).x1 - (rect 0 (c + 1)).x0|
    = ws c * |(rect 0 0).x1 - (rect 0 0).x0|) ∧
  (∀ r, r + 1 < R → |(rect (r + 1) 0).y1 - (rect (r + 1) 0).y0|
    = hs r * |(rect 0 0).y1 - (rect 0 0).y0|) ∧
  (∀ c, c + 1 < C → (rect 0 (c + 1)).x0 - (rect 0 c).x1 = ms c) ∧
  (∀ r, r + 1 < R → (rect r 0).y0 - (rect (r + 1) 0).y1 = ns r)

/-- An array parameter with the entries `xs 0`, ..., `xs (n - 1)`. -/
noncomputable def arrOf (n : Nat) (xs : Nat → ℝ) : Param Flt :=
  .arr ((List.range n).map fun i => fin (xs i))

theorem take_drop_one {α : Type} {xs : List α} {i : Nat} {x : α} (h : xs[i]? = some x) :
    (xs.drop (i * 1)).take 1 = [x] := by
  rw [Nat.mul_one]
  obtain ⟨hi, rfl⟩ := List.getElem?_eq_some_iff.mp h
  rw [List.drop_eq_getElem_cons hi]
  rfl

theorem evS_relLenMap {lines : List (Prim Flt)} {n : Nat} {a b : Nat → ℝ × ℝ}
    (hl : lines.length = n + 1)
    (h : ∀ i, i < n + 1 → ∃ l, lines[i]? = some l ∧ IsLine l (a i) (b i)) (ws : Nat → ℝ) :
    EvS (mapCons relLenT (n + 1)) lines ((List.range n).map fun i => .num (fin (ws i)))
      (∀ i, i < n → dist2 (a i) (b i) = ws i * dist2 (a n) (b n)) := by
  have hpt : (relLenT (K := Flt)).value.sig.paramTypes.length = 1 := rfl
  refine EvS.map2 (c := relLenT) (t := .line) rfl hl ?_ (by simp [hpt]) ?_
  · intro p hp
    obtain ⟨i, hi, rfl⟩ := List.getElem_of_mem hp
    obtain ⟨q, hq, hr⟩ := h i (hl ▸ hi)
    rw [List.getElem?_eq_getElem hi] at hq
    cases hq
    exact hr.1
  · intro i p q hi h1 h2
    obtain ⟨l, hl1, hl2⟩ := h i (by omega)
    obtain ⟨m, hm1, hm2⟩ := h n (by omega)
    rw [h1] at hl1
    rw [h2] at hm1
    cases hl1; cases hm1
    rw [hpt, take_drop_one (x := .num (fin (ws i))) (by simp [hi])]
    refine .of (ev_relLen hl2 hm2 (ws i)) ?_
    simp [sub_eq_zero]

theorem rot1_range (n : Nat) :
    rot1 (List.range (n + 1)) = (List.range (n + 1)).map fun i => if i < n then i + 1 else 0 := by
  apply List.ext_getElem
  · simp [rot1]
  · intro i h1 h2
    simp only [rot1, List.getElem_map, List.getElem_range]
    have hi : i < n + 1 := by simpa using h2
    by_cases h : i < n
    · rw [List.getElem_append_left (by simpa using h), if_pos h]
      simp [Nat.add_comm]
    · rw [List.getElem_append_right (by simpa using h), if_neg h]
      simp

theorem pyMap_lineKeys {prims : List (Prim Flt)} {n : Nat} {f : Nat → Nat} {a b : Nat → ℝ × ℝ}
    {k : Str}
    (h : ∀ i, i < n → ∃ q l, prims[f i]? = some q ∧ q.getChild k = .ok l ∧ IsLine l (a i) (b i)) :
    ∃ lines, pyMap (resolve prims) ((List.range n).map fun i => ct.argKey (f i) ++ '/' :: k)
        = .ok lines ∧ lines.length = n ∧
      ∀ i, i < n → ∃ l, lines[i]? = some l ∧ IsLine l (a i) (b i) := by
  have : ∀ i : Fin n, ∃ q l, prims[f i]? = some q ∧ q.getChild k = .ok l ∧ IsLine l (a i) (b i) :=
    fun i => h i i.2
  choose q g hq hg hr using this
  refine ⟨List.ofFn g, ?_, by simp, ?_⟩
  · rw [pyMap_ok, List.forall₂_iff_get]
    refine ⟨by simp, ?_⟩
    intro i h1 h2
    simp only [List.get_eq_getElem, List.getElem_map, List.getElem_range, List.getElem_ofFn]
    have := resolve_argKey_path prims (f i) k
    rw [hq ⟨i, by simpa using h2⟩] at this
    exact this.trans (hg _)
  · intro i hi
    exact ⟨g ⟨i, hi⟩, by simp [hi], hr ⟨i, hi⟩⟩

theorem evS_marginArray {prims : List (Prim Flt)} {n : Nat} {rect : Nat → Rect}
    (h : IsRow prims (n + 1) rect) {m : Cons Flt} {gap : Rect → Rect → ℝ}
    (hm : ∀ {q q' : Prim Flt} {s s' : Rect}, IsRect q s → IsRect q' s' → ∀ y : ℝ,
      EvS m [q, q'] [.num (fin y)] (gap s s' = y)) (ms : Nat → ℝ) :
    EvS (marginArrayT m (n + 1)) prims ((List.range n).map fun i => .num (fin (ms i)))
      (∀ i, i < n → gap (rect i) (rect (i + 1)) = ms i) := by
  have key := EvS.compound (P := fun i => gap (rect i) (rect (i + 1)) = ms i)
    (cls := { name := k!"OuterMarginArray", assem := fun _ _ => .ok (.vec []) })
    (kss := (List.range (n + 1 - 1)).map (fun i => [ct.argKey i, ct.argKey (i + 1)]))
    (cp := fun params => .ok (params.map fun p => [p]))
    (sig := ⟨List.replicate (n + 1) .quadrilateral, List.replicate (n + 1 - 1) .float, 0⟩)
    (cs := ((List.range (n + 1)).map fun i => k!"OuterMargin" ++ natStr i).zip
      (List.replicate (n + 1 - 1) m))
    (prims := prims) (params := (List.range n).map fun i => .num (fin (ms i)))
    ?_ rfl rfl (forall₂_replicate h.len h.quads) (by simp) (by simp) (by simp) ?_
  · have hlen : (((List.range (n + 1)).map fun i => k!"OuterMargin" ++ natStr i).zip
      (List.replicate (n + 1 - 1) m)).length = n := by simp
    rw [hlen] at key
    exact key
  · have hz := dictOfZip_keys_nodup ((List.range (n + 1)).map fun i => k!"OuterMargin" ++ natStr i)
      (List.replicate (n + 1 - 1) m)
    rwa [dictOfZip_of_nodup (mapKeys_nodup _ _)] at hz
  · intro i kc ks ps a b d
    obtain ⟨k, c⟩ := kc
    have a2 := (List.getElem?_zip_eq_some.mp a).2
    have hi : i < n := by simpa using (List.getElem?_eq_some_iff.mp a2).1
    have hc := List.eq_of_mem_replicate (List.mem_of_getElem? a2)
    simp only [Nat.add_sub_cancel, List.getElem?_map, List.getElem?_range hi, Option.map_some,
      Option.some.injEq] at b d
    subst hc b d
    obtain ⟨q, hq, hr⟩ := h.at' i (by omega)
    obtain ⟨q', hq', hr'⟩ := h.at' (i + 1) (by omega)
    exact ⟨[q, q'], pyMap2 (resolve_argKey_ok.mpr hq) (resolve_argKey_ok.mpr hq'), hm hr hr' _⟩

theorem evS_marginRight (h : IsRect q s) (h' : IsRect q' s') (y : ℝ) :
    EvS (cstr (marginT true .right)) [q, q'] [.num (fin y)] (s'.x0 - s.x1 = y) := by
  refine .of ((ev_margin h h' true .right).2 y) ?_
  simp [marginVal, sub_eq_zero]

theorem evS_marginBottom (h : IsRect q s) (h' : IsRect q' s') (y : ℝ) :
    EvS (cstr (marginT true .bottom)) [q, q'] [.num (fin y)] (s.y0 - s'.y1 = y) := by
  refine .of ((ev_margin h h' true .bottom).2 y) ?_
  simp [marginVal, sub_eq_zero]

theorem pyMap_all {prims : List (Prim Flt)} {n : Nat} (h : prims.length = n) :
    pyMap (resolve prims) ((List.range n).map ct.argKey) = .ok prims := by
  have := resolve_range (prims := prims) (a := 0) (m := n) (by omega)
  rw [List.drop_zero] at this
  rw [← this]
  congr 1
  refine List.map_congr_left fun i _ => ?_
  rw [Nat.zero_add]; rfl

theorem dist2_h (x x' y : ℝ) : dist2 (x, y) (x', y) = |x' - x| := by
  simp [dist2, Real.sqrt_sq_eq_abs]
theorem dist2_v (x y y' : ℝ) : dist2 (x, y) (x, y') = |y' - y| := by
  simp [dist2, Real.sqrt_sq_eq_abs]

theorem iter_arrOf (n : Nat) (xs : Nat → ℝ) :
    (arrOf n xs).iter = .ok ((List.range n).map fun i => .num (fin (xs i))) := by
  simp [arrOf, Param.iter]

/-- C38: for every grid shape, `Grid` with one entry per further column and row is satisfied by
boxes of nonzero size exactly if the boxes are aligned, the further columns and rows have the given
sizes relative to the first, and consecutive gaps equal the given margins. -/
theorem C38_grid {prims : List (Prim Flt)} {R C : Nat} {rect : Nat → Nat → Rect}
    (hR : 0 < R) (hC : 0 < C) (h : IsGrid prims R C rect)
    (hp : ∀ r c, r < R → c < C → (rect r c).Proper) (ws hs ms ns : Nat → ℝ) :
    SatisfiedPy (ct.grid R C) prims
        [arrOf (C - 1) ws, arrOf (R - 1) hs, arrOf (C - 1) ms, arrOf (R - 1) ns] ↔
      GridLaidOut R C rect ws hs ms ns := by
  obtain ⟨R, rfl⟩ : ∃ n, R = n + 1 := ⟨R - 1, by omega⟩
  obtain ⟨C, rfl⟩ : ∃ n, C = n + 1 := ⟨C - 1, by omega⟩
  simp only [Nat.add_sub_cancel]
  -- the five groups of constraints
  have e1 := evS_rectGrid h hp
  obtain ⟨lw, w1, w2, w3⟩ := pyMap_lineKeys (prims := prims) (n := C + 1)
    (f := fun i => if i < C then i + 1 else 0) (k := k!"Line0")
    (a := fun i => ((rect 0 (if i < C then i + 1 else 0)).x0, (rect 0 (if i < C then i + 1 else 0)).y0))
    (b := fun i => ((rect 0 (if i < C then i + 1 else 0)).x1, (rect 0 (if i < C then i + 1 else 0)).y0))
    (by
      intro i hi
      obtain ⟨q, hq, hr⟩ := h.at' 0 (if i < C then i + 1 else 0) (by omega)
        (by split <;> omega)
      obtain ⟨l0, l1, l2, l3, g0, g1, g2, g3, h0, h1, h2, h3⟩ := QuadAt.lines hr
      exact ⟨q, l0, by simpa using hq, g0, h0⟩)
  have e2 := evS_relLenMap w2 w3 ws
  obtain ⟨lh, v1, v2, v3⟩ := pyMap_lineKeys (prims := prims) (n := R + 1)
    (f := fun i => (if i < R then i + 1 else 0) * (C + 1)) (k := k!"Line1")
    (a := fun i => ((rect (if i < R then i + 1 else 0) 0).x1, (rect (if i < R then i + 1 else 0) 0).y0))
    (b := fun i => ((rect (if i < R then i + 1 else 0) 0).x1, (rect (if i < R then i + 1 else 0) 0).y1))
    (by
      intro i hi
      obtain ⟨q, hq, hr⟩ := h.at' (if i < R then i + 1 else 0) 0
        (by split <;> omega) (by omega)
      obtain ⟨l0, l1, l2, l3, g0, g1, g2, g3, h0, h1, h2, h3⟩ := QuadAt.lines hr
      exact ⟨q, l1, by simpa using hq, g1, h1⟩)
  have e3 := evS_relLenMap v2 v3 hs
  obtain ⟨qc, c1, c2⟩ := pyMap_keys (prims := prims) (n := C + 1) (f := fun c => 0 * (C + 1) + c)
    (rect := fun c => rect 0 c) (fun c hc => h.at' 0 c (by omega) hc)
  have e4 := evS_marginArray c2 (gap := fun s s' => s'.x0 - s.x1) evS_marginRight ms
  obtain ⟨qr, r1, r2⟩ := pyMap_keys (prims := prims) (n := R + 1) (f := fun r => r * (C + 1) + 0)
    (rect := fun r => rect r 0) (fun r hr => h.at' r 0 hr (by omega))
  have e5 := evS_marginArray r2 (gap := fun s s' => s.y0 - s'.y1) evS_marginBottom ns
  -- together
  let P : Nat → Prop := fun i => match i with
    | 0 => GridAligned (R + 1) (C + 1) rect
    | 1 => ∀ c, c < C → |(rect 0 (c + 1)).x1 - (rect 0 (c + 1)).x0|
        = ws c * |(rect 0 0).x1 - (rect 0 0).x0|
    | 2 => ∀ r, r < R → |(rect (r + 1) 0).y1 - (rect (r + 1) 0).y0|
        = hs r * |(rect 0 0).y1 - (rect 0 0).y0|
    | 3 => ∀ c, c < C → (rect 0 (c + 1)).x0 - (rect 0 c).x1 = ms c
    | _ => ∀ r, r < R → (rect r 0).y0 - (rect (r + 1) 0).y1 = ns r
  have key : EvS (gridT (cstr (marginT true .right)) (cstr (marginT true .bottom)) (R + 1) (C + 1))
      prims [arrOf C ws, arrOf R hs, arrOf C ms, arrOf R ns] (∀ i, i < 5 → P i) := by
    refine EvS.compound (P := P)
      (pss := [[], (List.range C).map fun i => .num (fin (ws i)),
        (List.range R).map fun i => .num (fin (hs i)),
        (List.range C).map fun i => .num (fin (ms i)),
        (List.range R).map fun i => .num (fin (ns i))])
      (by simp only [List.map_cons, List.map_nil]; decide) rfl ?_
      (forall₂_replicate h.len h.quads) rfl rfl (by simp) ?_
    · simp only [ct.gridParams, iter_arrOf, bind, Except.bind]
    · intro i kc ks ps a b d
      match i with
      | 0 =>
        simp only [List.getElem?_cons_zero, Option.some.injEq] at a b d
        subst a b d
        exact ⟨prims, pyMap_all h.len, e1⟩
      | 1 =>
        simp only [List.getElem?_cons_succ, List.getElem?_cons_zero, Option.some.injEq] at a b d
        subst a b d
        refine ⟨lw, ?_, e2.congr ?_⟩
        · simp only [gidx_eq, rot1_range, List.map_map]
          simpa [Function.comp_def] using w1
        · constructor
          · intro hh c hc
            have := hh c hc
            simpa [hc, dist2_h] using this
          · intro hh c hc
            have := hh c hc
            simpa [hc, dist2_h] using this
      | 2 =>
        simp only [List.getElem?_cons_succ, List.getElem?_cons_zero, Option.some.injEq] at a b d
        subst a b d
        refine ⟨lh, ?_, e3.congr ?_⟩
        · simp only [gidx_eq, rot1_range, List.map_map]
          simpa [Function.comp_def] using v1
        · constructor
          · intro hh c hc
            have := hh c hc
            simpa [hc, dist2_v] using this
          · intro hh c hc
            have := hh c hc
            simpa [hc, dist2_v] using this
      | 3 =>
        simp only [List.getElem?_cons_succ, List.getElem?_cons_zero, Option.some.injEq] at a b d
        subst a b d
        refine ⟨qc, ?_, e4⟩
        simpa only [gidx_eq] using c1
      | 4 =>
        simp only [List.getElem?_cons_succ, List.getElem?_cons_zero, Option.some.injEq] at a b d
        subst a b d
        refine ⟨qr, ?_, e5⟩
        simpa only [gidx_eq] using r1
      | n + 5 => simp at a
  rw [key.satisfied (grid_eq (ct_margin_eq true .right) (ct_margin_eq true .bottom) _ _)]
  constructor
  · intro hh
    exact ⟨hh 0 (by omega), fun c hc => hh 1 (by omega) c (by omega),
      fun c hc => hh 2 (by omega) c (by omega), fun c hc => hh 3 (by omega) c (by omega),
      fun c hc => hh 4 (by omega) c (by omega)⟩
  · rintro ⟨h0, h1, h2, h3, h4⟩ i hi
    match i with
    | 0 => exact h0
    | 1 => exact fun c hc => h1 c (by omega)
    | 2 => exact fun c hc => h2 c (by omega)
    | 3 => exact fun c hc => h3 c (by omega)
    | 4 => exact fun c hc => h4 c (by omega)
    | n + 5 => omega

/-! A concrete grid: two rows of three unit boxes, one unit apart. -/

/-- Unit boxes with their lower left corners at `(2 c, -2 r)`. -/
noncomputable def unitGrid (r c : Nat) : Rect := ⟨2 * c, -(2 * r), 2 * c + 1, -(2 * r) + 1⟩

/-- Any grid of rectangles as a list of primitives. -/
noncomputable def gridPrims (R C : Nat) (rect : Nat → Nat → Rect) : List (Prim Flt) :=
  (List.range (R * C)).map fun i => realRect (rect (i / C) (i % C))

theorem isGrid_gridPrims (R C : Nat) (rect : Nat → Nat → Rect) :
    IsGrid (gridPrims R C rect) R C rect := by
  refine ⟨by simp [gridPrims], ?_⟩
  intro r c hr hc
  have hlt : r * C + c < R * C := by nlinarith
  refine ⟨realRect (rect r c), ?_, isRect_realRect _⟩
  have h1 : (r * C + c) / C = r := by
    rw [Nat.mul_comm, Nat.mul_add_div (by omega), Nat.div_eq_of_lt hc, Nat.add_zero]
  have h2 : (r * C + c) % C = c := by
    rw [Nat.mul_comm, Nat.mul_add_mod, Nat.mod_eq_of_lt hc]
  simp [gridPrims, hlt, h1, h2]

example : IsGrid (gridPrims 2 3 unitGrid) 2 3 unitGrid ∧ (∀ r c, (unitGrid r c).Proper) ∧
    GridLaidOut 2 3 unitGrid (fun _ => 1) (fun _ => 1) (fun _ => 1) (fun _ => 1) := by
  refine ⟨isGrid_gridPrims _ _ _, fun r c => ⟨by simp [unitGrid], by simp [unitGrid]⟩, ⟨?_, ?_⟩,
    ?_, ?_, ?_, ?_⟩
  · intros; simp [unitGrid]
  · intros; simp [unitGrid]
  · intros; simp [unitGrid]
  · intros; simp [unitGrid]
  · intros; simp [unitGrid]; ring
  · intros; simp [unitGrid]; ring

example : ¬ GridAligned 2 3 (fun r c => unitGrid c r) := by
  intro h
  have := (h.1 0 0 1 (by omega) (by omega) (by omega)).1
  simp [unitGrid] at this

/-! ## C46 -/

/-- The row-major position of a multi-index. -/
def rowMajor : List Nat → List Nat → Nat
  | i :: is, _ :: ns => i * ns.prod + rowMajor is ns
  | _, _ => 0

/-- C46, for grids (the only use): the position in a two-dimensional grid is the row-major
position; distinct in-range indices get distinct positions below `R * C` and all of them are hit.
Missing: more than two dimensions, where the code is wrong (below). -/
theorem C46_idx_two_dim_partial (R C : Nat) :
    (∀ r c, ct.idx1d [r, c] [R, C] = rowMajor [r, c] [R, C]) ∧
    (∀ r c, r < R → c < C → ct.idx1d [r, c] [R, C] < R * C) ∧
    (∀ r c r' c', c < C → c' < C → ct.idx1d [r, c] [R, C] = ct.idx1d [r', c'] [R, C] →
      r = r' ∧ c = c') ∧
    (∀ i, i < R * C → ∃ r c, r < R ∧ c < C ∧ ct.idx1d [r, c] [R, C] = i) := by
  have e : ∀ r c, ct.idx1d [r, c] [R, C] = r * C + c := fun r c => gidx_eq R C r c
  refine ⟨fun r c => by simp [e, rowMajor], ?_, ?_, ?_⟩
  · intro r c hr hc; rw [e]; nlinarith
  · intro r c r' c' hc hc' h
    rw [e, e] at h
    have h1 : (r * C + c) / C = r := by
      rw [Nat.mul_comm, Nat.mul_add_div (by omega), Nat.div_eq_of_lt hc, Nat.add_zero]
    have h2 : (r' * C + c') / C = r' := by
      rw [Nat.mul_comm, Nat.mul_add_div (by omega), Nat.div_eq_of_lt hc', Nat.add_zero]
    have : r = r' := by rw [← h1, h, h2]
    subst this
    exact ⟨rfl, by omega⟩
  · intro i hi
    have hC : 0 < C := by
      rcases Nat.eq_zero_or_pos C with h0 | h0
      · subst h0; simp at hi
      · exact h0
    exact ⟨i / C, i % C, Nat.div_lt_of_lt_mul (by rwa [Nat.mul_comm] at hi), Nat.mod_lt _ hC, by
      rw [e, Nat.div_add_mod']⟩

/-- C46 in one dimension. -/
theorem C46_idx_one_dim_partial (n i : Nat) : ct.idx1d [i] [n] = rowMajor [i] [n] := by
  simp [ct.idx1d, rowMajor]

/-- C46 fails in three dimensions: in the shape `(2, 2, 2)` the distinct indices `(0, 1, 0)` and
`(1, 0, 0)` get the same position. -/
theorem C46_three_dim_counterexample :
    ct.idx1d [0, 1, 0] [2, 2, 2] = ct.idx1d [1, 0, 0] [2, 2, 2] ∧
    rowMajor [0, 1, 0] [2, 2, 2] ≠ rowMajor [1, 0, 0] [2, 2, 2] := by
  decide

end MplLayout.Props
