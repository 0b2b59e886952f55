import Verif.Lemmas.RoundGrid
import Verif.Props.Round
import Verif.Props.Grid

/-!
# C99: rows, columns and grids in floating point arithmetic
-/

namespace MplLayout

/-- Results up to `2 * M` do not overflow, and the product of a number of size at least `t` with one of size at
least `δ` does not underflow. -/
structure FloatFormat.Resolves (f : FloatFormat) (t δ M : ℝ) : Prop where
  M_mem : M ∈ f.nums
  M2_mem : 2 * M ∈ f.nums
  t_mem : t ∈ f.nums
  δ_mem : δ ∈ f.nums
  t_pos : 0 < t
  δ_pos : 0 < δ
  least : ∃ u ∈ f.nums, 0 < u ∧ u ≤ t * δ

end MplLayout

namespace MplLayout.Props

open Flt Cons

variable {f : FloatFormat} {t δ M : ℝ}

/-- The numbers are equal or at least `δ` apart. -/
def Apart (δ : ℝ) (x y : f.nums) : Prop := x = y ∨ δ ≤ |(x : ℝ) - y|

/-- The first rectangle is at least `t` wide and high, the coordinates of both are at most `M`, and their
corresponding coordinates are equal or at least `δ` apart. -/
structure FRect.Clear (t δ M : ℝ) (r s : FRect f) : Prop where
  wide : t ≤ |(r.x1 : ℝ) - r.x0|
  high : t ≤ |(r.y1 : ℝ) - r.y0|
  left : r.Within M
  right : s.Within M
  x0 : Apart δ r.x0 s.x0
  y0 : Apart δ r.y0 s.y0
  x1 : Apart δ r.x1 s.x1
  y1 : Apart δ r.y1 s.y1

theorem diff_num (hR : f.Resolves t δ M) {x y : f.nums} (hx : |(x : ℝ)| ≤ M) (hy : |(y : ℝ)| ≤ M) :
    ∃ z : f.nums, Rnd.num x - Rnd.num y = Rnd.num z ∧ f.rnd (x - y) = fin z := by
  obtain ⟨z, hz, _⟩ := rnd_between (x := (x : ℝ) - y) hR.M2_mem ((abs_sub _ _).trans (by linarith))
  exact ⟨⟨z, f.rnd_mem _ _ hz⟩, Rnd.ext' (by rw [Rnd.sub_val, hz]; rfl), hz⟩

/-- Rounding does not make a large number small. -/
theorem rnd_large {x y m : ℝ} (hm : m ∈ f.nums) (hx : m ≤ |x|) (h : f.rnd x = fin y) : m ≤ |y| := by
  rcases le_abs.mp hx with hx | hx
  · exact le_trans (f.mono _ _ _ _ hx (f.rnd_of_mem _ hm) h) (le_abs_self _)
  · have := f.mono _ _ _ _ (show x ≤ -m by linarith) h (f.rnd_of_mem _ (f.neg_mem _ hm))
    exact le_trans (by linarith) (neg_le_abs _)

theorem num_self (x : f.nums) : Rnd.num x - Rnd.num x = 0 := Rnd.ext' (by
  rw [Rnd.sub_val, sub_self]; exact f.rnd_of_mem _ f.zero_mem)
theorem zero_mul_num (x : f.nums) : 0 * Rnd.num x = 0 := Rnd.round_eq (by simp)
theorem num_mul_zero (x : f.nums) : Rnd.num x * 0 = 0 := Rnd.round_eq (by simp)
theorem sub_zero_rnd (x : Rnd f) : x - 0 = x := by
  rw [Rnd.sub_def]
  refine Rnd.round_eq ?_
  cases x.val <;> simp

/-- The product of a long difference with a difference is computed as zero exactly if the latter is zero. -/
theorem prod_zero (hR : f.Resolves t δ M) {x x' y w : f.nums} (hx : |(x : ℝ)| ≤ M) (hx' : |(x' : ℝ)| ≤ M)
    (hy : |(y : ℝ)| ≤ M) (hw : |(w : ℝ)| ≤ M) (ht : t ≤ |(x' : ℝ) - x|) (ha : Apart δ y w) :
    ((Rnd.num x' - Rnd.num x) * (Rnd.num y - Rnd.num w)).val = fin 0 ↔ (y : ℝ) = w := by
  obtain ⟨W, hW, hW'⟩ := diff_num hR hx' hx
  obtain ⟨D, hD, hD'⟩ := diff_num hR hy hw
  rw [hW]
  constructor
  · intro h
    rcases ha with ha | ha
    · rw [ha]
    · exfalso
      rw [hD, Rnd.mul_def, Rnd.num_val, Rnd.num_val, fin_mul] at h
      obtain ⟨u, hu, hu0, hut⟩ := hR.least
      have h1 := rnd_large hR.t_mem ht hW'
      have h2 := rnd_large hR.δ_mem ha hD'
      have h3 : u ≤ |(W : ℝ) * D| := by
        rw [abs_mul]
        exact hut.trans (mul_le_mul h1 h2 hR.δ_pos.le (abs_nonneg _))
      have := rnd_large hu h3 h
      rw [abs_zero] at this
      linarith
  · intro h
    have : y = w := Subtype.ext h
    rw [this, num_self, num_mul_zero]
    rfl

theorem revS_collinear_h (hR : f.Resolves t δ M) {l l' : Prim (Rnd f)} {x x' y u u' w : f.nums}
    (h : FLine l (x, y) (x', y)) (h' : FLine l' (u, w) (u', w)) (hx : |(x : ℝ)| ≤ M) (hx' : |(x' : ℝ)| ≤ M)
    (hy : |(y : ℝ)| ≤ M) (hu : |(u : ℝ)| ≤ M) (hu' : |(u' : ℝ)| ≤ M) (hw : |(w : ℝ)| ≤ M)
    (ht : t ≤ |(x' : ℝ) - x|) (ha : Apart δ y w) : REvS ct.collinear [l, l'] [] ((y : ℝ) = w) := by
  refine .of (gev_collinear h h') ?_
  obtain ⟨W, hW, _⟩ := diff_num hR hx' hx
  obtain ⟨U, hU, _⟩ := diff_num hR hu' hu
  obtain ⟨V, hV, _⟩ := diff_num hR hx hu
  have := prod_zero hR hx hx' hy hw ht ha
  simp only [Rnd.pt, List.mem_cons, List.not_mem_nil, or_false, forall_eq_or_imp, forall_eq, num_self, hU, hV,
    zero_mul_num, sub_zero_rnd, this]
  rw [hW, num_mul_zero]
  simp

theorem revS_collinear_v (hR : f.Resolves t δ M) {l l' : Prim (Rnd f)} {x y y' u w w' : f.nums}
    (h : FLine l (x, y) (x, y')) (h' : FLine l' (u, w) (u, w')) (hx : |(x : ℝ)| ≤ M) (hy : |(y : ℝ)| ≤ M)
    (hy' : |(y' : ℝ)| ≤ M) (hu : |(u : ℝ)| ≤ M) (hw : |(w : ℝ)| ≤ M) (hw' : |(w' : ℝ)| ≤ M)
    (ht : t ≤ |(y' : ℝ) - y|) (ha : Apart δ x u) : REvS ct.collinear [l, l'] [] ((x : ℝ) = u) := by
  refine .of (gev_collinear h h') ?_
  obtain ⟨W, hW, _⟩ := diff_num hR hw' hw
  obtain ⟨U, hU, _⟩ := diff_num hR hy' hy
  obtain ⟨V, hV, _⟩ := diff_num hR hy hw
  have := prod_zero hR hy hy' hx hu ht ha
  have neg : ∀ z : Rnd f, (0 - z).val = fin 0 ↔ z.val = fin 0 := by
    intro z
    have e : (0 : Rnd f) - z = -z := by
      rw [Rnd.sub_def, Rnd.neg_def]
      congr 1
      cases z.val <;> simp
    rw [e, Rnd.neg_val]
    cases z.val <;> simp
  simp only [Rnd.pt, List.mem_cons, List.not_mem_nil, or_false, forall_eq_or_imp, forall_eq, num_self, hW, hV,
    zero_mul_num, neg, this]
  rw [hU, num_mul_zero]
  simp

variable {q q' : Prim (Rnd f)} {s s' : FRect f}

theorem revS_align_row (hR : f.Resolves t δ M) {q q' : Prim (Rnd f)} {s s' : FRect f} (h : IsFRect q s)
    (h' : IsFRect q' s') (hc : FRect.Clear t δ M s s') :
    REvS (alignT true) [q, q'] [] (s.exact.y0 = s'.exact.y0 ∧ s.exact.y1 = s'.exact.y1) := by
  obtain ⟨l0, l1, l2, l3, h0, h1, h2, h3, g0, g1, g2, g3⟩ := gquad_resolve h [q']
  obtain ⟨m0, m1, m2, m3, i0, i1, i2, i3, j0, j1, j2, j3⟩ := gquad_resolve1 (q0 := q) h' []
  obtain ⟨a1, a2, a3, a4⟩ := hc.left
  obtain ⟨b1, b2, b3, b4⟩ := hc.right
  exact revS_two (by decide) rfl (.cons h.1 (.cons h'.1 .nil)) rfl (pyMap2 g0 j0) (pyMap2 g2 j2)
    (revS_collinear_h hR h0 i0 a1 a3 a2 b1 b3 b2 hc.wide hc.y0)
    (revS_collinear_h hR h2 i2 a3 a1 a4 b3 b1 b4 (by rw [abs_sub_comm]; exact hc.wide) hc.y1)

theorem revS_align_col (hR : f.Resolves t δ M) {q q' : Prim (Rnd f)} {s s' : FRect f} (h : IsFRect q s)
    (h' : IsFRect q' s') (hc : FRect.Clear t δ M s s') :
    REvS (alignT false) [q, q'] [] (s.exact.x0 = s'.exact.x0 ∧ s.exact.x1 = s'.exact.x1) := by
  obtain ⟨l0, l1, l2, l3, h0, h1, h2, h3, g0, g1, g2, g3⟩ := gquad_resolve h [q']
  obtain ⟨m0, m1, m2, m3, i0, i1, i2, i3, j0, j1, j2, j3⟩ := gquad_resolve1 (q0 := q) h' []
  obtain ⟨a1, a2, a3, a4⟩ := hc.left
  obtain ⟨b1, b2, b3, b4⟩ := hc.right
  exact revS_two (by decide) rfl (.cons h.1 (.cons h'.1 .nil)) rfl (pyMap2 g3 j3) (pyMap2 g1 j1)
    (revS_collinear_v hR h3 i3 a1 a4 a2 b1 b4 b2 (by rw [abs_sub_comm]; exact hc.high) hc.x0)
    (revS_collinear_v hR h1 i1 a3 a2 a4 b3 b2 b4 hc.high hc.x1)

theorem REvS.vanishes {c : Cons (Rnd f)} {r : Py (Cons (Rnd f))} (e : r = .ok c) {prims : List (Prim (Rnd f))}
    {params : List (Param (Rnd f))} {P : Prop} (h : REvS c prims params P) : Vanishes r prims params ↔ P := by
  obtain ⟨v, h1, h2⟩ := h
  rw [vanishes_iff e h1.call, h2]

/-- C99, `AlignRow` and `AlignColumn` of two rectangles: the residual consists of cross products, but as long as
no product underflows (see `FRect.Clear`; `C99_unit` below gives the simple case) it is computed as zero exactly
if bottom and top (left and right) are the same numbers. -/
theorem C99_align (hR : f.Resolves t δ M) (h : IsFRect q s) (h' : IsFRect q' s') (hc : FRect.Clear t δ M s s') :
    (Vanishes (ct.align true) [q, q'] [] ↔ s.exact.y0 = s'.exact.y0 ∧ s.exact.y1 = s'.exact.y1) ∧
    (Vanishes (ct.align false) [q, q'] [] ↔ s.exact.x0 = s'.exact.x0 ∧ s.exact.x1 = s'.exact.x1) :=
  ⟨REvS.vanishes (align_eq true) (revS_align_row hR h h' hc),
    REvS.vanishes (align_eq false) (revS_align_col hR h h' hc)⟩

/-- A list of rectangles. -/
structure IsFRow (prims : List (Prim (Rnd f))) (n : Nat) (rect : Nat → FRect f) : Prop where
  len : prims.length = n
  at' : ∀ i, i < n → ∃ q, prims[i]? = some q ∧ IsFRect q (rect i)

theorem IsFRow.quads {prims : List (Prim (Rnd f))} {n : Nat} {rect : Nat → FRect f}
    (h : IsFRow prims n rect) : ∀ p ∈ prims, p.ty.IsA .quadrilateral := by
  intro p hp
  obtain ⟨i, hi, rfl⟩ := List.getElem_of_mem hp
  obtain ⟨q, hq, hr⟩ := h.at' i (h.len ▸ hi)
  rw [List.getElem?_eq_getElem hi] at hq
  cases hq
  exact hr.1

theorem revS_alignMap {row : Bool} {H Q : FRect f → FRect f → Prop}
    (hal : ∀ {q q' : Prim (Rnd f)} {s s' : FRect f}, IsFRect q s → IsFRect q' s' → H s s' →
      REvS (alignT row) [q, q'] [] (Q s s'))
    {prims : List (Prim (Rnd f))} {n : Nat} {rect : Nat → FRect f} (h : IsFRow prims (n + 1) rect)
    (hp : ∀ i j, i < n + 1 → j < n + 1 → H (rect i) (rect j)) :
    REvS (mapCons (alignT row) (n + 1)) prims [] (∀ i, i < n → Q (rect i) (rect n)) := by
  have ht : (alignT (K := Rnd f) row).value.sig.primTypes = [.quadrilateral, .quadrilateral] := by
    cases row <;> rfl
  have hpt : (alignT (K := Rnd f) row).value.sig.paramTypes = [] := by cases row <;> rfl
  refine REvS.map2 ht h.len h.quads (by simp [hpt]) ?_
  intro i p p' hi hp1 hp2
  obtain ⟨a, ha, ha'⟩ := h.at' i (by omega)
  obtain ⟨b, hb, hb'⟩ := h.at' n (by omega)
  rw [hp1] at ha
  rw [hp2] at hb
  cases ha; cases hb
  simpa using hal ha' hb' (hp i n (by omega) (by omega))

/-- The arguments that the keys of a row or column of a grid name. -/
theorem rpyMap_keys {prims : List (Prim (Rnd f))} {n : Nat} {g : Nat → Nat} {rect : Nat → FRect f}
    (h : ∀ i, i < n → ∃ q, prims[g i]? = some q ∧ IsFRect q (rect i)) :
    ∃ cps, pyMap (resolve prims) ((List.range n).map fun i => ct.argKey (g i)) = .ok cps ∧
      IsFRow cps n rect := by
  have : ∀ i : Fin n, ∃ q, prims[g i]? = some q ∧ IsFRect q (rect i) := fun i => h i i.2
  choose k hg hr using this
  refine ⟨List.ofFn k, ?_, by simp, ?_⟩
  · rw [pyMap_ok, List.forall₂_iff_get]
    refine ⟨by simp, ?_⟩
    intro i h1 h2
    simp only [List.get_eq_getElem, List.getElem_map, List.getElem_range, List.getElem_ofFn]
    exact resolve_argKey_ok.mpr (hg ⟨i, by simpa using h2⟩)
  · intro i hi
    exact ⟨k ⟨i, hi⟩, by simp [hi], hr ⟨i, hi⟩⟩

/-- `prims` are `R * C` rectangles, row after row; the one in row `r` and column `c` is `rect r c`. -/
structure IsFGrid (prims : List (Prim (Rnd f))) (R C : Nat) (rect : Nat → Nat → FRect f) : Prop where
  len : prims.length = R * C
  at' : ∀ r c, r < R → c < C → ∃ q, prims[r * C + c]? = some q ∧ IsFRect q (rect r c)

theorem IsFGrid.quads {prims : List (Prim (Rnd f))} {R C : Nat} {rect : Nat → Nat → FRect f}
    (h : IsFGrid prims R C rect) : ∀ p ∈ prims, p.ty.IsA .quadrilateral := by
  intro p hp
  obtain ⟨i, hi, rfl⟩ := List.getElem_of_mem hp
  have hi' : i < R * C := h.len ▸ hi
  have hC : 0 < C := by
    rcases Nat.eq_zero_or_pos C with h0 | h0
    · subst h0; simp at hi'
    · exact h0
  obtain ⟨q, hq, hr⟩ := h.at' (i / C) (i % C)
    (Nat.div_lt_of_lt_mul (by rwa [Nat.mul_comm] at hi')) (Nat.mod_lt _ hC)
  rw [Nat.div_add_mod', List.getElem?_eq_getElem hi] at hq
  cases hq
  exact hr.1

theorem revS_rectGrid (hR : f.Resolves t δ M) {prims : List (Prim (Rnd f))} {R C : Nat} {rect : Nat → Nat → FRect f}
    (h : IsFGrid prims (R + 1) (C + 1) rect)
    (hp : ∀ r c r' c', r < R + 1 → c < C + 1 → r' < R + 1 → c' < C + 1 →
      FRect.Clear t δ M (rect r c) (rect r' c')) :
    REvS (rectGridT (R + 1) (C + 1)) prims [] (GridAligned (R + 1) (C + 1) fun r c => (rect r c).exact) := by
  have key := REvS.compound
    (P := fun i => if i < R + 1 then
        ∀ c, c < C → (rect i c).exact.y0 = (rect i C).exact.y0 ∧ (rect i c).exact.y1 = (rect i C).exact.y1
      else ∀ r, r < R → (rect r (i - (R + 1))).exact.x0 = (rect R (i - (R + 1))).exact.x0 ∧
        (rect r (i - (R + 1))).exact.x1 = (rect R (i - (R + 1))).exact.x1)
    (cls := { name := k!"RectilinearGrid", assem := compoundAssem 0 })
    (kss := (List.range (R + 1)).map (fun r => (List.range (C + 1)).map fun c =>
        ct.argKey (gidx (R + 1) (C + 1) r c)) ++
      (List.range (C + 1)).map (fun c => (List.range (R + 1)).map fun r =>
        ct.argKey (gidx (R + 1) (C + 1) r c)))
    (cp := fun _ => .ok (List.replicate (4 * (R + 1) * (C + 1)) []))
    (sig := ⟨List.replicate ((R + 1) * (C + 1)) .quadrilateral, [], 0⟩)
    (cs := (rectGridKeys (R + 1) (C + 1)).zip
      (List.replicate (R + 1) (mapCons (alignT true) (C + 1)) ++
      List.replicate (C + 1) (mapCons (alignT false) (R + 1))))
    (prims := prims) (params := []) ?_ rfl rfl (rforall₂_replicate h.len h.quads) rfl ?_ ?_ ?_
  · refine key.congr ?_
    have hlen : ((rectGridKeys (R + 1) (C + 1)).zip
      (List.replicate (R + 1) (mapCons (alignT (K := Rnd f) true) (C + 1)) ++
      List.replicate (C + 1) (mapCons (alignT false) (R + 1)))).length = (R + 1) + (C + 1) := by
      simp [rectGridKeys]
    rw [hlen]
    constructor
    · intro hh
      constructor
      · intro r c c' hr hc hc'
        have h1 := hh r (by omega)
        rw [if_pos hr] at h1
        have h2 : ∀ c, c < C + 1 → (rect r c).exact.y0 = (rect r C).exact.y0 ∧ (rect r c).exact.y1 = (rect r C).exact.y1 := by
          intro c hc
          rcases Nat.lt_succ_iff_lt_or_eq.mp hc with h3 | rfl
          · exact h1 c h3
          · exact ⟨rfl, rfl⟩
        exact ⟨(h2 c hc).1.trans (h2 c' hc').1.symm, (h2 c hc).2.trans (h2 c' hc').2.symm⟩
      · intro c r r' hc hr hr'
        have h1 := hh ((R + 1) + c) (by omega)
        rw [if_neg (by omega), Nat.add_sub_cancel_left] at h1
        have h2 : ∀ r, r < R + 1 → (rect r c).exact.x0 = (rect R c).exact.x0 ∧ (rect r c).exact.x1 = (rect R c).exact.x1 := by
          intro r hr
          rcases Nat.lt_succ_iff_lt_or_eq.mp hr with h3 | rfl
          · exact h1 r h3
          · exact ⟨rfl, rfl⟩
        exact ⟨(h2 r hr).1.trans (h2 r' hr').1.symm, (h2 r hr).2.trans (h2 r' hr').2.symm⟩
    · rintro ⟨h1, h2⟩ i hi
      split
      · next hi => exact fun c hc => h1 i c C hi (by omega) (by omega)
      · next hi' => exact fun r hr => h2 _ r R (by omega) (by omega) (by omega)
  · rw [List.map_fst_zip (by simp [rectGridKeys])]
    exact rectGridKeys_nodup _ _
  · simp [rectGridKeys]
  · simp only [List.length_zip, rectGridKeys, List.length_append, List.length_map,
      List.length_range, List.length_replicate, Nat.min_self]
    nlinarith
  · intro i kc ks ps a b d
    have hps : ps = [] := List.eq_of_mem_replicate (List.mem_of_getElem? d)
    subst hps
    obtain ⟨k, c⟩ := kc
    have a2 := (List.getElem?_zip_eq_some.mp a).2
    simp only [gidx_eq] at b
    by_cases hi : i < R + 1
    · rw [List.getElem?_append_left (by simpa using hi)] at a2 b
      simp only [List.getElem?_map, List.getElem?_range hi, Option.map_some, Option.some.injEq]
        at b
      have hc := List.eq_of_mem_replicate (List.mem_of_getElem? a2)
      subst hc b
      obtain ⟨cps, h1, h2⟩ := rpyMap_keys (prims := prims) (n := C + 1)
        (g := fun c => i * (C + 1) + c) (rect := fun c => rect i c)
        (fun c hc => h.at' i c hi hc)
      refine ⟨cps, h1, ?_⟩
      rw [if_pos hi]
      exact revS_alignMap (Q := fun s s' => s.exact.y0 = s'.exact.y0 ∧ s.exact.y1 = s'.exact.y1) (revS_align_row hR) h2
        (fun c c' hc hc' => hp i c i c' hi hc hi hc')
    · rw [List.getElem?_append_right (by simpa using hi)] at a2 b
      simp only [List.length_replicate, List.length_map, List.length_range] at a2 b
      have hlt : i - (R + 1) < C + 1 := by
        have := (List.getElem?_eq_some_iff.mp a2).1
        simpa using this
      simp only [List.getElem?_map, List.getElem?_range hlt, Option.map_some, Option.some.injEq]
        at b
      have hc := List.eq_of_mem_replicate (List.mem_of_getElem? a2)
      subst hc b
      obtain ⟨cps, h1, h2⟩ := rpyMap_keys (prims := prims) (n := R + 1)
        (g := fun r => r * (C + 1) + (i - (R + 1))) (rect := fun r => rect r (i - (R + 1)))
        (fun r hr => h.at' r _ hr hlt)
      refine ⟨cps, h1, ?_⟩
      rw [if_neg hi]
      exact revS_alignMap (Q := fun s s' => s.exact.x0 = s'.exact.x0 ∧ s.exact.x1 = s'.exact.x1) (revS_align_col hR) h2
        (fun r r' hr hr' => hp r _ r' _ hr hlt hr' hlt)



/-- C99, `RectilinearGrid`: for every grid shape the residual is computed as zero exactly if all boxes in a row
have the same bottom and top and all boxes in a column the same left and right side. -/
theorem C99_rectilinearGrid (hR : f.Resolves t δ M) {prims : List (Prim (Rnd f))} {R C : Nat}
    {rect : Nat → Nat → FRect f} (hR0 : 0 < R) (hC0 : 0 < C) (h : IsFGrid prims R C rect)
    (hp : ∀ r c r' c', r < R → c < C → r' < R → c' < C → FRect.Clear t δ M (rect r c) (rect r' c')) :
    Vanishes (ct.rectilinearGrid R C) prims [] ↔ GridAligned R C fun r c => (rect r c).exact := by
  obtain ⟨R, rfl⟩ : ∃ n, R = n + 1 := ⟨R - 1, by omega⟩
  obtain ⟨C, rfl⟩ : ∃ n, C = n + 1 := ⟨C - 1, by omega⟩
  exact REvS.vanishes (rectilinearGrid_eq _ _) (revS_rectGrid hR h hp)

theorem revS_marginArray {prims : List (Prim (Rnd f))} {n : Nat} {rect : Nat → FRect f}
    (h : IsFRow prims (n + 1) rect) {m : Cons (Rnd f)} {gap : FRect f → FRect f → ℝ} {H : FRect f → FRect f → Prop}
    (hH : ∀ i, i < n → H (rect i) (rect (i + 1)))
    (hm : ∀ {q q' : Prim (Rnd f)} {s s' : FRect f}, IsFRect q s → IsFRect q' s' → H s s' → ∀ y : f.nums,
      REvS m [q, q'] [.num (Rnd.num y)] (f.rnd (gap s s') = fin y)) (ms : Nat → f.nums) :
    REvS (marginArrayT m (n + 1)) prims ((List.range n).map fun i => .num (Rnd.num (ms i)))
      (∀ i, i < n → f.rnd (gap (rect i) (rect (i + 1))) = fin (ms i)) := by
  have key := REvS.compound (P := fun i => f.rnd (gap (rect i) (rect (i + 1))) = fin (ms i))
    (cls := { name := k!"OuterMarginArray", assem := fun _ _ => .ok (.vec []) })
    (kss := (List.range (n + 1 - 1)).map (fun i => [ct.argKey i, ct.argKey (i + 1)]))
    (cp := fun params => .ok (params.map fun p => [p]))
    (sig := ⟨List.replicate (n + 1) .quadrilateral, List.replicate (n + 1 - 1) .float, 0⟩)
    (cs := ((List.range (n + 1)).map fun i => k!"OuterMargin" ++ natStr i).zip
      (List.replicate (n + 1 - 1) m))
    (prims := prims) (params := (List.range n).map fun i => .num (Rnd.num (ms i)))
    ?_ rfl rfl (rforall₂_replicate h.len h.quads) (by simp) (by simp) (by simp) ?_
  · have hlen : (((List.range (n + 1)).map fun i => k!"OuterMargin" ++ natStr i).zip
      (List.replicate (n + 1 - 1) m)).length = n := by simp
    rw [hlen] at key
    exact key
  · have hz := dictOfZip_keys_nodup ((List.range (n + 1)).map fun i => k!"OuterMargin" ++ natStr i)
      (List.replicate (n + 1 - 1) m)
    rwa [dictOfZip_of_nodup (mapKeys_nodup _ _)] at hz
  · intro i kc ks ps a b d
    obtain ⟨k, c⟩ := kc
    have a2 := (List.getElem?_zip_eq_some.mp a).2
    have hi : i < n := by simpa using (List.getElem?_eq_some_iff.mp a2).1
    have hc := List.eq_of_mem_replicate (List.mem_of_getElem? a2)
    simp only [Nat.add_sub_cancel, List.getElem?_map, List.getElem?_range hi, Option.map_some,
      Option.some.injEq] at b d
    subst hc b d
    obtain ⟨q, hq, hr⟩ := h.at' i (by omega)
    obtain ⟨q', hq', hr'⟩ := h.at' (i + 1) (by omega)
    exact ⟨[q, q'], pyMap2 (resolve_argKey_ok.mpr hq) (resolve_argKey_ok.mpr hq'), hm hr hr' (hH i hi) _⟩


theorem revS_margin (hf : f.Gradual) (hb : f.Binary) (hM : M ∈ f.nums) (hM2 : 2 * M ∈ f.nums)
    (side : con.Side) {q q' : Prim (Rnd f)} {s s' : FRect f} (h : IsFRect q s) (h' : IsFRect q' s')
    (hs : s.Within M ∧ s'.Within M) (v : f.nums) :
    REvS (cstr (gMargin true side)) [q, q'] [.num (Rnd.num v)]
      (f.rnd (outerGap side s.exact s'.exact) = fin v) :=
  ⟨_, gev_ct_margin h h' true side (Rnd.num v),
    (vanishes_iff (gct_margin_eq _ _) (gev_ct_margin h h' true side (Rnd.num v)).call).symm.trans
      (C99_margin hf hb hM hM2 h h' hs.1 hs.2 side v).2⟩

/-- C99, `OuterMarginArray`: every margin is the correctly rounded gap between consecutive boxes. -/
theorem C99_outerMarginArray (hf : f.Gradual) (hb : f.Binary) (hM : M ∈ f.nums) (hM2 : 2 * M ∈ f.nums)
    {prims : List (Prim (Rnd f))} {n : Nat} {rect : Nat → FRect f} (h : IsFRow prims (n + 1) rect)
    (hs : ∀ i, i < n + 1 → (rect i).Within M) (side : con.Side) (ms : Nat → f.nums) :
    Vanishes (ct.outerMarginArray (n + 1) side) prims ((List.range n).map fun i => .num (Rnd.num (ms i))) ↔
      ∀ i, i < n → f.rnd (outerGap side (rect i).exact (rect (i + 1)).exact) = fin (ms i) :=
  REvS.vanishes (outerMarginArray_eq (gct_margin_eq true side) _)
    (revS_marginArray h (gap := fun r s => outerGap side r.exact s.exact)
      (H := fun r s => r.Within M ∧ s.Within M) (fun i hi => ⟨hs i (by omega), hs (i + 1) (by omega)⟩)
      (fun h h' hs v => revS_margin hf hb hM hM2 side h h' hs v) ms)

/-! ## Axes -/

/-- A point with exact coordinates. -/
def exactPt (a : f.nums × f.nums) : ℝ × ℝ := (a.1, a.2)

theorem gFaceVal_zero (hf : f.Gradual) (side : con.Side) (a b c d a' b' c' d' : f.nums × f.nums) :
    (∀ x ∈ gFaceVal side (Rnd.pt a) (Rnd.pt b) (Rnd.pt c) (Rnd.pt d) (Rnd.pt a') (Rnd.pt b') (Rnd.pt c')
      (Rnd.pt d'), x.val = fin 0) ↔ SitsOn side (exactPt a) (exactPt b) (exactPt c) (exactPt d) (exactPt a')
        (exactPt b') (exactPt c') (exactPt d') := by
  cases side <;>
  · simp only [gFaceVal, SitsOn, edge, con.Side.opposite, List.mem_cons, List.not_mem_nil, or_false,
      forall_eq_or_imp, forall_eq, Rnd.pt, sub_coord hf, exactPt, Prod.ext_iff, Subtype.ext_iff]
    tauto

/-- C99, `CoincidentOutwardFaces(side)`: computed as zero exactly if the second box sits on that side of the
first. -/
theorem C99_coincidentOutwardFaces (hf : f.Gradual) {a b c d a' b' c' d' : f.nums × f.nums}
    (h : FQuad q a b c d) (h' : FQuad q' a' b' c' d') (side : con.Side) :
    Vanishes (ct.coincidentOutwardFaces side) [q, q'] [] ↔ SitsOn side (exactPt a) (exactPt b) (exactPt c)
      (exactPt d) (exactPt a') (exactPt b') (exactPt c') (exactPt d') := by
  rw [vanishes_iff (gFaces_eq side) (gev_faces h h' side).call, gFaceVal_zero hf]

/-- C99, `PositionXAxis(side)` and `PositionYAxis(side)`: computed as zero exactly if the axis box sits on that
side of the frame. -/
theorem C99_positionAxis (hf : f.Gradual) {ax frame box : Prim (Rnd f)} {a b c d a' b' c' d' : f.nums × f.nums}
    (hax : ax.ty.IsA .axes) (hF : HasPart ax k!"Frame" frame) (h : FQuad frame a b c d) {kind : AxisKind}
    (hB : HasPart ax (axisBoxKey kind) box) (h' : FQuad box a' b' c' d') (side : con.Side) :
    Vanishes (ct.positionAxis kind side false) [ax] [] ↔ SitsOn side (exactPt a) (exactPt b) (exactPt c)
      (exactPt d) (exactPt a') (exactPt b') (exactPt c') (exactPt d') := by
  rw [vanishes_iff (gPosition_eq kind side false) (gev_position hax hF h hB h' side).call, gFaceVal_zero hf]

/-- C99, with a twin axis: the twin box sits on the opposite side. -/
theorem C99_positionAxis_twin (hf : f.Gradual) {ax frame box tbox : Prim (Rnd f)}
    {a b c d a' b' c' d' at' bt ct' dt : f.nums × f.nums}
    (hax : ax.ty.IsA .axes) (hF : HasPart ax k!"Frame" frame) (h : FQuad frame a b c d) {kind : AxisKind}
    (hB : HasPart ax (axisBoxKey kind) box) (h' : FQuad box a' b' c' d')
    (hT : HasPart ax (twinBoxKey kind) tbox) (ht : FQuad tbox at' bt ct' dt) (side : con.Side) :
    Vanishes (ct.positionAxis kind side true) [ax] [] ↔
      SitsOn side (exactPt a) (exactPt b) (exactPt c) (exactPt d) (exactPt a') (exactPt b') (exactPt c')
        (exactPt d') ∧
      SitsOn side.opposite (exactPt a) (exactPt b) (exactPt c) (exactPt d) (exactPt at') (exactPt bt)
        (exactPt ct') (exactPt dt) := by
  rw [vanishes_iff (gPosition_eq kind side true) (gev_position_twin hax hF h hB h' hT ht side).call]
  simp only [List.mem_append, or_imp, forall_and, gFaceVal_zero hf]

/-! ## The conditions -/

/-- C99: the conditions of `C99_align` and `C99_rectilinearGrid` hold with some `δ` for all rectangles that are
at least 1 wide and high and have coordinates of at most `M`. -/
theorem C99_unit (hf : f.Gradual) (hM : M ∈ f.nums) (hM2 : 2 * M ∈ f.nums) : ∃ δ, f.Resolves 1 δ M ∧
    ∀ r s : FRect f, 1 ≤ |r.exact.x1 - r.exact.x0| → 1 ≤ |r.exact.y1 - r.exact.y0| → r.Within M → s.Within M →
      FRect.Clear 1 δ M r s := by
  obtain ⟨u, hu, hu0, hm⟩ := hf
  have ap : ∀ x y : f.nums, Apart u x y := by
    intro x y
    obtain ⟨k, hk⟩ := hm x x.2
    obtain ⟨j, hj⟩ := hm y y.2
    by_cases e : k = j
    · exact Or.inl (Subtype.ext (by rw [hk, hj, e]))
    · refine Or.inr ?_
      rw [hk, hj, ← sub_mul, abs_mul, abs_of_pos hu0]
      have : (1 : ℝ) ≤ |((k - j : ℤ) : ℝ)| := by exact_mod_cast Int.one_le_abs (sub_ne_zero.mpr e)
      push_cast at this
      nlinarith
  exact ⟨u, ⟨hM, hM2, f.one_mem, hu, one_pos, hu0, u, hu, hu0, by rw [one_mul]⟩,
    fun r s h1 h2 h3 h4 => ⟨h1, h2, h3, h4, ap _ _, ap _ _, ap _ _, ap _ _⟩⟩

/-- A rectangle. -/
def fltRect (r : FRect f) : Prim (Rnd f) := fltQuad (r.x0, r.y0) (r.x1, r.y0) (r.x1, r.y1) (r.x0, r.y1)

theorem isFRect_fltRect (r : FRect f) : IsFRect (fltRect r) r := fquad_fltQuad _ _ _ _

/-- Two, as a `float64`. -/
noncomputable def two64 : binary64.nums := ⟨2, 2, 0, by norm_num, by norm_num, by norm_num, by norm_num⟩

/-- Two unit squares next to each other form a row; if one is moved up by the smallest positive number, they do
not. -/
example : Vanishes (f := binary64) (ct.align true) [fltRect ⟨z0, z0, o1, o1⟩, fltRect ⟨o1, z0, two64, o1⟩] [] ∧
    ¬ Vanishes (f := binary64) (ct.align true) [fltRect ⟨z0, z0, o1, o1⟩,
      fltRect ⟨o1, smallest64, two64, o1⟩] [] := by
  have h4 : (2 * 2 : ℝ) ∈ binary64.nums := ⟨4, 0, by norm_num, by norm_num, by norm_num, by norm_num⟩
  obtain ⟨δ, hR, hc⟩ := C99_unit C99_ieee.1 two64.2 h4
  have hs : (0:ℝ) < (2 : ℝ) ^ (-1074 : ℤ) := zpow_pos (by norm_num) _
  have hs1 : (2 : ℝ) ^ (-1074 : ℤ) ≤ 1 := by
    have : (2:ℝ) ^ (-1074 : ℤ) ≤ 2 ^ (0 : ℤ) := zpow_le_zpow_right₀ (by norm_num) (by norm_num)
    simpa using this
  have w1 : FRect.Within (f := binary64) ⟨z0, z0, o1, o1⟩ two64 := by
    simp [FRect.Within, z0, o1, two64]
  have w2 : FRect.Within (f := binary64) ⟨o1, z0, two64, o1⟩ two64 := by
    simp [FRect.Within, z0, o1, two64]
  have w3 : FRect.Within (f := binary64) ⟨o1, smallest64, two64, o1⟩ two64 := by
    refine ⟨by simp [o1, two64], ?_, by simp [two64], by simp [o1, two64]⟩
    show |(2 : ℝ) ^ (-1074 : ℤ)| ≤ 2
    rw [abs_of_pos hs]; linarith
  have u1 : (1 : ℝ) ≤ |(FRect.exact (f := binary64) ⟨z0, z0, o1, o1⟩).x1 - (FRect.exact (f := binary64) ⟨z0, z0, o1, o1⟩).x0| := by
    simp [FRect.exact, z0, o1]
  constructor
  · rw [(C99_align hR (isFRect_fltRect _) (isFRect_fltRect _) (hc _ _ u1 u1 w1 w2)).1]
    exact ⟨rfl, rfl⟩
  · rw [(C99_align hR (isFRect_fltRect _) (isFRect_fltRect _) (hc _ _ u1 u1 w1 w3)).1]
    rintro ⟨h, _⟩
    have h1 : (0 : ℝ) = (2 : ℝ) ^ (-1074 : ℤ) := h
    linarith

/-- The conditions also hold for smaller boxes: sizes from `2 ^ -500`, coordinates that differ by at least
`2 ^ -500` if they differ. -/
example : binary64.Resolves ((2 : ℝ) ^ (-500 : ℤ)) ((2 : ℝ) ^ (-500 : ℤ)) 2 := by
  have h4 : (2 * 2 : ℝ) ∈ binary64.nums := ⟨4, 0, by norm_num, by norm_num, by norm_num, by norm_num⟩
  have m : (2 : ℝ) ^ (-500 : ℤ) ∈ binary64.nums := ⟨1, -500, by norm_num, by norm_num, by norm_num, by simp⟩
  have pos : (0 : ℝ) < (2 : ℝ) ^ (-500 : ℤ) := zpow_pos (by norm_num) _
  refine ⟨two64.2, h4, m, m, pos, pos, (2 : ℝ) ^ (-1000 : ℤ),
    ⟨1, -1000, by norm_num, by norm_num, by norm_num, by simp⟩, zpow_pos (by norm_num) _, ?_⟩
  rw [← zpow_add₀ (by norm_num)]
  norm_num

/-- An axes: a square frame with the box of its x axis below. -/
def fltAxes (f : FloatFormat) : Prim (Rnd f) :=
  .mk .axes ⟨4, []⟩ [(k!"Frame", fltRect ⟨z0, z0, o1, o1⟩),
    (k!"XAxis", fltRect ⟨z0, ⟨-1, f.neg_mem _ f.one_mem⟩, o1, z0⟩)]

example : Vanishes (f := binary32) (ct.positionAxis .x .bottom false) [fltAxes _] [] := by
  have hn : (fltAxes binary32).keys.Nodup := by
    show [k!"Frame", k!"XAxis"].Nodup
    decide
  rw [C99_positionAxis C99_ieee.2.2.1 (ax := fltAxes binary32) (frame := fltRect ⟨z0, z0, o1, o1⟩)
    (box := fltRect ⟨z0, ⟨-1, binary32.neg_mem _ binary32.one_mem⟩, o1, z0⟩) (.refl _)
    ⟨hn, by simp [fltAxes]⟩ (isFRect_fltRect _) (kind := .x) ⟨hn, by simp [fltAxes, axisBoxKey]⟩
    (isFRect_fltRect _)]
  exact ⟨rfl, rfl⟩

end MplLayout.Props
