import Verif.Lemmas.Sqrt
import Verif.Props.RoundGrid

/-!
# C99: lengths and grids in floating point arithmetic
-/

namespace MplLayout

open Flt

/-- The computed root of the computed square of any number between `T` and `B` (in size) is its absolute
value. -/
structure FloatFormat.Squares (f : FloatFormat) (T B : ℝ) : Prop where
  T_mem : T ∈ f.nums
  B_mem : B ∈ f.nums
  root : ∀ x ∈ f.nums, T ≤ |x| → |x| ≤ B → ∃ y, 0 ≤ y ∧ f.rnd (x * x) = fin y ∧ f.rnd (Real.sqrt y) = fin |x|

end MplLayout

namespace MplLayout.Props

open Flt Cons

variable {f : FloatFormat} {t δ M T B : ℝ} {l l' : Prim (Rnd f)} {d d' : ℝ}

/-- `l` is a horizontal or vertical line; its (signed) extent is `d`. -/
def Extent (l : Prim (Rnd f)) (d : ℝ) : Prop :=
  (∃ x x' y : f.nums, FLine l (x, y) (x', y) ∧ d = x' - x) ∨
  (∃ x y y' : f.nums, FLine l (x, y) (x, y') ∧ d = y' - y)

/-- C99: in the IEEE formats the computed root of the computed square of a number is its absolute value, if the
square neither underflows nor overflows. -/
theorem C99_squares {p : Nat} {lo hi : ℤ} {hp : 1 ≤ p} {hlo : lo ≤ 0} {hhi : 0 ≤ hi} {T B : ℝ}
    (hT : T ∈ (ieee p lo hi hp hlo hhi).nums) (hB : B ∈ (ieee p lo hi hp hlo hhi).nums) (h0 : 0 < T)
    (hlow : minNormal p lo ≤ T * T) (hhigh : 2 * (B * B) ≤ maxNum p hi) :
    (ieee p lo hi hp hlo hhi).Squares T B := by
  refine ⟨hT, hB, fun x hx h1 h2 => ?_⟩
  have hx' : |x| ∈ binaryNums p lo hi := by
    rcases abs_choice x with e | e <;> rw [e]
    · exact hx
    · exact binary_neg hx
  have e1 : T * T ≤ |x| * |x| := mul_le_mul h1 h1 h0.le (abs_nonneg _)
  have e2 : |x| * |x| ≤ B * B := mul_le_mul h2 h2 (abs_nonneg _) ((abs_nonneg _).trans h2)
  obtain ⟨y, hy, h3, h4⟩ := sqrt_sq_rnd (hp := hp) (hlo := hlo) (hhi := hhi) (x := |x|) (by linarith) hx'
    (hlow.trans e1) (by linarith)
  rw [abs_mul_abs_self] at h3
  exact ⟨y, hy, h3, h4⟩

theorem zero_mul_zero_rnd : (0 : Rnd f) * 0 = 0 := Rnd.round_eq (by simp)
theorem add_zero_rnd (x : Rnd f) : x + 0 = x := by
  rw [Rnd.add_def]
  refine Rnd.round_eq ?_
  cases x.val <;> simp

theorem root_val (hS : f.Squares T B) (D : f.nums) (h1 : T ≤ |(D : ℝ)|) (h2 : |(D : ℝ)| ≤ B) :
    (PyNum.sqrt (Rnd.num D * Rnd.num D)).val = fin |(D : ℝ)| := by
  obtain ⟨y, hy, h3, h4⟩ := hS.root D D.2 h1 h2
  show (Rnd.round f (PyNum.sqrt (Rnd.num D * Rnd.num D).val)).val = _
  have e : (Rnd.num D * Rnd.num D).val = fin y := by
    rw [Rnd.mul_def, Rnd.num_val, fin_mul]; exact h3
  rw [e]
  have e2 : PyNum.sqrt (fin y) = fin (Real.sqrt y) := by
    show Flt.sqrt (fin y) = _
    simp only [Flt.sqrt]
    rw [if_neg (by linarith)]
  rw [e2]
  exact h4

/-- The computed length of a horizontal or vertical line is the absolute value of its rounded extent. -/
theorem length_val (hS : f.Squares T B) (h : Extent l d) (h1 : T ≤ |d|) (h2 : |d| ≤ B) :
    l.ty.IsA .line ∧ ∃ (D : f.nums) (L : Rnd f), f.rnd d = fin D ∧ con.lengthA [l] = .ok (.scalar L) ∧
      L.val = fin |(D : ℝ)| := by
  obtain ⟨D, hD, hDB⟩ := rnd_between hS.B_mem h2
  have hDT := rnd_large hS.T_mem h1 hD
  have hDm := f.rnd_mem _ _ hD
  rcases h with ⟨x, x', y, h, rfl⟩ | ⟨x, y, y', h, rfl⟩
  · refine ⟨h.1, ⟨D, hDm⟩, _, hD, LineAt.length h, ?_⟩
    have e : Rnd.num x' - Rnd.num x = Rnd.num ⟨D, hDm⟩ := Rnd.ext' (by rw [Rnd.sub_val, hD]; rfl)
    simp only [len2, Rnd.pt, num_self, e, zero_mul_zero_rnd, add_zero_rnd, Rnd.zero_add']
    exact root_val hS ⟨D, hDm⟩ hDT hDB
  · refine ⟨h.1, ⟨D, hDm⟩, _, hD, LineAt.length h, ?_⟩
    have e : Rnd.num y' - Rnd.num y = Rnd.num ⟨D, hDm⟩ := Rnd.ext' (by rw [Rnd.sub_val, hD]; rfl)
    simp only [len2, Rnd.pt, num_self, e, zero_mul_zero_rnd, Rnd.zero_add']
    exact root_val hS ⟨D, hDm⟩ hDT hDB

/-- C99, `Length(v)` of a horizontal or vertical line: `v` is the absolute value of the correctly rounded
extent, although the length is computed as the root of a sum of squares. -/
theorem C99_length (hf : f.Gradual) (hS : f.Squares T B) (h : Extent l d) (h1 : T ≤ |d|) (h2 : |d| ≤ B)
    (v : f.nums) : Vanishes ct.length [l] [.num (Rnd.num v)] ↔ ∃ D, f.rnd d = fin D ∧ |D| = v := by
  obtain ⟨hl, D, L, hD, hL, hv⟩ := length_val hS h h1 h2
  rw [vanishes_iff ct_length_eq (GEv.ct_leaf0 (.cons hl .nil) hL rfl (Rnd.num v)).call]
  simp only [Arr.atleast1d, List.map_cons, List.map_nil, List.mem_singleton, forall_eq, sub_num hf, hv, fin_inj]
  constructor
  · exact fun h => ⟨D, hD, h⟩
  · rintro ⟨D', h, h'⟩
    rw [hD] at h
    cases h
    exact h'

/-- The extent `d` is, as computed, `v` times the extent `d'` (in size): with `D` and `D'` the rounded extents,
`-(v * |D'|)` is rounded to `-|D|`. -/
def Times (f : FloatFormat) (v d d' : ℝ) : Prop :=
  ∃ D D', f.rnd d = fin D ∧ f.rnd d' = fin D' ∧ f.rnd (-(v * |D'|)) = fin (-|D|)

theorem sum_zero (hf : f.Gradual) (a : f.nums) (z : Rnd f) :
    (Rnd.num a + z).val = fin 0 ↔ z.val = fin (-a) := by
  have e : Rnd.num a + z = Rnd.num a - -z := by
    rw [Rnd.add_def, Rnd.sub_def, Rnd.neg_val]
    congr 1
    cases z.val <;> simp
  rw [e, hf.sub_val_zero, Rnd.neg_val]
  cases h : z.val with
  | bad => simp
  | fin b =>
    simp only [Rnd.num_val, fin_neg, fin_inj, ne_eq, reduceCtorEq, not_false_eq_true, and_true]
    constructor <;> intro h <;> linarith

theorem revS_relLen (hf : f.Gradual) (hS : f.Squares T B) (h : Extent l d) (h' : Extent l' d')
    (h1 : T ≤ |d|) (h2 : |d| ≤ B) (h1' : T ≤ |d'|) (h2' : |d'| ≤ B) (v : f.nums) :
    REvS relLenT [l, l'] [.num (Rnd.num v)] (Times f v d d') := by
  obtain ⟨hl, D, L, hD, hL, hv⟩ := length_val hS h h1 h2
  obtain ⟨hl', D', L', hD', hL', hv'⟩ := length_val hS h' h1' h2'
  refine ⟨[L + Rnd.num v * (-1 * L')], ⟨Node.WF_mk.mpr ⟨by simp [sumTreeL], by
    intro k c hm; cases hm⟩, ⟨.cons hl (.cons hl' .nil), rfl⟩, ⟨rfl, ?_⟩, ?_⟩, ?_⟩
  · intro pss e
    cases e
    exact ⟨le_rfl, trivial⟩
  · rw [relLen_assem, hL, hL']
    rfl
  · have habs : ∀ D : f.nums, |(D : ℝ)| ∈ f.nums := by
      intro D
      rcases abs_choice (D : ℝ) with e | e <;> rw [e]
      · exact D.2
      · exact f.neg_mem _ D.2
    have e1 : L = Rnd.num ⟨|(D : ℝ)|, habs D⟩ := Rnd.ext' hv
    have e2 : (Rnd.num v * (-1 * L')).val = f.rnd (-(v * |(D' : ℝ)|)) := by
      rw [Rnd.neg_one_mul', Rnd.mul_def, Rnd.num_val, Rnd.neg_val, hv', fin_neg, fin_mul, mul_neg]
      rfl
    simp only [List.mem_singleton, forall_eq]
    rw [e1, sum_zero hf, e2]
    constructor
    · exact fun h => ⟨D, D', hD, hD', h⟩
    · rintro ⟨E, E', h, h', h''⟩
      rw [hD] at h
      rw [hD'] at h'
      cases h
      cases h'
      exact h''

/-- C99, `RelativeLength(v)` of horizontal or vertical lines: the rounded extent of the first is the correctly
rounded multiple of the rounded extent of the second. -/
theorem C99_relativeLength (hf : f.Gradual) (hS : f.Squares T B) (h : Extent l d) (h' : Extent l' d')
    (h1 : T ≤ |d|) (h2 : |d| ≤ B) (h1' : T ≤ |d'|) (h2' : |d'| ≤ B) (v : f.nums) :
    Vanishes ct.relativeLength [l, l'] [.num (Rnd.num v)] ↔ Times f v d d' :=
  REvS.vanishes relativeLength_eq (revS_relLen hf hS h h' h1 h2 h1' h2' v)

/-! ## Grids -/

theorem revS_relLenMap (hf : f.Gradual) (hS : f.Squares T B) {lines : List (Prim (Rnd f))} {n : Nat}
    {d : Nat → ℝ} (hl : lines.length = n + 1)
    (h : ∀ i, i < n + 1 → ∃ l, lines[i]? = some l ∧ Extent l (d i))
    (hd : ∀ i, i < n + 1 → T ≤ |d i| ∧ |d i| ≤ B) (ws : Nat → f.nums) :
    REvS (mapCons relLenT (n + 1)) lines ((List.range n).map fun i => .num (Rnd.num (ws i)))
      (∀ i, i < n → Times f (ws i) (d i) (d n)) := by
  have hpt : (relLenT (K := Rnd f)).value.sig.paramTypes.length = 1 := rfl
  refine REvS.map2 (c := relLenT) (t := .line) rfl hl ?_ (by simp [hpt]) ?_
  · intro p hp
    obtain ⟨i, hi, rfl⟩ := List.getElem_of_mem hp
    obtain ⟨q, hq, hr⟩ := h i (hl ▸ hi)
    rw [List.getElem?_eq_getElem hi] at hq
    cases hq
    rcases hr with ⟨_, _, _, hr, _⟩ | ⟨_, _, _, hr, _⟩ <;> exact hr.1
  · intro i p q hi h1 h2
    obtain ⟨l, hl1, hl2⟩ := h i (by omega)
    obtain ⟨m, hm1, hm2⟩ := h n (by omega)
    rw [h1] at hl1
    rw [h2] at hm1
    cases hl1; cases hm1
    rw [hpt, take_drop_one (x := .num (Rnd.num (ws i))) (by simp [hi])]
    exact revS_relLen hf hS hl2 hm2 (hd i (by omega)).1 (hd i (by omega)).2 (hd n (by omega)).1
      (hd n (by omega)).2 (ws i)

theorem rpyMap_lineKeys {prims : List (Prim (Rnd f))} {n : Nat} {g : Nat → Nat} {d : Nat → ℝ}
    {k : Str}
    (h : ∀ i, i < n → ∃ q l, prims[g i]? = some q ∧ q.getChild k = .ok l ∧ Extent l (d i)) :
    ∃ lines, pyMap (resolve prims) ((List.range n).map fun i => ct.argKey (g i) ++ '/' :: k)
        = .ok lines ∧ lines.length = n ∧
      ∀ i, i < n → ∃ l, lines[i]? = some l ∧ Extent l (d i) := by
  have : ∀ i : Fin n, ∃ q l, prims[g i]? = some q ∧ q.getChild k = .ok l ∧ Extent l (d i) :=
    fun i => h i i.2
  choose q k1 hq hg hr using this
  refine ⟨List.ofFn k1, ?_, by simp, ?_⟩
  · rw [pyMap_ok, List.forall₂_iff_get]
    refine ⟨by simp, ?_⟩
    intro i h1 h2
    simp only [List.get_eq_getElem, List.getElem_map, List.getElem_range, List.getElem_ofFn]
    have := resolve_argKey_path prims (g i) k
    rw [hq ⟨i, by simpa using h2⟩] at this
    exact this.trans (hg _)
  · intro i hi
    exact ⟨k1 ⟨i, hi⟩, by simp [hi], hr ⟨i, hi⟩⟩

theorem rpyMap_all {prims : List (Prim (Rnd f))} {n : Nat} (h : prims.length = n) :
    pyMap (resolve prims) ((List.range n).map ct.argKey) = .ok prims := by
  have := resolve_range (prims := prims) (a := 0) (m := n) (by omega)
  rw [List.drop_zero] at this
  rw [← this]
  congr 1
  refine List.map_congr_left fun i _ => ?_
  rw [Nat.zero_add]; rfl


/-- An array parameter with the entries `xs 0`, ..., `xs (n - 1)`. -/
def fArr (n : Nat) (xs : Nat → f.nums) : Param (Rnd f) :=
  .arr ((List.range n).map fun i => Rnd.num (xs i))

theorem iter_fArr (n : Nat) (xs : Nat → f.nums) :
    (fArr n xs).iter = .ok ((List.range n).map fun i => .num (Rnd.num (xs i))) := by
  simp [fArr, Param.iter]

theorem FRect.Within.width {r : FRect f} (h : r.Within M) : |r.exact.x1 - r.exact.x0| ≤ 2 * M :=
  (abs_sub _ _).trans (by
    have h1 := h.1
    have h2 := h.2.2.1
    simp only [FRect.exact]
    linarith)

theorem FRect.Within.height {r : FRect f} (h : r.Within M) : |r.exact.y1 - r.exact.y0| ≤ 2 * M :=
  (abs_sub _ _).trans (by
    have h1 := h.2.1
    have h2 := h.2.2.2
    simp only [FRect.exact]
    linarith)

/-- The grid as computed: it is aligned exactly; the sizes of the other columns and rows are the rounded multiples
of the rounded sizes of the first; the margins are the correctly rounded gaps. -/
def FGridLaidOut (R C : Nat) (rect : Nat → Nat → FRect f) (ws hs ms ns : Nat → f.nums) : Prop :=
  (GridAligned R C fun r c => (rect r c).exact) ∧
  (∀ c, c + 1 < C → Times f (ws c) ((rect 0 (c + 1)).exact.x1 - (rect 0 (c + 1)).exact.x0)
    ((rect 0 0).exact.x1 - (rect 0 0).exact.x0)) ∧
  (∀ r, r + 1 < R → Times f (hs r) ((rect (r + 1) 0).exact.y1 - (rect (r + 1) 0).exact.y0)
    ((rect 0 0).exact.y1 - (rect 0 0).exact.y0)) ∧
  (∀ c, c + 1 < C → f.rnd ((rect 0 (c + 1)).exact.x0 - (rect 0 c).exact.x1) = fin (ms c)) ∧
  (∀ r, r + 1 < R → f.rnd ((rect r 0).exact.y0 - (rect (r + 1) 0).exact.y1) = fin (ns r))

/-- C99, `Grid`: for every grid shape, the residual is computed as zero exactly if the grid is laid out in this
sense. -/
theorem C99_grid (hf : f.Gradual) (hb : f.Binary) (hR : f.Resolves t δ M) (hS : f.Squares t (2 * M))
    {prims : List (Prim (Rnd f))} {R C : Nat} {rect : Nat → Nat → FRect f} (hR0 : 0 < R) (hC0 : 0 < C)
    (h : IsFGrid prims R C rect)
    (hp : ∀ r c r' c', r < R → c < C → r' < R → c' < C → FRect.Clear t δ M (rect r c) (rect r' c'))
    (ws hs ms ns : Nat → f.nums) :
    Vanishes (ct.grid R C) prims [fArr (C - 1) ws, fArr (R - 1) hs, fArr (C - 1) ms, fArr (R - 1) ns] ↔
      FGridLaidOut R C rect ws hs ms ns := by
  obtain ⟨R, rfl⟩ : ∃ n, R = n + 1 := ⟨R - 1, by omega⟩
  obtain ⟨C, rfl⟩ : ∃ n, C = n + 1 := ⟨C - 1, by omega⟩
  simp only [Nat.add_sub_cancel]
  -- the five groups of constraints
  have e1 := revS_rectGrid hR h hp
  obtain ⟨lw, w1, w2, w3⟩ := rpyMap_lineKeys (prims := prims) (n := C + 1)
    (g := fun i => if i < C then i + 1 else 0) (k := k!"Line0")
    (d := fun i => (rect 0 (if i < C then i + 1 else 0)).exact.x1 - (rect 0 (if i < C then i + 1 else 0)).exact.x0)
    (by
      intro i hi
      obtain ⟨q, hq, hr⟩ := h.at' 0 (if i < C then i + 1 else 0) (by omega)
        (by split <;> omega)
      obtain ⟨l0, l1, l2, l3, g0, g1, g2, g3, h0, h1, h2, h3⟩ := QuadAt.lines hr
      exact ⟨q, l0, by simpa using hq, g0, Or.inl ⟨_, _, _, h0, rfl⟩⟩)
  have hw : ∀ i, i < C + 1 → t ≤ |(rect 0 (if i < C then i + 1 else 0)).exact.x1 -
      (rect 0 (if i < C then i + 1 else 0)).exact.x0| ∧ |(rect 0 (if i < C then i + 1 else 0)).exact.x1 -
      (rect 0 (if i < C then i + 1 else 0)).exact.x0| ≤ 2 * M := by
    intro i hi
    have := hp 0 (if i < C then i + 1 else 0) 0 0 (by omega) (by split <;> omega) (by omega) (by omega)
    exact ⟨this.wide, this.left.width⟩
  have e2 := revS_relLenMap hf hS w2 w3 hw ws
  obtain ⟨lh, v1, v2, v3⟩ := rpyMap_lineKeys (prims := prims) (n := R + 1)
    (g := fun i => (if i < R then i + 1 else 0) * (C + 1)) (k := k!"Line1")
    (d := fun i => (rect (if i < R then i + 1 else 0) 0).exact.y1 - (rect (if i < R then i + 1 else 0) 0).exact.y0)
    (by
      intro i hi
      obtain ⟨q, hq, hr⟩ := h.at' (if i < R then i + 1 else 0) 0
        (by split <;> omega) (by omega)
      obtain ⟨l0, l1, l2, l3, g0, g1, g2, g3, h0, h1, h2, h3⟩ := QuadAt.lines hr
      exact ⟨q, l1, by simpa using hq, g1, Or.inr ⟨_, _, _, h1, rfl⟩⟩)
  have hv : ∀ i, i < R + 1 → t ≤ |(rect (if i < R then i + 1 else 0) 0).exact.y1 -
      (rect (if i < R then i + 1 else 0) 0).exact.y0| ∧ |(rect (if i < R then i + 1 else 0) 0).exact.y1 -
      (rect (if i < R then i + 1 else 0) 0).exact.y0| ≤ 2 * M := by
    intro i hi
    have := hp (if i < R then i + 1 else 0) 0 0 0 (by split <;> omega) (by omega) (by omega) (by omega)
    exact ⟨this.high, this.left.height⟩
  have e3 := revS_relLenMap hf hS v2 v3 hv hs
  obtain ⟨qc, c1, c2⟩ := rpyMap_keys (prims := prims) (n := C + 1) (g := fun c => 0 * (C + 1) + c)
    (rect := fun c => rect 0 c) (fun c hc => h.at' 0 c (by omega) hc)
  have e4 := revS_marginArray c2 (gap := fun r s => outerGap .right r.exact s.exact)
    (H := fun r s => r.Within M ∧ s.Within M)
    (fun i hi => ⟨(hp 0 i 0 i (by omega) (by omega) (by omega) (by omega)).left,
      (hp 0 (i + 1) 0 i (by omega) (by omega) (by omega) (by omega)).left⟩)
    (fun h h' hs v => revS_margin hf hb hR.M_mem hR.M2_mem .right h h' hs v) ms
  obtain ⟨qr, r1, r2⟩ := rpyMap_keys (prims := prims) (n := R + 1) (g := fun r => r * (C + 1) + 0)
    (rect := fun r => rect r 0) (fun r hr => h.at' r 0 hr (by omega))
  have e5 := revS_marginArray r2 (gap := fun r s => outerGap .bottom r.exact s.exact)
    (H := fun r s => r.Within M ∧ s.Within M)
    (fun i hi => ⟨(hp i 0 i 0 (by omega) (by omega) (by omega) (by omega)).left,
      (hp (i + 1) 0 i 0 (by omega) (by omega) (by omega) (by omega)).left⟩)
    (fun h h' hs v => revS_margin hf hb hR.M_mem hR.M2_mem .bottom h h' hs v) ns
  -- together
  let P : Nat → Prop := fun i => match i with
    | 0 => GridAligned (R + 1) (C + 1) fun r c => (rect r c).exact
    | 1 => ∀ c, c < C → Times f (ws c) ((rect 0 (c + 1)).exact.x1 - (rect 0 (c + 1)).exact.x0)
        ((rect 0 0).exact.x1 - (rect 0 0).exact.x0)
    | 2 => ∀ r, r < R → Times f (hs r) ((rect (r + 1) 0).exact.y1 - (rect (r + 1) 0).exact.y0)
        ((rect 0 0).exact.y1 - (rect 0 0).exact.y0)
    | 3 => ∀ c, c < C → f.rnd (outerGap .right (rect 0 c).exact (rect 0 (c + 1)).exact) = fin (ms c)
    | _ => ∀ r, r < R → f.rnd (outerGap .bottom (rect r 0).exact (rect (r + 1) 0).exact) = fin (ns r)
  have key : REvS (gridT (cstr (gMargin true .right)) (cstr (gMargin true .bottom)) (R + 1) (C + 1))
      prims [fArr C ws, fArr R hs, fArr C ms, fArr R ns] (∀ i, i < 5 → P i) := by
    refine REvS.compound (P := P)
      (pss := [[], (List.range C).map fun i => .num (Rnd.num (ws i)),
        (List.range R).map fun i => .num (Rnd.num (hs i)),
        (List.range C).map fun i => .num (Rnd.num (ms i)),
        (List.range R).map fun i => .num (Rnd.num (ns i))])
      (by simp only [List.map_cons, List.map_nil]; decide) rfl ?_
      (rforall₂_replicate h.len h.quads) rfl rfl (by simp) ?_
    · simp only [ct.gridParams, iter_fArr, bind, Except.bind]
    · intro i kc ks ps a b d
      match i with
      | 0 =>
        simp only [List.getElem?_cons_zero, Option.some.injEq] at a b d
        subst a b d
        exact ⟨prims, rpyMap_all h.len, e1⟩
      | 1 =>
        simp only [List.getElem?_cons_succ, List.getElem?_cons_zero, Option.some.injEq] at a b d
        subst a b d
        refine ⟨lw, ?_, e2.congr ?_⟩
        · simp only [gidx_eq, rot1_range, List.map_map]
          simpa [Function.comp_def] using w1
        · constructor
          · intro hh c hc
            have := hh c hc
            simpa [hc] using this
          · intro hh c hc
            have := hh c hc
            simpa [hc] using this
      | 2 =>
        simp only [List.getElem?_cons_succ, List.getElem?_cons_zero, Option.some.injEq] at a b d
        subst a b d
        refine ⟨lh, ?_, e3.congr ?_⟩
        · simp only [gidx_eq, rot1_range, List.map_map]
          simpa [Function.comp_def] using v1
        · constructor
          · intro hh c hc
            have := hh c hc
            simpa [hc] using this
          · intro hh c hc
            have := hh c hc
            simpa [hc] using this
      | 3 =>
        simp only [List.getElem?_cons_succ, List.getElem?_cons_zero, Option.some.injEq] at a b d
        subst a b d
        refine ⟨qc, ?_, e4⟩
        simpa only [gidx_eq] using c1
      | 4 =>
        simp only [List.getElem?_cons_succ, List.getElem?_cons_zero, Option.some.injEq] at a b d
        subst a b d
        refine ⟨qr, ?_, e5⟩
        simpa only [gidx_eq] using r1
      | n + 5 => simp at a
  rw [REvS.vanishes (grid_eq (gct_margin_eq true .right) (gct_margin_eq true .bottom) _ _) key]
  constructor
  · intro hh
    exact ⟨hh 0 (by omega), fun c hc => hh 1 (by omega) c (by omega),
      fun c hc => hh 2 (by omega) c (by omega), fun c hc => hh 3 (by omega) c (by omega),
      fun c hc => hh 4 (by omega) c (by omega)⟩
  · rintro ⟨h0, h1, h2, h3, h4⟩ i hi
    match i with
    | 0 => exact h0
    | 1 => exact fun c hc => h1 c (by omega)
    | 2 => exact fun c hc => h2 c (by omega)
    | 3 => exact fun c hc => h3 c (by omega)
    | 4 => exact fun c hc => h4 c (by omega)
    | n + 5 => omega


/-! A concrete grid: two boxes in a row, the second twice as wide as the first, one unit apart. -/

theorem int64 (n : ℤ) (h : |n| < 2 ^ 53) : (n : ℝ) ∈ binary64.nums :=
  ⟨n, 0, h, by norm_num, by norm_num, by simp⟩

/-- An integer, as a `float64`. -/
noncomputable def i64 (n : ℤ) (h : |n| < 2 ^ 53 := by norm_num) : binary64.nums := ⟨n, int64 n h⟩

/-- The conditions for `float64`: sizes from `2 ^ -500` to `2 ^ 500`. -/
theorem C99_squares64 : binary64.Squares ((2 : ℝ) ^ (-500 : ℤ)) ((2 : ℝ) ^ (500 : ℤ)) := by
  refine C99_squares ⟨1, -500, by norm_num, by norm_num, by norm_num, by simp⟩
    ⟨1, 500, by norm_num, by norm_num, by norm_num, by simp⟩ (zpow_pos (by norm_num) _) ?_ ?_
  · unfold minNormal
    rw [← zpow_add₀ (by norm_num)]
    exact zpow_le_zpow_right₀ (by norm_num) (by norm_num)
  · unfold maxNum
    have h1 : (2 : ℝ) * (2 ^ (500 : ℤ) * 2 ^ (500 : ℤ)) = 2 ^ (30 : ℤ) * 2 ^ (971 : ℤ) := by
      rw [← zpow_add₀ (by norm_num), ← zpow_add₀ (by norm_num), ← zpow_one_add₀ (by norm_num)]
      norm_num
    rw [h1]
    exact mul_le_mul_of_nonneg_right (by norm_num) (zpow_nonneg (by norm_num) _)

/-- The two boxes. -/
noncomputable def boxes64 (_ c : Nat) : FRect binary64 :=
  if c = 0 then ⟨i64 0, i64 0, i64 1, i64 1⟩ else ⟨i64 2, i64 0, i64 4, i64 1⟩

example : Vanishes (f := binary64) (ct.grid 1 2) [fltRect (boxes64 0 0), fltRect (boxes64 0 1)]
    [fArr 1 fun _ => i64 2, fArr 0 fun _ => i64 0, fArr 1 fun _ => i64 1, fArr 0 fun _ => i64 0] := by
  have hM2 : (2 * 4 : ℝ) ∈ binary64.nums := by
    have := (i64 8).2
    have e : ((i64 8 : binary64.nums) : ℝ) = 2 * 4 := by simp [i64]; norm_num
    rwa [← e]
  have hM : (4 : ℝ) ∈ binary64.nums := by
    have e : ((i64 4 : binary64.nums) : ℝ) = 4 := by simp [i64]
    rw [← e]
    exact (i64 4).2
  obtain ⟨δ, hR, hc⟩ := C99_unit C99_ieee.1 hM hM2
  have hS : binary64.Squares 1 (2 * 4) := by
    refine ⟨binary64.one_mem, hM2, fun x hx h1 h2 => C99_squares64.root x hx ?_ ?_⟩
    · refine le_trans ?_ h1
      exact zpow_le_one_of_nonpos₀ (by norm_num) (by norm_num)
    · refine le_trans h2 ?_
      have : (2 : ℝ) ^ (3 : ℤ) ≤ 2 ^ (500 : ℤ) := zpow_le_zpow_right₀ (by norm_num) (by norm_num)
      exact le_trans (by norm_num) this
  have hw : ∀ c, (boxes64 0 c).Within 4 := by
    intro c
    unfold boxes64
    split <;> norm_num [FRect.Within, i64]
  have hx : ∀ c, 1 ≤ |(boxes64 0 c).exact.x1 - (boxes64 0 c).exact.x0| := by
    intro c
    unfold boxes64
    split <;> norm_num [FRect.exact, i64]
  have hy : ∀ c, 1 ≤ |(boxes64 0 c).exact.y1 - (boxes64 0 c).exact.y0| := by
    intro c
    unfold boxes64
    split <;> norm_num [FRect.exact, i64]
  have ri : ∀ n : ℤ, |n| < 2 ^ 53 → binary64.rnd (n : ℝ) = fin (n : ℝ) :=
    fun n h => binary64.rnd_of_mem _ (int64 n h)
  refine (C99_grid (R := 1) (C := 2) (rect := boxes64) C99_ieee.1 C99_ieee.2.1 hR hS (by norm_num) (by norm_num)
    ⟨rfl, ?_⟩ ?_ _ _ _ _).mpr ⟨⟨?_, ?_⟩, ?_, ?_, ?_, ?_⟩
  · intro r c hr hc
    obtain rfl : r = 0 := by omega
    have : c = 0 ∨ c = 1 := by omega
    rcases this with rfl | rfl
    · exact ⟨_, rfl, isFRect_fltRect _⟩
    · exact ⟨_, rfl, isFRect_fltRect _⟩
  · intro r c r' c' hr _ hr' _
    obtain rfl : r = 0 := by omega
    obtain rfl : r' = 0 := by omega
    exact hc _ _ (hx c) (hy c) (hw c) (hw c')
  · intro r c c' _ _ _
    dsimp only
    unfold boxes64
    constructor <;> split <;> split <;> rfl
  · intro c r r' _ hr hr'
    obtain rfl : r = 0 := by omega
    obtain rfl : r' = 0 := by omega
    exact ⟨rfl, rfl⟩
  · intro c hc
    obtain rfl : c = 0 := by omega
    refine ⟨2, 1, ?_, ?_, ?_⟩
    · have := ri 2 (by norm_num)
      convert this using 2 <;> norm_num [boxes64, FRect.exact, i64]
    · have := ri 1 (by norm_num)
      convert this using 2 <;> norm_num [boxes64, FRect.exact, i64]
    · have := ri (-2) (by norm_num)
      convert this using 2 <;> norm_num [i64]
  · intro r hr; omega
  · intro c hc
    obtain rfl : c = 0 := by omega
    have := ri 1 (by norm_num)
    convert this using 2 <;> norm_num [boxes64, FRect.exact, i64]
  · intro r hr; omega

end MplLayout.Props
