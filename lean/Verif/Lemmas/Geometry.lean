import Verif.Lemmas.ConstraintFlt
import Verif.Spec.Geometry
import Mathlib.Tactic.Ring
import Mathlib.Tactic.Linarith

/-! Values of the shipped constructions on primitives with known coordinates. -/

namespace MplLayout

open Flt

section generic
variable {K : Type} [PyNum K]

/-! ## Structure -/

omit [PyNum K] in
theorem getChild_line {l p q : Prim K} (h : l.children = [(k!"Point0", p), (k!"Point1", q)]) :
    l.getChild k!"Point0" = .ok p ∧ l.getChild k!"Point1" = .ok q := by
  cases l; simp only [Node.children_mk] at h; subst h; exact ⟨rfl, rfl⟩

omit [PyNum K] in
theorem getChild_quad {q l0 l1 l2 l3 : Prim K} (h : q.children =
    [(k!"Line0", l0), (k!"Line1", l1), (k!"Line2", l2), (k!"Line3", l3)]) :
    q.getChild k!"Line0" = .ok l0 ∧ q.getChild k!"Line1" = .ok l1 ∧
    q.getChild k!"Line2" = .ok l2 ∧ q.getChild k!"Line3" = .ok l3 := by
  cases q; simp only [Node.children_mk] at h; subst h; exact ⟨rfl, rfl, rfl, rfl⟩

omit [PyNum K] in
theorem resolve_arg0 (p : Prim K) (ps : List (Prim K)) (s : Str) :
    resolve (p :: ps) (k!"arg0/" ++ s) = p.getChild s :=
  resolve_argKey_path (p :: ps) 0 s

omit [PyNum K] in
theorem resolve_arg1 (p q : Prim K) (ps : List (Prim K)) (s : Str) :
    resolve (p :: q :: ps) (k!"arg1/" ++ s) = q.getChild s :=
  resolve_argKey_path (p :: q :: ps) 1 s

end generic

section generic0
variable {K : Type}

/-! ## Calls of leaves -/

theorem leaf0_call {name : Str} {types : List PrimType} {size : Nat}
    {f : List (Prim K) → Py (Arr K)} {prims : List (Prim K)}
    (hacc : List.Forall₂ (fun (p : Prim K) t => p.ty.IsA t) prims types) {a : Arr K}
    (hf : f prims = .ok a) : (con.leaf0 name types size f).call prims [] = .ok a.atleast1d :=
  (Cons.leaf_call _ _ _ _ _).mpr ⟨⟨hacc, rfl⟩, a, hf, rfl⟩

theorem leaf1_call {name : Str} {types : List PrimType} {pt : ParamType} {size : Nat}
    {f : List (Prim K) → Param K → Py (Arr K)} {prims : List (Prim K)}
    (hacc : List.Forall₂ (fun (p : Prim K) t => p.ty.IsA t) prims types) {a : Arr K} {x : Param K}
    (hf : f prims x = .ok a) : (con.leaf1 name types pt size f).call prims [x] = .ok a.atleast1d :=
  (Cons.leaf_call _ _ _ _ _).mpr ⟨⟨hacc, rfl⟩, a, hf, rfl⟩

theorem leaf0_eval {name : Str} {types : List PrimType} {size : Nat}
    {f : List (Prim K) → Py (Arr K)} {prims : List (Prim K)} {a : Arr K}
    (hf : f prims = .ok a) : (con.leaf0 name types size f).eval prims [] = .ok a.atleast1d :=
  (Cons.leaf_eval _ _ _ _ _).mpr ⟨a, hf, rfl⟩

theorem leaf1_eval {name : Str} {types : List PrimType} {pt : ParamType} {size : Nat}
    {f : List (Prim K) → Param K → Py (Arr K)} {prims : List (Prim K)} {a : Arr K} {x : Param K}
    (hf : f prims x = .ok a) : (con.leaf1 name types pt size f).eval prims [x] = .ok a.atleast1d :=
  (Cons.leaf_eval _ _ _ _ _).mpr ⟨a, hf, rfl⟩

end generic0

section generic
variable {K : Type} [PyNum K]

/-! ## Values -/

variable {l l' p q : Prim K} {a b c d : K × K}

omit [PyNum K] in
theorem PointAt.coord (h : PointAt p a) : con.coordinateA [p] = .ok (.vec [a.1, a.2]) := by
  show Except.ok (Arr.vec p.value.arr) = _
  rw [h.2]

theorem sub_pt (a b : K × K) :
    Arr.sub (.vec [b.1, b.2]) (.vec [a.1, a.2]) = .ok (.vec [b.1 - a.1, b.2 - a.2]) := rfl

/-- Scalar product in the plane, as computed. -/
def dot2 (u v : K × K) : K := 0 + u.1 * v.1 + u.2 * v.2

theorem dot_pt (u v : K × K) :
    Arr.dot (.vec [u.1, u.2]) (.vec [v.1, v.2]) = .ok (.scalar (dot2 u v)) := rfl

theorem LineAt.vec (h : LineAt l a b) :
    con.lineVectorA [l] = .ok (.vec [b.1 - a.1, b.2 - a.2]) := by
  obtain ⟨_, p, q, hc, hp, hq⟩ := h
  have : con.lineVectorA [l] = Arr.sub (.vec q.value.arr) (.vec p.value.arr) := by
    cases l; simp only [Node.children_mk] at hc; subst hc; rfl
  rw [this, hp.2, hq.2, sub_pt]

omit [PyNum K] in
theorem LineAt.points (h : LineAt l a b) : ∃ p q, l.getChild k!"Point0" = .ok p ∧
    l.getChild k!"Point1" = .ok q ∧ PointAt p a ∧ PointAt q b := by
  obtain ⟨_, p, q, hc, hp, hq⟩ := h
  exact ⟨p, q, (getChild_line hc).1, (getChild_line hc).2, hp, hq⟩

omit [PyNum K] in
theorem QuadAt.lines (h : QuadAt q a b c d) : ∃ l0 l1 l2 l3, q.getChild k!"Line0" = .ok l0 ∧
    q.getChild k!"Line1" = .ok l1 ∧ q.getChild k!"Line2" = .ok l2 ∧ q.getChild k!"Line3" = .ok l3 ∧
    LineAt l0 a b ∧ LineAt l1 b c ∧ LineAt l2 c d ∧ LineAt l3 d a := by
  obtain ⟨_, l0, l1, l2, l3, hc, h0, h1, h2, h3⟩ := h
  obtain ⟨g0, g1, g2, g3⟩ := getChild_quad hc
  exact ⟨l0, l1, l2, l3, g0, g1, g2, g3, h0, h1, h2, h3⟩

/-- Square of the length, as computed. -/
def len2 (v : K × K) : K := 0 + v.1 * v.1 + v.2 * v.2

theorem LineAt.length (h : LineAt l a b) :
    con.lengthA [l] = .ok (.scalar (PyNum.sqrt (len2 (b.1 - a.1, b.2 - a.2)))) := by
  simp only [con.lengthA, h.vec, bind, Except.bind]
  rfl

theorem LineAt.unit (h : LineAt l a b) : con.unitLineVectorA [l] = .ok (.vec
    [(b.1 - a.1) / PyNum.sqrt (len2 (b.1 - a.1, b.2 - a.2)),
     (b.2 - a.2) / PyNum.sqrt (len2 (b.1 - a.1, b.2 - a.2))]) := by
  simp only [con.unitLineVectorA, h.vec, bind, Except.bind]
  rfl

theorem LineAt.directedLength (h : LineAt l a b) (v : K × K) :
    con.directedLengthA (.vec [v.1, v.2]) [l]
      = .ok (.scalar (dot2 (b.1 - a.1, b.2 - a.2) v)) := by
  simp only [con.directedLengthA, h.vec, bind, Except.bind]
  rfl

theorem PointAt.directedDistance (hp : PointAt p a) (hq : PointAt q b) (v : K × K) :
    con.directedDistanceA (.vec [v.1, v.2]) [p, q]
      = .ok (.scalar (dot2 (b.1 - a.1, b.2 - a.2) v)) := by
  simp only [con.directedDistanceA, hp.2, hq.2, sub_pt, bind, Except.bind]
  rfl

/-- Midpoint, as computed. -/
def mid (a b : K × K) : K × K :=
  (1 / ((2 : Nat) : K) * (a.1 + b.1), 1 / ((2 : Nat) : K) * (a.2 + b.2))

theorem LineAt.midpoint (h : LineAt l a b) :
    con.midpointA [l] = .ok (.vec [(mid a b).1, (mid a b).2]) := by
  obtain ⟨p, q, h0, h1, hp, hq⟩ := h.points
  simp only [con.midpointA, h0, h1, hp.coord, hq.coord, bind, Except.bind]
  rfl

theorem LineAt.midpointDistance (h : LineAt l a b) (h' : LineAt l' c d) (v : K × K) :
    con.midpointDirectedDistanceA (.vec [v.1, v.2]) [l, l'] = .ok (.scalar
      (dot2 ((mid c d).1 - (mid a b).1, (mid c d).2 - (mid a b).2) v)) := by
  simp only [con.midpointDirectedDistanceA, h.midpoint, h'.midpoint, bind, Except.bind, sub_pt]
  rfl

theorem LineAt.angle (h : LineAt l a b) (h' : LineAt l' c d) :
    con.angleA [l, l'] = .ok (.scalar
      (PyNum.atan2 ((d.2 - c.2) / PyNum.sqrt (len2 (d.1 - c.1, d.2 - c.2)))
          ((d.1 - c.1) / PyNum.sqrt (len2 (d.1 - c.1, d.2 - c.2))) -
        PyNum.atan2 ((b.2 - a.2) / PyNum.sqrt (len2 (b.1 - a.1, b.2 - a.2)))
          ((b.1 - a.1) / PyNum.sqrt (len2 (b.1 - a.1, b.2 - a.2))))) := by
  simp only [con.angleA, h.unit, h'.unit, bind, Except.bind]
  rfl

theorem pointOnLine {r : Param K} {t : Bool} (hr : r.truthy = .ok t) (hp : PointAt p c)
    (h : LineAt l a b) :
    con.pointOnLineDistanceA [p, l] r = .ok (.scalar (
      let n := PyNum.sqrt (len2 (b.1 - a.1, b.2 - a.2))
      if t then dot2 (c.1 - b.1, c.2 - b.2) (-((b.1 - a.1) / n), -((b.2 - a.2) / n))
      else dot2 (c.1 - a.1, c.2 - a.2) ((b.1 - a.1) / n, (b.2 - a.2) / n))) := by
  obtain ⟨p0, p1, h0, h1, hp0, hp1⟩ := h.points
  cases t <;>
    simp only [con.pointOnLineDistanceA, hr, h.unit, h0, h1, hp.2, hp0.2, hp1.2, bind,
      Except.bind, sub_pt, if_true, Bool.false_eq_true, if_false] <;>
    rfl

theorem pointToLine {r : Param K} {t : Bool} (hr : r.truthy = .ok t) (hp : PointAt p c)
    (h : LineAt l a b) :
    con.pointToLineDistanceA [p, l] r = .ok (.scalar (
      let n := PyNum.sqrt (len2 (b.1 - a.1, b.2 - a.2))
      let u := ((b.1 - a.1) / n, (b.2 - a.2) / n)
      let s : K := if t then 1 else -1
      dot2 (c.1 - a.1, c.2 - a.2) (u.2 * s - 0 * 0, 0 * 0 - u.1 * s))) := by
  obtain ⟨p0, p1, h0, h1, hp0, hp1⟩ := h.points
  cases t <;>
    simp only [con.pointToLineDistanceA, hr, h.unit, h0, hp.2, hp0.2, bind,
      Except.bind, sub_pt, if_true, Bool.false_eq_true, if_false] <;>
    rfl

end generic

/-! ## Real coordinates -/

section real
variable {l l' p p' q : Prim Flt} {a b c d : ℝ × ℝ}

theorem dist2_pos (h : a ≠ b) : 0 < dist2 a b := by
  apply Real.sqrt_pos.mpr
  rcases eq_or_ne a.1 b.1 with h1 | h1
  · have h2 : a.2 ≠ b.2 := fun h2 => h (Prod.ext h1 h2)
    have : 0 < (b.2 - a.2) ^ 2 := by have := sub_ne_zero.mpr h2.symm; positivity
    positivity
  · have := sub_ne_zero.mpr h1.symm; positivity

theorem dist2_self (a : ℝ × ℝ) : dist2 a a = 0 := by simp [dist2]

theorem dist2_sq (a b : ℝ × ℝ) : dist2 a b ^ 2 = (b.1 - a.1) ^ 2 + (b.2 - a.2) ^ 2 :=
  Real.sq_sqrt (by positivity)

theorem dot2_fin (u v : ℝ × ℝ) :
    dot2 (fin u.1, fin u.2) (fin v.1, fin v.2) = fin (u.1 * v.1 + u.2 * v.2) := by
  simp [dot2, zero_eq]

theorem len2_fin (u : ℝ × ℝ) : len2 (fin u.1, fin u.2) = fin (u.1 ^ 2 + u.2 ^ 2) := by
  simp [len2, zero_eq, pow_two]

theorem sqrt_len2 (a b : ℝ × ℝ) :
    PyNum.sqrt (len2 ((up b).1 - (up a).1, (up b).2 - (up a).2)) = fin (dist2 a b) := by
  simp only [up, fin_sub]
  rw [len2_fin (b.1 - a.1, b.2 - a.2), fin_sqrt (by positivity)]
  rfl

theorem mid_fin (a b : ℝ × ℝ) :
    mid (up a) (up b) = up ((a.1 + b.1) / 2, (a.2 + b.2) / 2) := by
  have h : (1 : Flt) / ((2 : ℕ) : Flt) = fin (1 / 2) := by
    rw [one_eq, fin_natCast, fin_div (by norm_num)]; norm_num
  simp only [mid, up, h, fin_add, fin_mul]
  congr 2 <;> ring

theorem IsLine.vec (h : IsLine l a b) :
    con.lineVectorA [l] = .ok (.vec [fin (b.1 - a.1), fin (b.2 - a.2)]) := LineAt.vec h

theorem IsLine.length (h : IsLine l a b) :
    con.lengthA [l] = .ok (.scalar (fin (dist2 a b))) := by
  rw [LineAt.length h, sqrt_len2]

theorem IsLine.unit (h : IsLine l a b) (hne : a ≠ b) :
    con.unitLineVectorA [l] = .ok (.vec
      [fin ((b.1 - a.1) / dist2 a b), fin ((b.2 - a.2) / dist2 a b)]) := by
  rw [LineAt.unit h, sqrt_len2]
  simp only [up, fin_sub, fin_div (dist2_pos hne).ne']

end real

end MplLayout

namespace MplLayout

open Flt Cons

/-! ## Returns and Satisfied -/

theorem satisfied_iff {c : Cons Flt} {prims : List (Prim Flt)} {params : List (Param Flt)}
    {v : List ℝ} (h : Returns c prims params v) :
    Satisfied c prims params ↔ ∀ x ∈ v, x = 0 := by
  constructor
  · rintro ⟨w, hw, h0⟩ x hx
    rw [h] at hw
    cases hw
    exact fin_inj.mp (h0 (fin x) (List.mem_map_of_mem hx))
  · intro h0
    refine ⟨_, h, ?_⟩
    intro y hy
    obtain ⟨x, hx, rfl⟩ := List.mem_map.mp hy
    rw [h0 x hx]

theorem satisfiedPy_iff {c : Py (Cons Flt)} {prims : List (Prim Flt)} {params : List (Param Flt)}
    {v : List ℝ} (h : ReturnsPy c prims params v) :
    SatisfiedPy c prims params ↔ ∀ x ∈ v, x = 0 := by
  obtain ⟨r, rfl, h⟩ := h
  rw [← satisfied_iff h]
  constructor
  · rintro ⟨r', e, h'⟩; cases e; exact h'
  · intro h'; exact ⟨r, rfl, h'⟩

theorem leaf0_returns {name : Str} {types : List PrimType} {size : Nat}
    {f : List (Prim Flt) → Py (Arr Flt)} {prims : List (Prim Flt)}
    (hacc : List.Forall₂ (fun (p : Prim Flt) t => p.ty.IsA t) prims types) {a : Arr Flt}
    (hf : f prims = .ok a) {v : List ℝ} (hv : a.atleast1d = v.map fin) :
    Returns (con.leaf0 name types size f) prims [] v := by
  unfold Returns; rw [leaf0_call hacc hf, hv]

theorem leaf1_returns {name : Str} {types : List PrimType} {pt : ParamType} {size : Nat}
    {f : List (Prim Flt) → Param Flt → Py (Arr Flt)} {prims : List (Prim Flt)} {x : Param Flt}
    (hacc : List.Forall₂ (fun (p : Prim Flt) t => p.ty.IsA t) prims types) {a : Arr Flt}
    (hf : f prims x = .ok a) {v : List ℝ} (hv : a.atleast1d = v.map fin) :
    Returns (con.leaf1 name types pt size f) prims [x] v := by
  unfold Returns; rw [leaf1_call hacc hf, hv]

/-- Bundle: an evaluation of the tree `c` at the arguments, with what is needed to nest it. -/
structure Ev (c : Cons Flt) (prims : List (Prim Flt)) (params : List (Param Flt)) (v : List ℝ) :
    Prop where
  wf : c.WF
  acc : c.Accepts prims params
  al : c.Aligned params
  ev : c.eval prims params = .ok (v.map fin)

theorem Ev.returns {c : Cons Flt} {prims : List (Prim Flt)} {params : List (Param Flt)}
    {v : List ℝ} (h : Ev c prims params v) : Returns c prims params v :=
  (call_ok_iff _ h.wf _ _ h.al _).mpr ⟨h.acc, h.ev⟩

theorem Ev.returnsPy {c : Cons Flt} {r : Py (Cons Flt)} (e : r = .ok c) {prims : List (Prim Flt)}
    {params : List (Param Flt)} {v : List ℝ} (h : Ev c prims params v) :
    ReturnsPy r prims params v := ⟨c, e, h.returns⟩

theorem map_sub_fin (v : List ℝ) (x : ℝ) :
    (v.map fin).map (· - fin x) = (v.map (· - x)).map fin := by simp

theorem zip_sub_fin (v w : List ℝ) :
    List.zipWith (· - ·) (v.map fin) (w.map fin) = (List.zipWith (· - ·) v w).map fin := by
  induction v generalizing w with
  | nil => simp
  | cons a v ih => cases w <;> simp [ih]

/-- The constraint of a construction of depth at most one, for a number. -/
theorem Ev.cstr_num {c : Cons Flt} {prims : List (Prim Flt)} {params : List (Param Flt)}
    {v : List ℝ} (h : Ev c prims params v) (hleaf : ∀ kc ∈ c.children, Node.children kc.2 = [])
    (hcon : c.Consistent params) (hsz : c.Sized prims params) (x : ℝ) :
    Ev (cstr c) prims (params ++ [.num (fin x)]) (v.map (· - x)) := by
  obtain ⟨h1, h2, h3⟩ := MplLayout.cstr_num h.wf hleaf hcon hsz h.acc h.ev (fin x)
  refine ⟨sumTree_WF h.wf (negVec_shape _), h1, h3, ?_⟩
  rw [h2, map_sub_fin]

theorem ct_leaf0 {name : Str} {types : List PrimType} {size : Nat}
    {f : List (Prim Flt) → Py (Arr Flt)} {prims : List (Prim Flt)}
    (hacc : List.Forall₂ (fun (p : Prim Flt) t => p.ty.IsA t) prims types) {a : Arr Flt}
    (hf : f prims = .ok a) {v : List ℝ} (hv : a.atleast1d = v.map fin) (hs : v.length = size)
    (x : ℝ) :
    Ev (cstr (con.leaf0 name types size f)) prims [.num (fin x)] (v.map (· - x)) := by
  have h : Ev (con.leaf0 name types size f) prims [] v :=
    ⟨leaf_WF _ _, ⟨hacc, rfl⟩, (leaf_consistent _ _ [] rfl).aligned, by rw [leaf0_eval hf, hv]⟩
  refine h.cstr_num (by simp [con.leaf0, leaf]) (leaf_consistent _ _ [] rfl)
    (leaf_sized _ _ _ _ fun b hb => ?_) x
  have : Except.ok a = Except.ok b := hf.symm.trans hb
  cases this
  rw [hv, List.length_map, hs]

theorem ct_leaf0_arr {name : Str} {types : List PrimType} {size : Nat}
    {f : List (Prim Flt) → Py (Arr Flt)} {prims : List (Prim Flt)}
    (hacc : List.Forall₂ (fun (p : Prim Flt) t => p.ty.IsA t) prims types) {a : Arr Flt}
    (hf : f prims = .ok a) {v : List ℝ} (hv : a.atleast1d = v.map fin) (hs : v.length = size)
    (xs : List ℝ) (hx : xs.length = size) :
    Ev (cstr (con.leaf0 name types size f)) prims [.arr (xs.map fin)]
      (List.zipWith (· - ·) v xs) := by
  obtain ⟨h1, h2, h3⟩ := MplLayout.cstr_arr (c := con.leaf0 name types size f) (v := v.map fin)
    (prims := prims) (params := []) (leaf_WF _ _) rfl
    (leaf_consistent _ _ [] rfl) (leaf_sized _ _ _ _ fun b hb => by
      have : Except.ok a = Except.ok b := hf.symm.trans hb
      cases this
      rw [hv, List.length_map, hs]) ⟨hacc, rfl⟩ (by rw [leaf0_eval hf, hv])
    (xs := xs.map fin) (by simp [hx, hs])
  exact ⟨sumTree_WF (leaf_WF _ _) (negVec_shape _), h1, h3, by rw [← zip_sub_fin]; exact h2⟩

theorem ct_leaf1 {name : Str} {types : List PrimType} {pt : ParamType} {size : Nat}
    {f : List (Prim Flt) → Param Flt → Py (Arr Flt)} {prims : List (Prim Flt)} {y : Param Flt}
    (hacc : List.Forall₂ (fun (p : Prim Flt) t => p.ty.IsA t) prims types) {a : Arr Flt}
    (hf : f prims y = .ok a) {v : List ℝ} (hv : a.atleast1d = v.map fin) (hs : v.length = size)
    (x : ℝ) :
    Ev (cstr (con.leaf1 name types pt size f)) prims [y, .num (fin x)] (v.map (· - x)) := by
  have h : Ev (con.leaf1 name types pt size f) prims [y] v :=
    ⟨leaf_WF _ _, ⟨hacc, rfl⟩, (leaf_consistent _ _ [y] rfl).aligned, by rw [leaf1_eval hf, hv]⟩
  refine h.cstr_num (by simp [con.leaf1, leaf]) (leaf_consistent _ _ [y] rfl)
    (leaf_sized _ _ _ _ fun b hb => ?_) x
  have : Except.ok a = Except.ok b := hf.symm.trans hb
  cases this
  rw [hv, List.length_map, hs]

theorem transformConstraint_leaf0 {K : Type} [PyNum K] (name : Str) (types : List PrimType)
    (size : Nat) (f : List (Prim K) → Py (Arr K)) :
    transformConstraint (con.leaf0 name types size f) = .ok (cstr (con.leaf0 name types size f)) :=
  transformConstraint_eq (leaf_WF _ _) (KeysNE_leaf rfl)

theorem transformConstraint_leaf1 {K : Type} [PyNum K] (name : Str) (types : List PrimType)
    (pt : ParamType) (size : Nat) (f : List (Prim K) → Param K → Py (Arr K)) :
    transformConstraint (con.leaf1 name types pt size f)
      = .ok (cstr (con.leaf1 name types pt size f)) :=
  transformConstraint_eq (leaf_WF _ _) (KeysNE_leaf rfl)

end MplLayout

namespace MplLayout

open Flt Cons

/-! ## Compound constructions -/

/-- Evaluations of the children, one after the other. -/
inductive EvL (prims : List (Prim Flt)) : List (Str × Cons Flt) → List (List Str) →
    List (List (Param Flt)) → List (List ℝ) → Prop
  | nil (pss) : EvL prims [] [] pss []
  | cons {k c ks ps cps v cs kss pss vs} : pyMap (resolve prims) ks = .ok cps → Ev c cps ps v →
      EvL prims cs kss pss vs → EvL prims ((k, c) :: cs) (ks :: kss) (ps :: pss) (v :: vs)

theorem EvL.evalL {prims : List (Prim Flt)} {cs : List (Str × Cons Flt)} {kss : List (List Str)}
    {pss : List (List (Param Flt))} {vs : List (List ℝ)} (h : EvL prims cs kss pss vs) :
    Cons.evalL prims cs kss pss = .ok (vs.flatten.map fin) ∧ kss.length = cs.length ∧
    cs.length ≤ pss.length ∧ AlignedL cs pss ∧ ∀ k c, (k, c) ∈ cs → c.WF := by
  induction h with
  | nil => simp [Cons.evalL, AlignedL]
  | cons h1 h2 _ ih =>
    obtain ⟨i1, i2, i3, i4, i5⟩ := ih
    refine ⟨?_, by simp [i2], by simp [i3], ⟨h2.al, i4⟩, ?_⟩
    · simp only [Cons.evalL, h1, h2.ev, i1, bind, Except.bind]
      simp
    · intro k c hm
      rcases List.mem_cons.mp hm with e | hm
      · cases e; exact h2.wf
      · exact i5 k c hm

theorem Ev.compound {cls : ConsClass Flt} {kss : List (List Str)}
    {cp : List (Param Flt) → Py (List (List (Param Flt)))} {sig : ConsSig}
    {cs : List (Str × Cons Flt)} {prims : List (Prim Flt)} {params : List (Param Flt)}
    {pss : List (List (Param Flt))} {vs : List (List ℝ)}
    (hn : (cs.map (·.1)).Nodup) (hown : cls.assem prims params = .ok (.vec []))
    (hcp : cp params = .ok pss)
    (hacc : List.Forall₂ (fun (p : Prim Flt) t => p.ty.IsA t) prims sig.primTypes)
    (hpar : params.length = sig.paramTypes.length) (h : EvL prims cs kss pss vs) :
    Ev (.mk cls ⟨kss, cp, sig⟩ cs) prims params vs.flatten := by
  obtain ⟨h1, h2, h3, h4, h5⟩ := h.evalL
  refine ⟨Node.WF_mk.mpr ⟨hn, h5⟩, ⟨hacc, hpar⟩, ⟨h2, ?_⟩, ?_⟩
  · intro pss' e
    simp only [hcp, Except.ok.injEq] at e
    subst e
    exact ⟨h3, h4⟩
  · simp only [Cons.eval, hown, hcp, h1, bind, Except.bind]
    simp [Arr.atleast1d]

theorem Ev.leaf0 {name : Str} {types : List PrimType} {size : Nat}
    {f : List (Prim Flt) → Py (Arr Flt)} {prims : List (Prim Flt)}
    (hacc : List.Forall₂ (fun (p : Prim Flt) t => p.ty.IsA t) prims types) {a : Arr Flt}
    (hf : f prims = .ok a) {v : List ℝ} (hv : a.atleast1d = v.map fin) :
    Ev (con.leaf0 name types size f) prims [] v :=
  ⟨leaf_WF _ _, ⟨hacc, rfl⟩, (leaf_consistent _ _ [] rfl).aligned, by rw [leaf0_eval hf, hv]⟩

theorem Ev.leaf1 {name : Str} {types : List PrimType} {pt : ParamType} {size : Nat}
    {f : List (Prim Flt) → Param Flt → Py (Arr Flt)} {prims : List (Prim Flt)} {y : Param Flt}
    (hacc : List.Forall₂ (fun (p : Prim Flt) t => p.ty.IsA t) prims types) {a : Arr Flt}
    (hf : f prims y = .ok a) {v : List ℝ} (hv : a.atleast1d = v.map fin) :
    Ev (con.leaf1 name types pt size f) prims [y] v :=
  ⟨leaf_WF _ _, ⟨hacc, rfl⟩, (leaf_consistent _ _ [y] rfl).aligned, by rw [leaf1_eval hf, hv]⟩

end MplLayout
