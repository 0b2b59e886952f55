import Verif.Model.Shipped
import Verif.Model.Flt
import Verif.Spec.Constructions

/-!
# Plane geometry vocabulary

Primitives with real coordinates, and what it means for a constraint to be satisfied.
-/

namespace MplLayout

open Flt

/-- `p` is a point with coordinates `a`. -/
def PointAt {K : Type} (p : Prim K) (a : K × K) : Prop :=
  p.ty.IsA .point ∧ p.value.arr = [a.1, a.2]

/-- `l` is a line from `a` to `b`. -/
def LineAt {K : Type} (l : Prim K) (a b : K × K) : Prop :=
  l.ty.IsA .line ∧
  ∃ p q, l.children = [(k!"Point0", p), (k!"Point1", q)] ∧ PointAt p a ∧ PointAt q b

/-- `q` is a quadrilateral with the vertices `a b c d`, in this order. -/
def QuadAt {K : Type} (q : Prim K) (a b c d : K × K) : Prop :=
  q.ty.IsA .quadrilateral ∧
  ∃ l0 l1 l2 l3,
    q.children = [(k!"Line0", l0), (k!"Line1", l1), (k!"Line2", l2), (k!"Line3", l3)] ∧
    LineAt l0 a b ∧ LineAt l1 b c ∧ LineAt l2 c d ∧ LineAt l3 d a

/-- Real coordinates as numbers of the program. -/
def up (a : ℝ × ℝ) : Flt × Flt := (fin a.1, fin a.2)

/-- `p` is a point with real coordinates `a`. -/
def IsPoint (p : Prim Flt) (a : ℝ × ℝ) : Prop := PointAt p (up a)

/-- `l` is a line from `a` to `b`. -/
def IsLine (l : Prim Flt) (a b : ℝ × ℝ) : Prop := LineAt l (up a) (up b)

/-- `q` is a quadrilateral with the vertices `a b c d`, in this order. -/
def IsQuad (q : Prim Flt) (a b c d : ℝ × ℝ) : Prop := QuadAt q (up a) (up b) (up c) (up d)

/-- Length of the segment from `a` to `b`. -/
noncomputable def dist2 (a b : ℝ × ℝ) : ℝ := Real.sqrt ((b.1 - a.1) ^ 2 + (b.2 - a.2) ^ 2)

/-- An axis-aligned rectangle: left, bottom, right, top. -/
structure Rect where
  x0 : ℝ
  y0 : ℝ
  x1 : ℝ
  y1 : ℝ

/-- `q` is a quadrilateral that runs counter-clockwise around the rectangle `r` from its lower left
corner. -/
def IsRect (q : Prim Flt) (r : Rect) : Prop :=
  IsQuad q (r.x0, r.y0) (r.x1, r.y0) (r.x1, r.y1) (r.x0, r.y1)

/-- The constraint accepts the arguments and all entries of its residual are zero. -/
def Satisfied (c : Cons Flt) (prims : List (Prim Flt)) (params : List (Param Flt)) : Prop :=
  ∃ v, c.call prims params = .ok v ∧ ∀ x ∈ v, x = fin 0

/-- Calling the construction returns exactly these real numbers. -/
def Returns (c : Cons Flt) (prims : List (Prim Flt)) (params : List (Param Flt))
    (v : List ℝ) : Prop :=
  c.call prims params = .ok (v.map fin)

/-- The same for a construction that is still to be built: building it succeeds, too. -/
def SatisfiedPy (c : Py (Cons Flt)) (prims : List (Prim Flt)) (params : List (Param Flt)) : Prop :=
  ∃ r, c = .ok r ∧ Satisfied r prims params

/-- The same for a construction that is still to be built: building it succeeds, too. -/
def ReturnsPy (c : Py (Cons Flt)) (prims : List (Prim Flt)) (params : List (Param Flt))
    (v : List ℝ) : Prop :=
  ∃ r, c = .ok r ∧ Returns r prims params v

/-- Python's truth value of an argument: `None`, `False`, zero and an empty list or tuple are false, an
array has a truth value only if it has one entry, everything else (also `nan` and `inf`) is true. -/
inductive HasTruth : Param Flt → Bool → Prop
  | bool (b : Bool) : HasTruth (.bool b) b
  | none : HasTruth .none false
  | zero : HasTruth (.num (fin 0)) false
  | num {x : Flt} (h : x ≠ fin 0) : HasTruth (.num x) true
  | one {x : Flt} {t : Bool} (h : HasTruth (.num x) t) : HasTruth (.arr [x]) t
  | nil : HasTruth (.seq []) false
  | cons (p : Param Flt) (ps : List (Param Flt)) : HasTruth (.seq (p :: ps)) true
  | axis (a : MplAxis Flt) : HasTruth (.axis a) true

/-! Concrete primitives. -/

/-- A point. -/
def realPoint (a : ℝ × ℝ) : Prim Flt := .mk .point ⟨1, [fin a.1, fin a.2]⟩ []
/-- A line. -/
def realLine (a b : ℝ × ℝ) : Prim Flt :=
  .mk .line ⟨2, []⟩ [(k!"Point0", realPoint a), (k!"Point1", realPoint b)]
/-- A quadrilateral. -/
def realQuad (a b c d : ℝ × ℝ) : Prim Flt :=
  .mk .quadrilateral ⟨3, []⟩ [(k!"Line0", realLine a b), (k!"Line1", realLine b c),
    (k!"Line2", realLine c d), (k!"Line3", realLine d a)]
/-- A rectangle. -/
def realRect (r : Rect) : Prim Flt :=
  realQuad (r.x0, r.y0) (r.x1, r.y0) (r.x1, r.y1) (r.x0, r.y1)

theorem isPoint_realPoint (a : ℝ × ℝ) : IsPoint (realPoint a) a := ⟨.refl _, rfl⟩
theorem isLine_realLine (a b : ℝ × ℝ) : IsLine (realLine a b) a b :=
  ⟨.refl _, _, _, rfl, isPoint_realPoint a, isPoint_realPoint b⟩
theorem isQuad_realQuad (a b c d : ℝ × ℝ) : IsQuad (realQuad a b c d) a b c d :=
  ⟨.refl _, _, _, _, _, rfl, isLine_realLine _ _, isLine_realLine _ _, isLine_realLine _ _,
    isLine_realLine _ _⟩
theorem isRect_realRect (r : Rect) : IsRect (realRect r) r := isQuad_realQuad _ _ _ _

end MplLayout
