import Verif.Model.Shipped

/-!
# Constructor options

`Model/Shipped.lean` takes sides, axes and grid shapes in the form in which they are meaningful.
Users pass strings, and shapes as integers, tuples or lists; here are the constructors with these
arguments.  The base classes (`Margin`, `RectangleDim`, `Align`, `AxisThickness`, `PositionAxis`,
`PositionAxisLabel`) can be called directly; their objects have the base class's name.

Simplifications: entries of shapes are natural numbers (negative ones act like 0), `str.upper` acts on
ASCII letters.
-/

namespace MplLayout

variable {K : Type}

/-- An object of class `cls`, otherwise like `c`. -/
def Cons.as (c : Cons K) (cls : ConsClass K) : Cons K := .mk cls c.value c.children

namespace opt

open con (Side)

/-- The chain `if side == 'left': ... elif ... else: raise ValueError()`
(`constructions.py:1289-1325`, `constraints.py:951-963`). -/
def side (s : Str) : Py Side :=
  if s = k!"left" then .ok .left
  else if s = k!"right" then .ok .right
  else if s = k!"bottom" then .ok .bottom
  else if s = k!"top" then .ok .top
  else .error .valueError

/-- `constructions.py:1243-1268`, `opposite_side(side)`. -/
def oppositeSide (s : Str) : Py Str :=
  if s = k!"bottom" then .ok k!"top"
  else if s = k!"top" then .ok k!"bottom"
  else if s = k!"left" then .ok k!"right"
  else if s = k!"right" then .ok k!"left"
  else if s = k!"Line0" then .ok k!"Line2"
  else if s = k!"Line2" then .ok k!"Line0"
  else if s = k!"Line1" then .ok k!"Line3"
  else if s = k!"Line3" then .ok k!"Line1"
  else .error .valueError

section
variable [PyNum K]

/-- `constructions.py:1141-1189`, `RectangleDim(dim)`. -/
def rectangleDim (dim : Str) : Py (Cons K) := do
  let c ← if dim = k!"width" then con.width else if dim = k!"height" then con.height
    else .error .valueError
  .ok (c.as { c.ty with name := k!"RectangleDim" })

/-- `constructions.py:1270-1338`, `Margin(outer, side)`. -/
def margin (outer : Bool) (s : Str) : Py (Cons K) := do
  let c ← con.margin outer (← side s)
  .ok (c.as { c.ty with name := k!"Margin" })

/-- `constructions.py:1341-1361`, `OuterMargin(side)`, `InnerMargin(side)`, as constrained by
`constraints.py:750-785`. -/
def marginConstraint (outer : Bool) (s : Str) : Py (Cons K) := do
  transformConstraint (← con.margin outer (← side s))

/-- `constraints.py:922-977`, `CoincidentOutwardFaces(side)`. -/
def coincidentOutwardFaces (s : Str) : Py (Cons K) := do
  ct.coincidentOutwardFaces (← side s)

/-- A `shape` argument. -/
inductive Shape where
  | int (n : Nat)
  | tuple (ns : List Nat)
  | list (ns : List Nat)

/-- `num_quad, = shape` (`constraints.py:815,837`): an integer is not iterable. -/
def unpack1 : Shape → Py Nat
  | .int _ => .error .typeError
  | .tuple [n] | .list [n] => .ok n
  | _ => .error .valueError

/-- `constraints.py:788-843`, `OuterMarginArray(shape, side)`: line 818 makes one margin after the
other, so that without margins `side` is not looked at. -/
def outerMarginArray (shape : Shape) (s : Str) : Py (Cons K) := do
  let numQuad ← unpack1 shape
  let ms ← pyMap (fun _ => marginConstraint true s) (List.range (numQuad - 1))
  construction { name := k!"OuterMarginArray", assem := fun _ _ => .ok (.vec []) }
    ((List.range numQuad).map fun n => k!"OuterMargin" ++ natStr n)
    ms
    ((List.range (numQuad - 1)).map fun n => [ct.argKey n, ct.argKey (n + 1)])
    (fun params => .ok (params.map fun p => [p]))
    ⟨List.replicate numQuad .quadrilateral, List.replicate (numQuad - 1) .float, 0⟩

/-- `constructions.py:510-518`, `ArrayCompoundConstruction(shape)`: an integer becomes a tuple. -/
def arrayShape : Shape → Shape
  | .int n => .tuple [n]
  | sh => sh

/-- `num_row, num_col = shape` (`constraints.py:1006,1083`). -/
def unpack2 : Shape → Py (Nat × Nat)
  | .int _ => .error .typeError
  | .tuple [r, c] | .list [r, c] => .ok (r, c)
  | _ => .error .valueError

/-- `shape[1:] + (1,)` in `idx_1d` (`constraints.py:985`) for a shape with two entries: a list and a
tuple cannot be added.  `called` says whether `idx_1d` is called at all. -/
def strides (shape : Shape) (called : Bool) : Py Unit :=
  match shape with
  | .list _ => if called then .error .typeError else .ok ()
  | _ => .ok ()

/-- `constraints.py:989-1049`, `RectilinearGrid(shape)`; `idx` is called once for every entry. -/
def rectilinearGrid (shape : Shape) : Py (Cons K) := do
  let shape := arrayShape shape
  let (r, c) ← unpack2 shape
  strides shape (decide (0 < r ∧ 0 < c))
  ct.rectilinearGrid r c

/-- `constraints.py:1052-1155`, `Grid(shape)`; after `RectilinearGrid(shape=shape)` `idx` is called
once for every row and every column. -/
def grid (shape : Shape) : Py (Cons K) := do
  let shape := arrayShape shape
  let (r, c) ← unpack2 shape
  let _ ← rectilinearGrid (K := K) shape
  strides shape (decide (0 < r ∨ 0 < c))
  ct.grid r c

/-- `constraints.py:669-723`, `AxisThickness(axis)`: any other axis than `'x'` is taken for `'y'`;
the class is neither `XAxisThickness` nor `YAxisThickness`. -/
def axisThickness (axis : Str) : Py (Cons K) := do
  let c ← ct.axisThickness (if axis = k!"x" then .x else .y)
  .ok (c.as { c.ty with name := k!"AxisThickness", axisKind := none })

/-- `constraints.py:1162-1238`, `PositionAxis(axis, side, twin)`: `axis` is not checked. -/
def positionAxis (axis s : Str) (twin : Bool) : Py (Cons K) := do
  let name := axis.map Char.toUpper ++ k!"Axis"
  let cls : ConsClass K := { name := k!"PositionAxis", assem := compoundAssem 0 }
  let a ← coincidentOutwardFaces s
  if twin then
    let b ← coincidentOutwardFaces (← oppositeSide s)
    construction cls [k!"AlignOutside", k!"TwinAlignOutside"] [a, b]
      [[k!"arg0/Frame", k!"arg0/" ++ name], [k!"arg0/Frame", k!"arg0/Twin" ++ name]]
      (fun _ => .ok [[], []]) ⟨[.axes], [], 0⟩
  else
    construction cls [k!"AlignOutside"] [a] [[k!"arg0/Frame", k!"arg0/" ++ name]]
      (fun _ => .ok [[]]) ⟨[.axes], [], 0⟩

/-- `constraints.py:1264-1334`, `PositionAxisLabel(axis, twin)`. -/
def positionAxisLabel (axis : Str) (twin : Bool) : Py (Cons K) := do
  let kind ← if axis = k!"x" then .ok AxisKind.x else if axis = k!"y" then .ok AxisKind.y
    else .error .valueError
  let c ← ct.positionAxisLabel kind twin
  .ok (c.as { c.ty with name := k!"PositionAxisLabel" })

end

end opt

end MplLayout
