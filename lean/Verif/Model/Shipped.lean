import Verif.Model.Constructions

/-!
# Model of the shipped constructions and constraints

`constructions.py:604-1360` (namespace `con`) and `constraints.py` (namespace `ct`).

`assem` is a Python function with a fixed number of parameters: another number is a `TypeError`;
unpacking the wrong number of primitives is a `ValueError`.
-/

namespace MplLayout

variable {K : Type} [PyNum K]

/-- `assem(cls, prims)` without parameters. -/
def assem0 (f : List (Prim K) → Py (Arr K)) : List (Prim K) → List (Param K) → Py (Arr K)
  | prims, [] => f prims
  | _, _ => .error .typeError

/-- `assem(cls, prims, p)` with one parameter. -/
def assem1 (f : List (Prim K) → Param K → Py (Arr K)) : List (Prim K) → List (Param K) → Py (Arr K)
  | prims, [p] => f prims p
  | _, _ => .error .typeError

/-- The `assem` of a compound construction that declares `n` parameters and returns
`np.array(())` (`constructions.py:503-507` via `super().assem`). -/
def compoundAssem (n : Nat) : List (Prim K) → List (Param K) → Py (Arr K) := fun _ params =>
  if params.length = n then .ok (.vec []) else .error .typeError

/-- `x[i]` for an array. -/
def Arr.get : Arr K → Nat → Py K
  | .vec xs, i => pyIndex xs (Int.ofNat i)
  | .scalar _, _ => .error .indexError

/-- `-x`. -/
def Arr.neg (x : Arr K) : Arr K := x.map (- ·)

/-- `x[:2]`. -/
def Arr.take2 : Arr K → Py (Arr K)
  | .vec xs => .ok (.vec (xs.take 2))
  | .scalar _ => .error .indexError

namespace con

/-! ## `assem` of the leaf constructions -/

/-- `constructions.py:712-715`, `Coordinate.assem`. -/
def coordinateA : List (Prim K) → Py (Arr K)
  | [p] => .ok (.vec p.value.arr)
  | _ => .error .valueError

/-- `constructions.py:738-744`, `DirectedDistance.assem`. -/
def directedDistanceA (direction : Arr K) : List (Prim K) → Py (Arr K)
  | [p0, p1] => do
    let d ← Arr.sub (.vec p1.value.arr) (.vec p0.value.arr)
    Arr.dot d direction
  | _ => .error .valueError

/-- `np.array([1, 0])`. -/
def ex : Arr K := .vec [1, 0]
/-- `np.array([0, 1])`. -/
def ey : Arr K := .vec [0, 1]

/-- `constructions.py:803-807`, `LineVector.assem`: `pointa, pointb = line.values()`. -/
def lineVectorA : List (Prim K) → Py (Arr K)
  | [line] => match line.values with
    | [a, b] => do
      let b ← coordinateA [b]
      let a ← coordinateA [a]
      Arr.sub b a
    | _ => .error .valueError
  | _ => .error .valueError

/-- `constructions.py:827-830`, `UnitLineVector.assem`. -/
def unitLineVectorA (prims : List (Prim K)) : Py (Arr K) := do
  let v ← lineVectorA prims
  Arr.div v (Arr.norm v)

/-- `constructions.py:850-853`, `Length.assem`: `jnp.sum(v**2) ** (1/2)`; `v**2` is written as a
product and `** (1/2)` as a square root. -/
def lengthA : List (Prim K) → Py (Arr K)
  | [line] => do
    let v ← lineVectorA [line]
    let s ← Arr.mul v v
    .ok (.scalar (PyNum.sqrt (Arr.sumList s.atleast1d)))
  | _ => .error .valueError

/-- `constructions.py:873-876`, `DirectedLength.assem`. -/
def directedLengthA (direction : Arr K) : List (Prim K) → Py (Arr K)
  | [line] => do
    let v ← lineVectorA [line]
    Arr.dot v direction
  | _ => .error .valueError

/-- `constructions.py:927-933`, `Midpoint.assem`. -/
def midpointA : List (Prim K) → Py (Arr K)
  | [line] => do
    let p0 ← line.getChild k!"Point0"
    let p1 ← line.getChild k!"Point1"
    let a ← coordinateA [p0]
    let b ← coordinateA [p1]
    let s ← Arr.add a b
    Arr.mul (.scalar (1 / ((2 : Nat) : K))) s
  | _ => .error .valueError

/-- `constructions.py:956-961`, `MidpointDirectedDistance.assem`. -/
def midpointDirectedDistanceA (direction : Arr K) : List (Prim K) → Py (Arr K)
  | [l0, l1] => do
    let m1 ← midpointA [l1]
    let m0 ← midpointA [l0]
    let d ← Arr.sub m1 m0
    Arr.dot d direction
  | _ => .error .valueError

/-- `constructions.py:1016-1023`, `Angle.assem`. -/
def angleA : List (Prim K) → Py (Arr K)
  | [l0, l1] => do
    let d0 ← unitLineVectorA [l0]
    let d1 ← unitLineVectorA [l1]
    let y0 ← d0.get 1
    let x0 ← d0.get 0
    let y1 ← d1.get 1
    let x1 ← d1.get 0
    .ok (.scalar (PyNum.atan2 y1 x1 - PyNum.atan2 y0 x0))
  | _ => .error .valueError

/-- `constructions.py:1052-1062`, `PointOnLineDistance.assem`. -/
def pointOnLineDistanceA : List (Prim K) → Param K → Py (Arr K)
  | [point, line], reverse => do
    let r ← reverse.truthy
    let u ← unitLineVectorA [line]
    let origin ← line.getChild (if r then k!"Point1" else k!"Point0")
    let unit := if r then u.neg else u
    let d ← Arr.sub (.vec point.value.arr) (.vec origin.value.arr)
    Arr.dot d unit
  | _, _ => .error .valueError

/-- `constructions.py:1087-1100`, `PointToLineDistance.assem`. -/
def pointToLineDistanceA : List (Prim K) → Param K → Py (Arr K)
  | [point, line], reverse => do
    let u ← unitLineVectorA [line]
    let r ← reverse.truthy
    let c ← Arr.cross u (if r then .vec [0, 0, 1] else .vec [0, 0, -1])
    let orth ← c.take2
    let origin ← line.getChild k!"Point0"
    let d ← Arr.sub (.vec point.value.arr) (.vec origin.value.arr)
    Arr.dot d orth
  | _, _ => .error .valueError

/-- `constructions.py:1126-1135`, `RelativePointOnLineDistance.assem`:
`jnp.array([proj_dist/line_length])`. -/
def relativePointOnLineDistanceA : List (Prim K) → Param K → Py (Arr K)
  | [point, line], reverse => do
    let d ← pointOnLineDistanceA [point, line] reverse
    let len ← lengthA [line]
    let q ← Arr.div d len
    .ok (.vec q.atleast1d)
  | _, _ => .error .valueError

/-- `constructions.py:1233-1238`, `AspectRatio.assem`. -/
def aspectRatioA : List (Prim K) → Py (Arr K)
  | [quad] => do
    let l0 ← quad.getChild k!"Line0"
    let w ← lengthA [l0]
    let l1 ← quad.getChild k!"Line1"
    let h ← lengthA [l1]
    Arr.div w h
  | _ => .error .valueError

/-! ## The leaf constructions -/

/-- A leaf class without parameters. -/
def leaf0 (name : Str) (types : List PrimType) (size : Nat) (f : List (Prim K) → Py (Arr K)) :
    Cons K :=
  leaf { name := name, assem := assem0 f } ⟨types, [], size⟩

/-- A leaf class with one parameter. -/
def leaf1 (name : Str) (types : List PrimType) (pt : ParamType) (size : Nat)
    (f : List (Prim K) → Param K → Py (Arr K)) : Cons K :=
  leaf { name := name, assem := assem1 f } ⟨types, [pt], size⟩

/-- `f` applied to an array parameter. -/
def withDirection (f : Arr K → List (Prim K) → Py (Arr K)) (prims : List (Prim K)) (p : Param K) :
    Py (Arr K) := do
  let d ← p.toArr
  f d prims

/-- `constructions.py:695-715`, `Coordinate()`. -/
def coordinate : Cons K := leaf0 k!"Coordinate" [.point] 2 coordinateA
/-- `constructions.py:721-744`, `DirectedDistance()`. -/
def directedDistance : Cons K :=
  leaf1 k!"DirectedDistance" [.point, .point] .ndarray 1 (withDirection directedDistanceA)
/-- `constructions.py:747-760`, `XDistance()`. -/
def xDistance : Cons K := leaf0 k!"XDistance" [.point, .point] 1 (directedDistanceA ex)
/-- `constructions.py:763-776`, `YDistance()`. -/
def yDistance : Cons K := leaf0 k!"YDistance" [.point, .point] 1 (directedDistanceA ey)
/-- `constructions.py:784-807`, `LineVector()`. -/
def lineVector : Cons K := leaf0 k!"LineVector" [.line] 2 lineVectorA
/-- `constructions.py:810-830`, `UnitLineVector()`. -/
def unitLineVector : Cons K := leaf0 k!"UnitLineVector" [.line] 2 unitLineVectorA
/-- `constructions.py:833-853`, `Length()`. -/
def length : Cons K := leaf0 k!"Length" [.line] 1 lengthA
/-- `constructions.py:856-876`, `DirectedLength()`. -/
def directedLength : Cons K :=
  leaf1 k!"DirectedLength" [.line] .ndarray 1 (withDirection directedLengthA)
/-- `constructions.py:879-892`, `XLength()`. -/
def xLength : Cons K := leaf0 k!"XLength" [.line] 1 (directedLengthA ex)
/-- `constructions.py:895-908`, `YLength()`. -/
def yLength : Cons K := leaf0 k!"YLength" [.line] 1 (directedLengthA ey)
/-- `constructions.py:911-933`, `Midpoint()`. -/
def midpoint : Cons K := leaf0 k!"Midpoint" [.line] 2 midpointA
/-- `constructions.py:939-961`, `MidpointDirectedDistance()`. -/
def midpointDirectedDistance : Cons K :=
  leaf1 k!"MidpointDirectedDistance" [.line, .line] .ndarray 1
    (withDirection midpointDirectedDistanceA)
/-- `constructions.py:964-977`, `MidpointXDistance()`. -/
def midpointXDistance : Cons K :=
  leaf0 k!"MidpointXDistance" [.line, .line] 1 (midpointDirectedDistanceA ex)
/-- `constructions.py:980-993`, `MidpointYDistance()`. -/
def midpointYDistance : Cons K :=
  leaf0 k!"MidpointYDistance" [.line, .line] 1 (midpointDirectedDistanceA ey)
/-- `constructions.py:996-1023`, `Angle()`. -/
def angle : Cons K := leaf0 k!"Angle" [.line, .line] 1 angleA
/-- `constructions.py:1031-1062`, `PointOnLineDistance()`. -/
def pointOnLineDistance : Cons K :=
  leaf1 k!"PointOnLineDistance" [.point, .line] .bool 1 pointOnLineDistanceA
/-- `constructions.py:1065-1100`, `PointToLineDistance()`. -/
def pointToLineDistance : Cons K :=
  leaf1 k!"PointToLineDistance" [.point, .line] .bool 1 pointToLineDistanceA
/-- `constructions.py:1103-1135`, `RelativePointOnLineDistance()`. -/
def relativePointOnLineDistance : Cons K :=
  leaf1 k!"RelativePointOnLineDistance" [.point, .line] .bool 1 relativePointOnLineDistanceA
/-- `constructions.py:1214-1238`, `AspectRatio()`. -/
def aspectRatio : Cons K := leaf0 k!"AspectRatio" [.quadrilateral] 1 aspectRatioA

/-! ## Compound constructions -/

/-- `constructions.py:1141-1189`, `RectangleDim(dim='width')`, `Width()`. -/
def width : Py (Cons K) :=
  construction { name := k!"Width", assem := compoundAssem 0 } [k!"Width"] [xLength]
    [[k!"arg0/Line0"]] (fun _ => .ok [[]]) ⟨[.quadrilateral], [], 0⟩

/-- `constructions.py:1141-1189`, `RectangleDim(dim='height')`, `Height()`. -/
def height : Py (Cons K) :=
  construction { name := k!"Height", assem := compoundAssem 0 } [k!"Height"] [yLength]
    [[k!"arg0/Line1"]] (fun _ => .ok [[]]) ⟨[.quadrilateral], [], 0⟩

/-- The strings `'bottom' | 'top' | 'left' | 'right'`; any other string raises `ValueError`
(`constructions.py:1324-1325`) and is not representable here. -/
inductive Side where
  | bottom | top | left | right
deriving DecidableEq, Repr

/-- `constructions.py:1243-1268`, `opposite_side` for the four side names. -/
def Side.opposite : Side → Side
  | .bottom => .top
  | .top => .bottom
  | .left => .right
  | .right => .left

/-- `constructions.py:1270-1338`, `Margin(outer, side)`; also `OuterMargin(side)` and
`InnerMargin(side)` (`constructions.py:1341-1361`), which differ in the class name. -/
def margin (outer : Bool) (side : Side) : Py (Cons K) :=
  let cls : ConsClass K :=
    { name := if outer then k!"OuterMargin" else k!"InnerMargin", assem := compoundAssem 0 }
  let sig : ConsSig := ⟨[.quadrilateral, .quadrilateral], [], 0⟩
  match side with
  | .left => construction cls [k!"LeftMargin"] [midpointXDistance]
      [if outer then [k!"arg1/Line1", k!"arg0/Line3"] else [k!"arg1/Line3", k!"arg0/Line3"]]
      (fun _ => .ok [[]]) sig
  | .right => construction cls [k!"RightMargin"] [midpointXDistance]
      [if outer then [k!"arg0/Line1", k!"arg1/Line3"] else [k!"arg0/Line1", k!"arg1/Line1"]]
      (fun _ => .ok [[]]) sig
  | .bottom => construction cls [k!"BottomMargin"] [midpointYDistance]
      [if outer then [k!"arg1/Line2", k!"arg0/Line0"] else [k!"arg1/Line0", k!"arg0/Line0"]]
      (fun _ => .ok [[]]) sig
  | .top => construction cls [k!"TopMargin"] [midpointYDistance]
      [if outer then [k!"arg0/Line2", k!"arg1/Line0"] else [k!"arg0/Line2", k!"arg1/Line2"]]
      (fun _ => .ok [[]]) sig

end con

namespace ct

open con (Side)

/-! ## Constraints made by `transform_constraint` (`constraints.py`) -/

/-- `constraints.py:31-47`, `Fix()`. -/
def fix : Py (Cons K) := transformConstraint con.coordinate
/-- `constraints.py:51-67`, `DirectedDistance()`. -/
def directedDistance : Py (Cons K) := transformConstraint con.directedDistance
/-- `constraints.py:70-86`, `XDistance()`. -/
def xDistance : Py (Cons K) := transformConstraint con.xDistance
/-- `constraints.py:89-105`, `YDistance()`. -/
def yDistance : Py (Cons K) := transformConstraint con.yDistance
/-- `constraints.py:139-155`, `Length()`. -/
def length : Py (Cons K) := transformConstraint con.length
/-- `constraints.py:158-174`, `DirectedLength()`. -/
def directedLength : Py (Cons K) := transformConstraint con.directedLength
/-- `constraints.py:177-193`, `XLength()`. -/
def xLength : Py (Cons K) := transformConstraint con.xLength
/-- `constraints.py:196-212`, `YLength()`. -/
def yLength : Py (Cons K) := transformConstraint con.yLength
/-- `constraints.py:287-303`, `MidpointXDistance()`. -/
def midpointXDistance : Py (Cons K) := transformConstraint con.midpointXDistance
/-- `constraints.py:306-322`, `MidpointYDistance()`. -/
def midpointYDistance : Py (Cons K) := transformConstraint con.midpointYDistance
/-- `constraints.py:383-399`, `Angle()`. -/
def angle : Py (Cons K) := transformConstraint con.angle
/-- `constraints.py:480-496`, `PointOnLineDistance()`. -/
def pointOnLineDistance : Py (Cons K) := transformConstraint con.pointOnLineDistance
/-- `constraints.py:499-515`, `PointToLineDistance()`. -/
def pointToLineDistance : Py (Cons K) := transformConstraint con.pointToLineDistance
/-- `constraints.py:518-534`, `RelativePointOnLineDistance()`. -/
def relativePointOnLineDistance : Py (Cons K) :=
  transformConstraint con.relativePointOnLineDistance
/-- `constraints.py:581-597`, `Width()`. -/
def width : Py (Cons K) := do transformConstraint (← con.width)
/-- `constraints.py:600-616`, `Height()`. -/
def height : Py (Cons K) := do transformConstraint (← con.height)
/-- `constraints.py:619-635`, `AspectRatio()`. -/
def aspectRatio : Py (Cons K) := transformConstraint con.aspectRatio
/-- `constraints.py:750-785`, `OuterMargin(side)` / `InnerMargin(side)`. -/
def margin (outer : Bool) (side : Side) : Py (Cons K) := do
  transformConstraint (← con.margin outer side)

/-! ## Leaf constraints -/

/-- `constraints.py:126-132`, `Coincident.assem`. -/
def coincidentA : List (Prim K) → Py (Arr K)
  | [p0, p1] => Arr.sub (.vec p1.value.arr) (.vec p0.value.arr)
  | _ => .error .valueError

/-- `constraints.py:108-132`, `Coincident()`. -/
def coincident : Cons K := con.leaf0 k!"Coincident" [.point, .point] 2 coincidentA

/-- `constraints.py:233-235`, `Vertical.assem`. -/
def verticalA (prims : List (Prim K)) : Py (Arr K) := do
  let v ← con.lineVectorA prims
  Arr.dot v con.ex
/-- `constraints.py:256-258`, `Horizontal.assem`. -/
def horizontalA (prims : List (Prim K)) : Py (Arr K) := do
  let v ← con.lineVectorA prims
  Arr.dot v con.ey
/-- `constraints.py:215-235`, `Vertical()`. -/
def vertical : Cons K := con.leaf0 k!"Vertical" [.line] 1 verticalA
/-- `constraints.py:238-258`, `Horizontal()`. -/
def horizontal : Cons K := con.leaf0 k!"Horizontal" [.line] 1 horizontalA

/-- `constraints.py:263-284`, `RelativeLength()`. -/
def relativeLength : Py (Cons K) := do
  let m ← transformScalarMul con.length (.num (-1))
  let s ← transformScalarMul m (.cons scalarCons)
  transformSum con.length s

/-- `constraints.py:343-351`, `Orthogonal.assem`. -/
def orthogonalA : List (Prim K) → Py (Arr K)
  | [l0, l1] => do
    let a ← con.lineVectorA [l0]
    let b ← con.lineVectorA [l1]
    Arr.dot a b
  | _ => .error .valueError
/-- `constraints.py:325-351`, `Orthogonal()`. -/
def orthogonal : Cons K := con.leaf0 k!"Orthogonal" [.line, .line] 1 orthogonalA

/-- `constraints.py:372-380`, `Parallel.assem`. -/
def parallelA : List (Prim K) → Py (Arr K)
  | [l0, l1] => do
    let a ← con.lineVectorA [l0]
    let b ← con.lineVectorA [l1]
    Arr.cross a b
  | _ => .error .valueError
/-- `constraints.py:354-380`, `Parallel()`. -/
def parallel : Cons K := con.leaf0 k!"Parallel" [.line, .line] 1 parallelA

/-- `constraints.py:419-426`, `Collinear.assem`; the temporary `pr.Line` gets identity 0. -/
def collinearA : List (Prim K) → Py (Arr K)
  | [l0, l1] => do
    let q ← l1.getInt 0
    let p ← l0.getInt 0
    let l2 ← primInit .line ⟨0, []⟩ [k!"Point0", k!"Point1"] [q, p]
    let a ← parallelA [l0, l1]
    let b ← parallelA [l0, l2]
    .ok (.vec (a.atleast1d ++ b.atleast1d))
  | _ => .error .valueError
/-- `constraints.py:402-426`, `Collinear()`. -/
def collinear : Cons K := con.leaf0 k!"Collinear" [.line, .line] 2 collinearA

/-- `constraints.py:453-465`, `CoincidentLines.assem`. -/
def coincidentLinesA : List (Prim K) → Param K → Py (Arr K)
  | [l0, l1], reverse => do
    let r ← reverse.truthy
    let p10 ← l1.getChild k!"Point0"
    let p11 ← l1.getChild k!"Point1"
    let p00 ← l0.getChild k!"Point0"
    let p01 ← l0.getChild k!"Point1"
    let e0 ← if r then coincidentA [p10, p01] else coincidentA [p10, p00]
    let e1 ← if r then coincidentA [p11, p00] else coincidentA [p11, p01]
    .ok (.vec (e0.atleast1d ++ e1.atleast1d))
  | _, _ => .error .valueError
/-- `constraints.py:429-465`, `CoincidentLines()`: declares 2 outputs. -/
def coincidentLines : Cons K :=
  con.leaf1 k!"CoincidentLines" [.line, .line] .bool 2 coincidentLinesA

/-! ## Compound constraints -/

/-- `constraints.py:541-578`, `Box()`. -/
def box : Py (Cons K) :=
  construction { name := k!"Box", assem := compoundAssem 0 }
    [k!"HorizontalBottom", k!"HorizontalTop", k!"VerticalLeft", k!"VerticalRight"]
    [horizontal, horizontal, vertical, vertical]
    [[k!"arg0/Line0"], [k!"arg0/Line2"], [k!"arg0/Line3"], [k!"arg0/Line1"]]
    (fun _ => .ok [[], [], [], []]) ⟨[.quadrilateral], [], 0⟩

/-- `axis.label.set_visible(v)`. -/
def setLabelVisible (a : MplAxis K) (v : Bool) : MplAxis K := { a with labelVisible := v }

/-- `constraints.py:644-663`: the `if`/`elif` chain over `axis.get_ticks_position()`, for the axis as
it is at that moment.  `axis_bbox` is taken in figure coordinates. -/
def axisDim (a : MplAxis K) : Py K :=
  match a.tightbbox a.labelVisible with
  | none => .ok 0
  | some b =>
    if a.ticksPosition = k!"bottom" then .ok (a.figHeight * (a.axesBbox.ymin - b.ymin))
    else if a.ticksPosition = k!"top" then .ok (a.figHeight * (b.ymax - a.axesBbox.ymax))
    else if a.ticksPosition = k!"left" then .ok (a.figWidth * (a.axesBbox.xmin - b.xmin))
    else if a.ticksPosition = k!"right" then .ok (a.figWidth * (b.xmax - a.axesBbox.xmax))
    else .error .valueError

/-- `constraints.py:638-666`, `get_axis_thickness(axis, side)` (the argument `side` is not used):
the result and the axis afterwards.  After an exception line 664 is not reached. -/
def getAxisThickness (a : MplAxis K) : Py K × MplAxis K :=
  let visibility := a.labelVisible
  let a := setLabelVisible a false
  match axisDim a with
  | .ok dim => (.ok dim, setLabelVisible a visibility)
  | .error e => (.error e, a)

/-- `constraints.py:705-710`, `child_params` of `AxisThickness`; a parameter that is neither `None`
nor an axis has no `label` (`AttributeError`).  The effect on the axis' label is in
`getAxisThickness`. -/
def axisThicknessParams : List (Param K) → Py (List (List (Param K)))
  | .none :: _ => .ok [[.num 0]]
  | .axis a :: _ => do
    let t ← (getAxisThickness a).1
    .ok [[.num t]]
  | _ :: _ => .error .attributeError
  | [] => .error .indexError

/-- `constraints.py:669-746`, `AxisThickness(axis)`, `XAxisThickness()`, `YAxisThickness()`. -/
def axisThickness (axis : AxisKind) : Py (Cons K) :=
  match axis with
  | .x => do
    let child ← yLength
    construction { name := k!"XAxisThickness", axisKind := some .x, assem := compoundAssem 1 }
      [k!"Height"] [child] [[k!"arg0/Line1"]] axisThicknessParams ⟨[.quadrilateral], [.xAxis], 0⟩
  | .y => do
    let child ← xLength
    construction { name := k!"YAxisThickness", axisKind := some .y, assem := compoundAssem 1 }
      [k!"Height"] [child] [[k!"arg0/Line0"]] axisThicknessParams ⟨[.quadrilateral], [.yAxis], 0⟩

/-- The key `arg{n}`. -/
def argKey (n : Nat) : Str := k!"arg" ++ natStr n

/-- `constraints.py:788-843`, `OuterMarginArray((num_quad,), side)`: there is one key more than
there are constraints, and `zip` drops it. -/
def outerMarginArray (numQuad : Nat) (side : Side) : Py (Cons K) := do
  let m ← margin true side
  construction { name := k!"OuterMarginArray", assem := fun _ _ => .ok (.vec []) }
    ((List.range numQuad).map fun n => k!"OuterMargin" ++ natStr n)
    (List.replicate (numQuad - 1) m)
    ((List.range (numQuad - 1)).map fun n => [argKey n, argKey (n + 1)])
    (fun params => .ok (params.map fun p => [p]))
    ⟨List.replicate numQuad .quadrilateral, List.replicate (numQuad - 1) .float, 0⟩

/-- `constraints.py:846-919`, `Align(row)`, `AlignRow()`, `AlignColumn()`. -/
def align (row : Bool) : Py (Cons K) :=
  let sig : ConsSig := ⟨[.quadrilateral, .quadrilateral], [], 0⟩
  if row then
    construction { name := k!"AlignRow", assem := compoundAssem 0 } [k!"AlignBottom", k!"AlignTop"]
      [collinear, collinear]
      [[k!"arg0/Line0", k!"arg1/Line0"], [k!"arg0/Line2", k!"arg1/Line2"]]
      (fun _ => .ok [[], []]) sig
  else
    construction { name := k!"AlignColumn", assem := compoundAssem 0 }
      [k!"AlignLeft", k!"AlignRight"] [collinear, collinear]
      [[k!"arg0/Line3", k!"arg1/Line3"], [k!"arg0/Line1", k!"arg1/Line1"]]
      (fun _ => .ok [[], []]) sig

/-- `constraints.py:922-977`, `CoincidentOutwardFaces(side)`. -/
def coincidentOutwardFaces (side : Side) : Py (Cons K) :=
  construction { name := k!"CoincidentOutwardFaces", assem := compoundAssem 0 }
    [k!"CoincidentLines"] [coincidentLines]
    [match side with
      | .bottom => [k!"arg0/Line0", k!"arg1/Line2"]
      | .top => [k!"arg0/Line2", k!"arg1/Line0"]
      | .left => [k!"arg0/Line3", k!"arg1/Line1"]
      | .right => [k!"arg0/Line1", k!"arg1/Line3"]]
    (fun _ => .ok [[.bool true]]) ⟨[.quadrilateral, .quadrilateral], [], 0⟩

/-- `constraints.py:981-986`, `idx_1d(multi_idx, shape)`. -/
def idx1d (multiIdx shape : List Nat) : Nat :=
  (List.zipWith (· * ·) multiIdx (shape.drop 1 ++ [1])).sum

/-- `constraints.py:989-1049`, `RectilinearGrid((num_row, num_col))`. -/
def rectilinearGrid (numRow numCol : Nat) : Py (Cons K) := do
  let row ← transformMap (← align true) numCol
  let col ← transformMap (← align false) numRow
  let idx (i j : Nat) := idx1d [i, j] [numRow, numCol]
  construction { name := k!"RectilinearGrid", assem := compoundAssem 0 }
    ((List.range numRow).map (fun r => k!"AlignRow" ++ natStr r) ++
      (List.range numCol).map (fun c => k!"AlignColumn" ++ natStr c))
    (List.replicate numRow row ++ List.replicate numCol col)
    ((List.range numRow).map (fun r => (List.range numCol).map fun c => argKey (idx r c)) ++
      (List.range numCol).map (fun c => (List.range numRow).map fun r => argKey (idx r c)))
    (fun _ => .ok (List.replicate (4 * numRow * numCol) []))
    ⟨List.replicate (numRow * numCol) .quadrilateral, [], 0⟩

/-- `constraints.py:1131-1133`, `child_params` of `Grid`. -/
def gridParams : List (Param K) → Py (List (List (Param K)))
  | [colWidths, rowHeights, colMargins, rowMargins] => do
    let a ← colWidths.iter
    let b ← rowHeights.iter
    let c ← colMargins.iter
    let d ← rowMargins.iter
    .ok [[], a, b, c, d]
  | _ => .error .valueError

/-- `constraints.py:1052-1155`, `Grid((num_row, num_col))`. -/
def grid (numRow numCol : Nat) : Py (Cons K) := do
  let rect ← rectilinearGrid numRow numCol
  let widths ← transformMap (← relativeLength) numCol
  let heights ← transformMap (← relativeLength) numRow
  let colMargins ← outerMarginArray numCol .right
  let rowMargins ← outerMarginArray numRow .bottom
  let idx (i j : Nat) := idx1d [i, j] [numRow, numCol]
  let rot (xs : List Nat) := xs.drop 1 ++ xs.take 1
  construction { name := k!"Grid", assem := compoundAssem 4 }
    [k!"RectilinearGrid", k!"ColWidths", k!"RowHeights", k!"ColMargins", k!"RowMargins"]
    [rect, widths, heights, colMargins, rowMargins]
    [(List.range (numRow * numCol)).map argKey,
     (rot (List.range numCol)).map (fun c => argKey (idx 0 c) ++ k!"/Line0"),
     (rot (List.range numRow)).map (fun r => argKey (idx r 0) ++ k!"/Line1"),
     (List.range numCol).map (fun c => argKey (idx 0 c)),
     (List.range numRow).map (fun r => argKey (idx r 0))]
    gridParams
    ⟨List.replicate (numRow * numCol) .quadrilateral, [.ndarray, .ndarray, .ndarray, .ndarray], 0⟩

/-- `constraints.py:1162-1261`, `PositionAxis(axis, side, twin)`, `PositionXAxis(side, twin)`,
`PositionYAxis(side, twin)`. -/
def positionAxis (axis : AxisKind) (side : Side) (twin : Bool) : Py (Cons K) := do
  let name := match axis with | .x => k!"XAxis" | .y => k!"YAxis"
  let cls : ConsClass K :=
    { name := match axis with | .x => k!"PositionXAxis" | .y => k!"PositionYAxis"
      assem := compoundAssem 0 }
  let a ← coincidentOutwardFaces side
  if twin then
    let b ← coincidentOutwardFaces side.opposite
    construction cls [k!"AlignOutside", k!"TwinAlignOutside"] [a, b]
      [[k!"arg0/Frame", k!"arg0/" ++ name], [k!"arg0/Frame", k!"arg0/Twin" ++ name]]
      (fun _ => .ok [[], []]) ⟨[.axes], [], 0⟩
  else
    construction cls [k!"AlignOutside"] [a] [[k!"arg0/Frame", k!"arg0/" ++ name]]
      (fun _ => .ok [[]]) ⟨[.axes], [], 0⟩

/-- `constraints.py:1320-1322`, `child_params` of `PositionAxisLabel`: `distance, = params`. -/
def labelParams : List (Param K) → Py (List (List (Param K)))
  | [distance] => .ok [[.bool false, distance]]
  | _ => .error .valueError

/-- `constraints.py:1264-1356`, `PositionAxisLabel(axis, twin)`, `PositionXAxisLabel(twin)`,
`PositionYAxisLabel(twin)`. -/
def positionAxisLabel (axis : AxisKind) (twin : Bool) : Py (Cons K) := do
  let r ← relativePointOnLineDistance
  let pre := if twin then k!"Twin" else []
  construction
    { name := match axis with | .x => k!"PositionXAxisLabel" | .y => k!"PositionYAxisLabel"
      assem := compoundAssem 1 }
    [k!"RelativePointOnLineDistance"] [r]
    [match axis with
      | .x => [k!"arg0/" ++ pre ++ k!"XAxisLabel", k!"arg0/Frame/Line0"]
      | .y => [k!"arg0/" ++ pre ++ k!"YAxisLabel", k!"arg0/Frame/Line1"]]
    labelParams ⟨[.axes], [.float], 0⟩

end ct

end MplLayout
