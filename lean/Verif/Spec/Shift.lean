import Verif.Spec.Geometry
import Verif.Spec.Containers

/-!
# Translation of primitives, and the list of the shipped constraints
-/

namespace MplLayout

open Flt

mutual
/-- The same tree with `f` applied to every value. -/
def Node.mapV {τ α β : Type} (f : α → β) : Node τ α → Node τ β
  | .mk t v cs => .mk t (f v) (Node.mapVL f cs)
/-- The same for a list of children. -/
def Node.mapVL {τ α β : Type} (f : α → β) : List (Str × Node τ α) → List (Str × Node τ β)
  | [] => []
  | (k, c) :: cs => (k, Node.mapV f c) :: Node.mapVL f cs
end

/-- Add `t` to a pair of coordinates; other arrays have no position and stay as they are. -/
noncomputable def shiftL (t : ℝ × ℝ) : List Flt → List Flt
  | [x, y] => [x + fin t.1, y + fin t.2]
  | l => l

/-- Translation by `t`: every point of the tree moves by `t`. -/
noncomputable def shiftPrim (t : ℝ × ℝ) (p : Prim Flt) : Prim Flt :=
  p.mapV fun v => ⟨v.id, shiftL t v.arr⟩

/-- Every node of the tree has no value or two coordinates (as `Point`, `Line`, `Polygon`,
`Quadrilateral` and `Axes` have). -/
def Planar (p : Prim Flt) : Prop :=
  ∀ path n, p.At path n → n.value.arr.length = 0 ∨ n.value.arr.length = 2

/-- The constraint classes of `constraints.py`, with the arguments of their constructors. -/
inductive Shipped where
  | fix | directedDistance | xDistance | yDistance | coincident
  | length | directedLength | xLength | yLength | vertical | horizontal
  | relativeLength | midpointXDistance | midpointYDistance
  | orthogonal | parallel | angle | collinear | coincidentLines
  | pointOnLineDistance | pointToLineDistance | relativePointOnLineDistance
  | box | width | height | aspectRatio
  | axisThickness (axis : AxisKind)
  | margin (outer : Bool) (side : con.Side)
  | outerMarginArray (n : Nat) (side : con.Side)
  | align (row : Bool)
  | coincidentOutwardFaces (side : con.Side)
  | rectilinearGrid (rows cols : Nat)
  | grid (rows cols : Nat)
  | positionAxis (axis : AxisKind) (side : con.Side) (twin : Bool)
  | positionAxisLabel (axis : AxisKind) (twin : Bool)

/-- Calling the constructor. -/
noncomputable def Shipped.build : Shipped → Py (Cons Flt)
  | .fix => ct.fix
  | .directedDistance => ct.directedDistance
  | .xDistance => ct.xDistance
  | .yDistance => ct.yDistance
  | .coincident => .ok ct.coincident
  | .length => ct.length
  | .directedLength => ct.directedLength
  | .xLength => ct.xLength
  | .yLength => ct.yLength
  | .vertical => .ok ct.vertical
  | .horizontal => .ok ct.horizontal
  | .relativeLength => ct.relativeLength
  | .midpointXDistance => ct.midpointXDistance
  | .midpointYDistance => ct.midpointYDistance
  | .orthogonal => .ok ct.orthogonal
  | .parallel => .ok ct.parallel
  | .angle => ct.angle
  | .collinear => .ok ct.collinear
  | .coincidentLines => .ok ct.coincidentLines
  | .pointOnLineDistance => ct.pointOnLineDistance
  | .pointToLineDistance => ct.pointToLineDistance
  | .relativePointOnLineDistance => ct.relativePointOnLineDistance
  | .box => ct.box
  | .width => ct.width
  | .height => ct.height
  | .aspectRatio => ct.aspectRatio
  | .axisThickness axis => ct.axisThickness axis
  | .margin outer side => ct.margin outer side
  | .outerMarginArray n side => ct.outerMarginArray n side
  | .align row => ct.align row
  | .coincidentOutwardFaces side => ct.coincidentOutwardFaces side
  | .rectilinearGrid rows cols => ct.rectilinearGrid rows cols
  | .grid rows cols => ct.grid rows cols
  | .positionAxis axis side twin => ct.positionAxis axis side twin
  | .positionAxisLabel axis twin => ct.positionAxisLabel axis twin

end MplLayout
