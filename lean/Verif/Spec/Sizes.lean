import Verif.Spec.Layout

/-!
# Vocabulary for stating that declared output sizes are honest
-/

namespace MplLayout

variable {K : Type}

/-- If the parameter is an array then it has one entry or `n` entries.  (A number is stretched to any
size; other parameters are refused when they are used.) -/
def Param.FitsSize (n : Nat) (p : Param K) : Prop := ∀ xs, p = .arr xs → xs.length = 1 ∨ xs.length = n

/-- Every point of the tree has two coordinates. -/
def Prim.Planar (p : Prim K) : Prop :=
  ∀ path (n : Prim K), p.At path n → n.ty.IsA .point → n.value.arr.length = 2

/-- The array parameters of a shipped constraint have sensible sizes: a location has two entries, a
direction is an array, a grid takes lists of values, every other value has one entry. -/
def Shipped.ParamsSized : Shipped → List (Param Flt) → Prop
  | .fix, ps => ∀ p ∈ ps, p.FitsSize 2
  | .directedDistance, ps | .directedLength, ps => ∃ d p, ps = [.arr d, p] ∧ p.FitsSize 1
  | .grid _ _, ps => ∀ p ∈ ps, ∀ qs, p.iter = .ok qs → ∀ q ∈ qs, q.FitsSize 1
  | _, ps => ∀ p ∈ ps, p.FitsSize 1

/-- The constraints that contain a `CoincidentLines`. -/
def Shipped.UsesCoincidentLines : Shipped → Prop
  | .coincidentLines | .coincidentOutwardFaces _ | .positionAxis _ _ _ => True
  | _ => False

/-- The shipped leaf constructions without parameters. -/
noncomputable def shippedLeaves0 : List (Cons Flt) :=
  [con.coordinate, con.xDistance, con.yDistance, con.lineVector, con.unitLineVector, con.length,
   con.xLength, con.yLength, con.midpoint, con.midpointXDistance, con.midpointYDistance, con.angle,
   con.aspectRatio]

/-- The shipped leaf constructions that take a direction. -/
noncomputable def shippedDirected : List (Cons Flt) :=
  [con.directedDistance, con.directedLength, con.midpointDirectedDistance]

/-- The shipped leaf constructions that take a flag. -/
noncomputable def shippedFlagged : List (Cons Flt) :=
  [con.pointOnLineDistance, con.pointToLineDistance, con.relativePointOnLineDistance]

end MplLayout
